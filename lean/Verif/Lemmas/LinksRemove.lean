import Verif.Lemmas.LinksInsert

/-!
# Removing from the linked map follows the tree model
-/

namespace Verif.Links

open Verif.Map (Tree Path Frame Dir plug plug1)

variable {κ : Type}

theorem removeClimb_cons (f : Frame κ Addr) (p : Path κ Addr) (t : Tree κ Addr) :
    Map.removeClimb (f :: p) t =
      if (f.balance + -dirInt f.dir).natAbs = 1 then
        some (plug p (plug1 { f with balance := f.balance + -dirInt f.dir } t))
      else if f.balance + -dirInt f.dir ≠ 0 then
        if f.balance + -dirInt f.dir > 0 then
          (Map.rightBalance (plug1 { f with balance := f.balance + -dirInt f.dir } t)).bind fun rb =>
            if rb ≥ 0 then
              (Map.rotateLeft (plug1 { f with balance := f.balance + -dirInt f.dir } t)).bind fun n =>
                if rb = 0 then some (plug p n) else Map.removeClimb p n
            else (Map.zigZagLeft (plug1 { f with balance := f.balance + -dirInt f.dir } t)).bind fun n =>
              Map.removeClimb p n
        else
          (Map.leftBalance (plug1 { f with balance := f.balance + -dirInt f.dir } t)).bind fun lb =>
            if lb ≤ 0 then
              (Map.rotateRight (plug1 { f with balance := f.balance + -dirInt f.dir } t)).bind fun n =>
                if lb = 0 then some (plug p n) else Map.removeClimb p n
            else (Map.zigZagRight (plug1 { f with balance := f.balance + -dirInt f.dir } t)).bind fun n =>
              Map.removeClimb p n
      else Map.removeClimb p (plug1 { f with balance := f.balance + -dirInt f.dir } t) := by
  obtain ⟨d, b, k, v, s⟩ := f
  cases d <;> rfl

/-- What the end of one round of the loop of `RemoveBranchNode` does, given the rebalanced position. -/
theorem removeLoop_next {m : MapId} {n : Nat} {p : Path κ Addr}
    (ih : ∀ (f : Frame κ Addr) (q : Path κ Addr), p = f :: q → ∀ (h : Store κ) (t t' : Tree κ Addr),
      Zip h m (f :: q) t → Map.removeClimb (f :: q) t = some t' →
      ∃ h', removeLoop m n (-dirInt f.dir) f.val h = .ok h' ∧ Zip h' m [] t' ∧
        Same m (addrs t ++ paddrs (f :: q)) h h')
    (h : Store κ) (t t' : Tree κ Addr) (a : Addr) (z : Zip h m p t) (ha : ptr t = some a)
    (e : Map.removeClimb p t = some t') :
    ∃ h', (match supOf p with
      | none => (return h : Out (Store κ))
      | some super => do
          let s ← h.get super
          removeLoop m n (if s.left = some a then 1 else -1) super h) = .ok h' ∧
      Zip h' m [] t' ∧ Same m (addrs t ++ paddrs p) h h' := by
  cases p with
  | nil => cases e; exact ⟨h, rfl, z, Same.refl _ _ _⟩
  | cons f q =>
    obtain ⟨h', s1, s2, s3⟩ := ih f q rfl h t t' z e
    refine ⟨h', ?_, s2, s3⟩
    have hl := frame_left z (ptr_mem ha) (ptr t) ha
    have hd : (if f.dir = Dir.L then (1 : Int) else -1) = -dirInt f.dir := by cases f.dir <;> rfl
    simp only [supOf_cons, get_eq z.path.1, Out.ok_bind, hl, hd]
    exact s1

theorem removeLoop_spec (n : Nat) :
    ∀ (p : Path κ Addr) (f : Frame κ Addr) (h : Store κ) (m : MapId) (t t' : Tree κ Addr), p.length < n →
      Zip h m (f :: p) t → Map.removeClimb (f :: p) t = some t' →
      ∃ h', removeLoop m n (-dirInt f.dir) f.val h = .ok h' ∧ Zip h' m [] t' ∧
        Same m (addrs t ++ paddrs (f :: p)) h h' := by
  induction n with
  | zero => intro p f h m t t' hn; simp at hn
  | succ n ih =>
    intro p f h m t t' hn z e
    have hnext := removeLoop_next (m := m) (n := n) (p := p) (fun f q hq h t t' z e =>
      ih q f h m t t' (by subst hq; simp at hn; omega) z e)
    have hb : (frameNode m f (supOf p) (ptr t)).balance = f.balance := by
      obtain ⟨d, b, k, v, s⟩ := f; cases d <;> rfl
    have hs : (frameNode m f (supOf p) (ptr t)).super = supOf p := by
      obtain ⟨d, b, k, v, s⟩ := f; cases d <;> rfl
    obtain ⟨h1, i1, i2, i3, i4⟩ := zip_balance (f.balance + -dirInt f.dir) z
      (fun s => { s with balance := s.balance + -dirInt f.dir }) (by simp only [hb])
    rw [removeClimb_cons] at e
    have hmono : ∀ x ∈ addrs (plug1 { f with balance := f.balance + -dirInt f.dir } t) ++
        paddrs p, x ∈ addrs t ++ paddrs (f :: p) := by
      intro x hx
      simp only [List.mem_append, mem_addrs_plug1, paddrs, List.mem_cons] at hx ⊢
      grind
    have hsame : Same m (addrs t ++ paddrs (f :: p)) h h1 :=
      i4.mono (by intro x hx; simp [paddrs] at hx ⊢; grind)
    have hptr : ptr (plug1 { f with balance := f.balance + -dirInt f.dir } t) = some f.val :=
      ptr_plug1 _ _
    generalize hT : plug1 { f with balance := f.balance + -dirInt f.dir } t = T at *
    generalize hB : f.balance + -dirInt f.dir = B at *
    cases hTT : T with
    | nil => rw [hTT] at hptr; cases hptr
    | node tb l k v r =>
    subst hTT
    obtain ⟨e1, e2, e3⟩ := i3.tree
    cases hptr
    have htb : tb = B := by
      rw [e1] at i2
      simp only [Option.some.injEq, Node.mk.injEq] at i2
      exact i2.2.2.2.2.1
    subst htb
    simp only [removeLoop, i1, Out.ok_bind, get_eq e1]
    by_cases h1b : tb.natAbs = 1
    · simp only [h1b, if_true] at e ⊢
      cases e
      exact ⟨h1, rfl, (zip_plug _ _ _ _).1 i3, hsame⟩
    · simp only [h1b, if_false] at e ⊢
      by_cases h0 : tb = 0
      · simp only [h0, ne_eq, not_true, if_false] at e i3 hmono ⊢
        obtain ⟨h', s1, s2, s3⟩ := hnext h1 _ t' f.val i3 rfl e
        refine ⟨h', ?_, s2, hsame.trans (s3.mono hmono)⟩
        rw [← s1]
        rfl
      · simp only [ne_eq, h0, not_false_eq_true, if_true] at e ⊢
        by_cases hpos : tb > 0
        · simp only [hpos, if_true] at e ⊢
          cases r with
          | nil => cases e
          | node rb rl rk rv rr =>
            simp only [Map.rightBalance, Option.bind_some] at e
            simp only [ptr_node, deref, Out.ok_bind, get_eq e3.1]
            by_cases hrb : rb ≥ 0
            · simp only [hrb, if_true] at e ⊢
              cases hr : Map.rotateLeft (.node tb l k f.val (.node rb rl rk rv rr)) with
              | none => rw [hr] at e; cases e
              | some T2 =>
                rw [hr, Option.bind_some] at e
                obtain ⟨h2, a, s1, s2, s3, s4⟩ := rotateLeft_ref i3 hr rfl
                simp only [s1, Out.ok_bind, Out.pure_eq]
                have hs2 := hsame.trans (s4.mono hmono)
                by_cases hz : rb = 0
                · simp only [hz, if_true] at e
                  cases e
                  exact ⟨h2, by simp [hz], (zip_plug _ _ _ _).1 s3, hs2⟩
                · simp only [hz, if_false] at e
                  obtain ⟨h', q1, q2, q3⟩ := hnext h2 _ t' a s3 s2 e
                  refine ⟨h', ?_, q2, hs2.trans (q3.mono fun x hx => hmono x ?_)⟩
                  · refine Eq.trans ?_ q1; simp only [hz, decide_false, Bool.false_eq_true, if_false]; rfl
                  · rw [addrs_toList, Map.toList_rotateLeft hr, ← addrs_toList] at hx; exact hx
            · simp only [hrb, if_false] at e ⊢
              cases hr : Map.zigZagLeft (.node tb l k f.val (.node rb rl rk rv rr)) with
              | none => rw [hr] at e; cases e
              | some T2 =>
                rw [hr, Option.bind_some] at e
                obtain ⟨h2, a, s1, s2, s3, s4⟩ := zigZagLeft_ref i3 hr rfl
                simp only [s1, Out.ok_bind, Out.pure_eq]
                have hs2 := hsame.trans (s4.mono hmono)
                obtain ⟨h', q1, q2, q3⟩ := hnext h2 _ t' a s3 s2 e
                refine ⟨h', ?_, q2, hs2.trans (q3.mono fun x hx => hmono x ?_)⟩
                · refine Eq.trans ?_ q1; simp only [Bool.false_eq_true, if_false]; rfl
                · rw [addrs_toList, Map.toList_zigZagLeft hr, ← addrs_toList] at hx; exact hx
        · simp only [hpos, if_false] at e ⊢
          cases l with
          | nil => cases e
          | node rb rl rk rv rr =>
            simp only [Map.leftBalance, Option.bind_some] at e
            simp only [ptr_node, deref, Out.ok_bind, get_eq e2.1]
            by_cases hrb : rb ≤ 0
            · simp only [hrb, if_true] at e ⊢
              cases hr : Map.rotateRight (.node tb (.node rb rl rk rv rr) k f.val r) with
              | none => rw [hr] at e; cases e
              | some T2 =>
                rw [hr, Option.bind_some] at e
                obtain ⟨h2, a, s1, s2, s3, s4⟩ := rotateRight_ref i3 hr rfl
                simp only [s1, Out.ok_bind, Out.pure_eq]
                have hs2 := hsame.trans (s4.mono hmono)
                by_cases hz : rb = 0
                · simp only [hz, if_true] at e
                  cases e
                  exact ⟨h2, by simp [hz], (zip_plug _ _ _ _).1 s3, hs2⟩
                · simp only [hz, if_false] at e
                  obtain ⟨h', q1, q2, q3⟩ := hnext h2 _ t' a s3 s2 e
                  refine ⟨h', ?_, q2, hs2.trans (q3.mono fun x hx => hmono x ?_)⟩
                  · refine Eq.trans ?_ q1; simp only [hz, decide_false, Bool.false_eq_true, if_false]; rfl
                  · rw [addrs_toList, Map.toList_rotateRight hr, ← addrs_toList] at hx; exact hx
            · simp only [hrb, if_false] at e ⊢
              cases hr : Map.zigZagRight (.node tb (.node rb rl rk rv rr) k f.val r) with
              | none => rw [hr] at e; cases e
              | some T2 =>
                rw [hr, Option.bind_some] at e
                obtain ⟨h2, a, s1, s2, s3, s4⟩ := zigZagRight_ref i3 hr rfl
                simp only [s1, Out.ok_bind, Out.pure_eq]
                have hs2 := hsame.trans (s4.mono hmono)
                obtain ⟨h', q1, q2, q3⟩ := hnext h2 _ t' a s3 s2 e
                refine ⟨h', ?_, q2, hs2.trans (q3.mono fun x hx => hmono x ?_)⟩
                · refine Eq.trans ?_ q1; simp only [Bool.false_eq_true, if_false]; rfl
                · rw [addrs_toList, Map.toList_zigZagRight hr, ← addrs_toList] at hx; exact hx

/-- The side of an element, seen from its `superNode`. -/
theorem frameNode_left {m : MapId} {f : Frame κ Addr} {p : Path κ Addr} {v : Addr} (h1 : v ∉ paddrs (f :: p))
    (s : Option Addr) : (frameNode m f s (some v)).left = some v ↔ f.dir = .L := by
  obtain ⟨d, b, k, w, t⟩ := f
  cases d
  · simp [frameNode]
  · simp only [frameNode, reduceCtorEq, iff_false]
    intro e
    exact h1 (by simp [paddrs, ptr_mem e])

theorem replaceSubnode_spec {h : Store κ} {m : MapId} {f : Frame κ Addr} {p : Path κ Addr} {v : Addr}
    (new : Option Addr) (hp : RepP h.node m (h.root m) (f :: p) (some v)) (h1 : v ∉ paddrs (f :: p))
    (hn : (paddrs (f :: p)).Nodup) :
    ∃ h', replaceSubnode f.val v new h = .ok h' ∧ RepP h'.node m (h'.root m) (f :: p) new ∧
      (∀ x, x ≠ f.val → h'.node x = h.node x) ∧ h'.root = h.root := by
  have hl := frameNode_left (m := m) h1 (supOf p)
  obtain ⟨e1, e2, e3⟩ := hp
  simp only [paddrs, List.nodup_cons, List.mem_append, not_or] at hn
  simp only [replaceSubnode, get_eq e1, Out.ok_bind, hl]
  have key : ∀ g : Node κ → Node κ, g (frameNode m f (supOf p) (some v)) = frameNode m f (supOf p) new →
      ∃ h', h.mod f.val g = .ok h' ∧ RepP h'.node m (h'.root m) (f :: p) new ∧
        (∀ x, x ≠ f.val → h'.node x = h.node x) ∧ h'.root = h.root := by
    intro g hg
    obtain ⟨h', i1, i2, i3, i4⟩ := mod_spec e1 g
    refine ⟨h', i1, ⟨by rw [i2, hg], e2.congr ?_, ?_⟩, i3, i4⟩
    · intro a ha; exact i3 a (by rintro rfl; exact hn.1.1 ha)
    · rw [i4]; exact e3.congr fun a ha => i3 a (by rintro rfl; exact hn.1.2 ha)
  obtain ⟨d, b, k, w, t⟩ := f
  cases d
  · simp only [if_true]
    exact key _ rfl
  · simp only [reduceCtorEq, if_false]
    exact key _ rfl

theorem removeBranchNode_spec {n : Nat} {h : Store κ} {m : MapId} {p : Path κ Addr} {v : Addr} {nv : Node κ}
    {sub t' : Tree κ Addr} (hlen : p.length ≤ n) (hp : RepP h.node m (h.root m) p (some v))
    (hv : h.node v = some nv) (hs : nv.super = supOf p) (hsub : Rep h.node m (some v) sub)
    (h1 : v ∉ addrs sub) (h2 : v ∉ paddrs p) (hn : (addrs sub ++ paddrs p).Nodup)
    (e : Map.removeClimb p sub = some t') :
    ∃ h', removeBranchNode n m v (ptr sub) h = .ok h' ∧ Zip h' m [] t' ∧
      Same m (addrs sub ++ paddrs p) h h' := by
  have hn' := hn
  simp only [List.nodup_append] at hn
  obtain ⟨hA, i1, i2, i3, i4⟩ := setSuper_spec (supOf p) hsub hn.1
  have hpA : RepP hA.node m (hA.root m) p (some v) := by
    rw [i4]; exact hp.congr fun a ha => i3 a (by grind)
  cases p with
  | nil =>
    cases e
    simp only [supOf_nil] at i1
    simp only [removeBranchNode, get_eq hv, hs, i1, Out.ok_bind, supOf_nil, Out.pure_eq]
    refine ⟨_, rfl, ⟨by simp [RepP, Store.setRoot], i2, hn'⟩, ⟨?_, ?_⟩⟩
    · intro a ha; exact i3 a (by simp [paddrs] at ha; exact ha)
    · intro x hx; simp [Store.setRoot, hx, i4]
  | cons f q =>
    have hl := frameNode_left (m := m) h2 (supOf q)
    have hd : (if f.dir = Dir.L then (1 : Int) else -1) = -dirInt f.dir := by cases f.dir <;> rfl
    obtain ⟨hB, j1, j2, j3, j4⟩ := replaceSubnode_spec (ptr sub) hpA h2 hn.2.1
    simp only [supOf_cons] at i1
    simp only [removeBranchNode, get_eq hv, hs, i1, Out.ok_bind, supOf_cons, get_eq hpA.1, hl, hd, j1]
    have zB : Zip hB m (f :: q) sub := ⟨j2, i2.congr fun a ha => j3 a (by
      rintro rfl; exact hn.2.2 _ ha _ (by simp [paddrs]) rfl), hn'⟩
    obtain ⟨h', q1, q2, q3⟩ := removeLoop_spec n q f hB m sub t' (by simp at hlen; omega) zB e
    refine ⟨h', q1, q2, Same.trans ⟨?_, ?_⟩ q3⟩
    · intro a ha
      simp only [List.mem_append, paddrs, List.mem_cons, not_or] at ha
      rw [j3 a ha.2.1, i3 a ha.1]
    · intro x _; rw [j4, i4]

/-- Walking down to the first element of a subtree. -/
theorem firstElement_spec {N : Addr → Option (Node κ)} {h : Store κ} {m : MapId} (hN : N = h.node)
    (t : Tree κ Addr) : ∀ (n : Nat) (s : Option Addr) (p : Path κ Addr) (v : Addr) (q : Path κ Addr)
      (k : κ) (a : Addr) (r : Tree κ Addr), (addrs t).length ≤ n → Rep N m s t → ptr t = some v →
      Map.firstElement t p = some (q, k, a, r) → firstElement n v h = .ok a := by
  subst hN
  induction t with
  | nil => intro n s p v q k a r _ _ hv; cases hv
  | node b l nk nv nr ihl _ =>
    intro n s p v q k a r hn hr hv e
    cases hv
    obtain ⟨e1, e2, e3⟩ := hr
    cases n with
    | zero => simp [addrs] at hn
    | succ n =>
      cases l with
      | nil =>
        simp only [Map.firstElement, Option.some.injEq, Prod.mk.injEq] at e
        obtain ⟨-, -, rfl, -⟩ := e
        simp [firstElement, get_eq e1]
      | node lb ll lk lv lr =>
        simp only [Map.firstElement] at e
        simp only [firstElement, get_eq e1, ptr_node, Out.ok_bind]
        exact ihl n _ _ _ _ _ _ _ (by simp only [addrs, List.length_append, List.length_cons] at hn ⊢; omega)
          e2 rfl e

/-- `takePlace` puts another element into a position. -/
theorem takePlace_spec {h : Store κ} {m : MapId} {p : Path κ Addr} {b : Int} {l r : Tree κ Addr} {k : κ}
    {v w : Addr} {nw : Node κ} (z : Zip h m p (.node b l k v r)) (hw : h.node w = some nw)
    (ho : nw.owner = some m) (hf : w ∉ addrs (.node b l k v r) ++ paddrs p) :
    ∃ h' nv, takePlace m v w h = .ok h' ∧ Zip h' m p (.node b l nw.key w r) ∧
      h'.node v = some nv ∧ nv.key = k ∧ Same m (w :: (addrs (.node b l k v r) ++ paddrs p)) h h' := by
  obtain ⟨zp, ⟨e1, e2, e3⟩, zn⟩ := z
  have zn' := zn
  simp only [addrs, List.nodup_append, List.nodup_cons, List.mem_cons, List.mem_append, not_or, or_imp,
    forall_and, forall_eq] at zn hf
  have hvw : v ≠ w := by grind
  obtain ⟨h1, a1, a2, a3, a4⟩ := mod_spec hw fun n => { n with super := supOf p }
  have hpath : ∃ h2, (match supOf p with
      | some s => replaceSubnode s v (some w) h1
      | none => (.ok (h1.setRoot m (some w)) : Out (Store κ))) = .ok h2 ∧
      RepP h2.node m (h2.root m) p (some w) ∧ (∀ x, x ∉ paddrs p → h2.node x = h1.node x) ∧
      (∀ x, x ≠ m → h2.root x = h1.root x) := by
    have hp1 : RepP h1.node m (h1.root m) p (some v) := by
      rw [a4]; exact zp.congr fun a ha => a3 a (by grind)
    cases p with
    | nil => exact ⟨_, rfl, by simp [RepP, Store.setRoot], fun _ _ => rfl, fun x hx => by simp [Store.setRoot, hx]⟩
    | cons f q =>
      obtain ⟨h2, b1, b2, b3, b4⟩ := replaceSubnode_spec (some w) hp1 (by grind) (by grind)
      exact ⟨h2, b1, b2, fun x hx => b3 x (by rintro rfl; simp [paddrs] at hx), fun x _ => by rw [b4]⟩
  obtain ⟨h2, b1, b2, b3, b4⟩ := hpath
  have c1 : h2.node v = h.node v := by rw [b3 _ (by grind), a3 _ hvw]
  have c2 : h2.node w = h1.node w := b3 _ (by grind)
  rw [e1] at c1
  rw [a2] at c2
  obtain ⟨h3, d1, d2, d3, d4⟩ := mod_spec c2 fun n => { n with left := ptr l }
  have f2 : Rep h3.node m (some v) l := e2.congr fun a ha => by
    rw [d3 _ (by grind), b3 _ (by grind), a3 _ (by grind)]
  obtain ⟨h4, g1, g2, g3, g4⟩ := setSuper_spec (some w) f2 (by grind)
  have i1 : h4.node v = h2.node v := by rw [g3 _ (by grind), d3 _ hvw]
  have i2 : h4.node w = h3.node w := by rw [g3 _ (by grind)]
  rw [c1] at i1
  rw [d2] at i2
  obtain ⟨h5, j1, j2, j3, j4⟩ := mod_spec i2 fun n => { n with right := ptr r }
  have f3 : Rep h5.node m (some v) r := e3.congr fun a ha => by
    rw [j3 _ (by grind), g3 _ (by grind), d3 _ (by grind), b3 _ (by grind), a3 _ (by grind)]
  obtain ⟨h6, k1, k2, k3, k4⟩ := setSuper_spec (some w) f3 (by grind)
  have l1 : h6.node v = h4.node v := by rw [k3 _ (by grind), j3 _ hvw]
  have l2 : h6.node w = h5.node w := by rw [k3 _ (by grind)]
  rw [i1] at l1
  rw [j2] at l2
  obtain ⟨h7, m1, m2, m3, m4⟩ := mod_spec l2 fun n => { n with balance := b }
  have run : takePlace m v w h = .ok h7 := by
    simp only [takePlace, get_eq e1, Out.ok_bind, a1]
    refine (congrArg (fun x => x >>= _) b1).trans ?_
    simp only [Out.ok_bind, get_eq c1, d1, g1, get_eq i1, j1, k1, get_eq l1, m1]
  refine ⟨h7, _, run, ⟨?_, ⟨?_, ?_, ?_⟩, ?_⟩, (m3 v hvw).trans l1, rfl, ⟨?_, ?_⟩⟩
  · rw [m4, k4, j4, g4, d4]
    refine b2.congr fun a ha => ?_
    rw [m3 _ (by grind), k3 _ (by grind), j3 _ (by grind), g3 _ (by grind), d3 _ (by grind)]
  · rw [m2]; simp [ho]
  · exact g2.congr fun a ha => by rw [m3 _ (by grind), k3 _ (by grind), j3 _ (by grind)]
  · exact k2.congr fun a ha => by rw [m3 _ (by grind)]
  · simp only [addrs, List.nodup_append, List.nodup_cons, List.mem_cons, List.mem_append, not_or, or_imp,
      forall_and, forall_eq]
    grind
  · intro a ha
    simp only [addrs, List.mem_cons, List.mem_append, not_or] at ha
    rw [m3 _ (by grind), k3 _ (by grind), j3 _ (by grind), g3 _ (by grind), d3 _ (by grind), b3 _ (by grind),
      a3 _ (by grind)]
  · intro x hx
    rw [m4, k4, j4, g4, d4, b4 x hx, a4]

end Verif.Links
