import Verif.Lemmas.LinksRemove

/-!
# `RemoveMapElement` on the linked map
-/

namespace Verif.Map

variable {κ α : Type}

/-- Every element of a tree has a position. -/
theorem position_exists (t : Tree κ α) (k : κ) (v : α) (h : (k, v) ∈ toList t) :
    ∃ p b l r, t = plug p (.node b l k v r) := by
  suffices H : ∀ (t : Tree κ α) (p : Path κ α), (k, v) ∈ toList t → ∃ q b l r, plug p t = plug q (.node b l k v r) by
    obtain ⟨q, b, l, r, e⟩ := H t [] h
    exact ⟨q, b, l, r, e⟩
  intro t
  induction t with
  | nil => intro p h; simp [toList] at h
  | node b l nk nv r ihl ihr =>
    intro p h
    simp only [toList, List.mem_append, List.mem_cons, Prod.mk.injEq] at h
    rcases h with h | ⟨rfl, rfl⟩ | h
    · exact ihl (⟨.L, b, nk, nv, r⟩ :: p) h
    · exact ⟨p, b, l, r, rfl⟩
    · exact ihr (⟨.R, b, nk, nv, l⟩ :: p) h

theorem takePlace_absent [DecidableEq κ] (old k : κ) (v : α) (t : Tree κ α) (h : ∀ x ∈ toList t, x.1 ≠ old) :
    takePlace old k v t = t := by
  induction t with
  | nil => rfl
  | node b l nk nv r ihl ihr =>
    simp only [toList, List.mem_append, List.mem_cons] at h
    rw [takePlace, if_neg (h (nk, nv) (by simp)), ihl fun x hx => h x (by simp [hx]),
      ihr fun x hx => h x (by simp [hx])]

theorem takePlace_plug [DecidableEq κ] (old k : κ) (v : α) (p : Path κ α) (t : Tree κ α)
    (h : ∀ x ∈ lefts p ++ rights p, x.1 ≠ old) :
    takePlace old k v (plug p t) = plug p (takePlace old k v t) := by
  induction p generalizing t with
  | nil => rfl
  | cons f p ih =>
    obtain ⟨d, b, nk, nv, s⟩ := f
    simp only [lefts, rights, List.mem_append] at h
    simp only [plug]
    rw [ih _ fun x hx => h x (by simp only [List.mem_append] at hx; grind)]
    cases d
    · simp only [plug1, takePlace]
      rw [if_neg (h (nk, nv) (by simp)), takePlace_absent _ _ _ s fun x hx => h x (by simp [hx])]
    · simp only [plug1, takePlace]
      rw [if_neg (h (nk, nv) (by simp)), takePlace_absent _ _ _ s fun x hx => h x (by simp [hx])]

/-- In a sorted tree no other element has the key of a position. -/
theorem key_unique {lt : κ → κ → Bool} (O : Spec.StrictTotal lt) {p : Path κ α} {b : Int} {l r : Tree κ α}
    {k : κ} {v : α} (hs : Sorted lt (toList (plug p (.node b l k v r)))) :
    ∀ x ∈ lefts p ++ toList l ++ toList r ++ rights p, x.1 ≠ k := by
  rw [toList_plug] at hs
  simp only [toList, Sorted, List.pairwise_append, List.pairwise_cons, List.mem_append, List.mem_cons] at hs
  obtain ⟨⟨p1, ⟨p2, p3, p4⟩, p5⟩, p6, p7⟩ := hs
  rintro ⟨x, y⟩ hx rfl
  simp only [List.mem_append] at hx
  rcases hx with ((hx | hx) | hx) | hx
  · have := p5 _ hx (x, v) (by simp); simp [O.irrefl] at this
  · have := p4 _ hx (x, v) (by simp); simp [O.irrefl] at this
  · have := p3.1 _ hx; simp [O.irrefl] at this
  · have := p7 (x, v) (by simp) _ hx; simp [O.irrefl] at this

end Verif.Map

namespace Verif.Links

open Verif.Map (Tree Path Frame Dir plug plug1)

variable {κ : Type}

theorem path_length (p : Path κ Addr) : p.length ≤ (paddrs p).length := by
  induction p with
  | nil => simp
  | cons f p ih => simp only [paddrs, List.length_cons, List.length_append]; omega

/-- `unlink` of an object outside of the map. -/
theorem unlink_spec {h : Store κ} {m : MapId} {p : Path κ Addr} {t : Tree κ Addr} {v : Addr} {nv : Node κ}
    (z : Zip h m p t) (hv : h.node v = some nv) (hf : v ∉ addrs t ++ paddrs p) :
    ∃ h', unlink v h = .ok h' ∧ Zip h' m p t ∧ h'.node v = some ⟨none, none, none, none, nv.balance, nv.key⟩ ∧
      (∀ x, x ≠ v → h'.node x = h.node x) ∧ h'.root = h.root := by
  obtain ⟨h', i1, i2, i3, i4⟩ := mod_spec hv fun n => { n with super := none, left := none, right := none, owner := none }
  simp only [List.mem_append, not_or] at hf
  refine ⟨h', i1, ⟨?_, z.tree.congr fun a ha => i3 a (by rintro rfl; exact hf.1 ha), z.nodup⟩, i2, i3, i4⟩
  rw [i4]
  exact z.path.congr fun a ha => i3 a (by rintro rfl; exact hf.2 ha)

/-- The objects of a tree in a store. -/
theorem rep_node {N : Addr → Option (Node κ)} {m : MapId} {s : Option Addr} {t : Tree κ Addr} (h : Rep N m s t)
    {a : Addr} (ha : a ∈ addrs t) : ∃ n, N a = some n ∧ n.owner = some m ∧ (n.key, a) ∈ Map.toList t := by
  induction t generalizing s with
  | nil => simp [addrs] at ha
  | node b l k v r ihl ihr =>
    obtain ⟨h1, h2, h3⟩ := h
    simp only [addrs, List.mem_append, List.mem_cons] at ha
    rcases ha with ha | rfl | ha
    · obtain ⟨n, e1, e2, e3⟩ := ihl h2 ha
      exact ⟨n, e1, e2, by simp [Map.toList, e3]⟩
    · exact ⟨_, h1, rfl, by simp [Map.toList]⟩
    · obtain ⟨n, e1, e2, e3⟩ := ihr h3 ha
      exact ⟨n, e1, e2, by simp [Map.toList, e3]⟩

theorem removeBranch_case {n : Nat} {h : Store κ} {m : MapId} {p : Path κ Addr} {v : Addr} {nv : Node κ}
    {sub t' : Tree κ Addr} {ls : List (κ × Addr)} (hlen : p.length ≤ n)
    (hp : RepP h.node m (h.root m) p (some v)) (hv : h.node v = some nv) (hs : nv.super = supOf p)
    (hsub : Rep h.node m (some v) sub) (h1 : v ∉ addrs sub) (h2 : v ∉ paddrs p)
    (hn : (addrs sub ++ paddrs p).Nodup) (e : Map.removeClimb p sub = some t')
    (hl : Map.toList t' = ls) (hlv : v ∉ ls.map Prod.snd) :
    ∃ h', (do
        let h ← removeBranchNode n m v (ptr sub) h
        unlink v h) = .ok h' ∧ Zip h' m [] t' ∧
      h'.node v = some ⟨none, none, none, none, nv.balance, nv.key⟩ ∧
      Same m (v :: (addrs sub ++ paddrs p)) h h' := by
  obtain ⟨h1', a1, a2, a3⟩ := removeBranchNode_spec hlen hp hv hs hsub h1 h2 hn e
  have hv1 : h1'.node v = some nv := by
    rw [a3.node _ (by simp only [List.mem_append, not_or]; exact ⟨h1, h2⟩), hv]
  obtain ⟨h2', b1, b2, b3, b4, b5⟩ := unlink_spec a2 hv1 (by
    simp only [paddrs, List.append_nil, addrs_toList, hl]; exact hlv)
  refine ⟨h2', by simp [a1, b1], b2, b3, ⟨?_, ?_⟩⟩
  · intro a ha
    simp only [List.mem_cons, not_or] at ha
    rw [b4 a ha.1, a3.node a ha.2]
  · intro x hx; rw [b5, a3.root x hx]

theorem removeMapElement_spec [DecidableEq κ] {lt : κ → κ → Bool} (O : Spec.StrictTotal lt) {n : Nat}
    {h : Store κ} {m : MapId} {p : Path κ Addr} {b : Int} {l r : Tree κ Addr} {k : κ} {v : Addr}
    (z : Zip h m p (.node b l k v r)) (hb : Map.Bal (plug p (.node b l k v r)))
    (hs : Map.Sorted lt (Map.toList (plug p (.node b l k v r))))
    (hn : (addrs (.node b l k v r) ++ paddrs p).length ≤ n) :
    ∃ h' t' b', removeMapElement n m v h = .ok h' ∧ Map.removeAt p b l k v r = some t' ∧ Map.Bal t' ∧
      Map.toList t' = Map.lefts p ++ Map.toList l ++ Map.toList r ++ Map.rights p ∧ Zip h' m [] t' ∧
      h'.node v = some ⟨none, none, none, none, b', k⟩ ∧
      Same m (addrs (.node b l k v r) ++ paddrs p) h h' := by
  obtain ⟨t', e1, e2, e3⟩ := Map.removeAt_spec O p b l k v r hb hs
  obtain ⟨zp, ⟨f1, f2, f3⟩, zn⟩ := z
  have hlen := path_length p
  have hfresh : v ∉ (Map.lefts p ++ Map.toList l ++ Map.toList r ++ Map.rights p).map Prod.snd := by
    have hz := (zip_plug _ _ _ _).1 (⟨zp, ⟨f1, f2, f3⟩, zn⟩ : Zip h m p (.node b l k v r))
    have := hz.nodup
    simp only [paddrs, List.append_nil, addrs_toList, Map.toList_plug, Map.toList, List.map_append, List.map_cons,
      List.nodup_append, List.nodup_cons, List.mem_append, List.mem_cons] at this
    simp only [List.map_append, List.mem_append]
    grind
  have zn' := zn
  simp only [addrs, List.nodup_append, List.nodup_cons, List.mem_cons, List.mem_append, not_or, or_imp,
    forall_and, forall_eq] at zn
  simp only [addrs, List.length_append, List.length_cons] at hn
  cases l with
  | nil =>
    obtain ⟨h', a1, a2, a3, a4⟩ := removeBranch_case (n := n) (by omega) zp f1 rfl f3 (by grind) (by grind)
      (by simp only [List.nodup_append]; grind) e1 e3 hfresh
    refine ⟨h', t', b, ?_, e1, e2, e3, a2, a3, a4.mono ?_⟩
    · simp only [removeMapElement, get_eq f1, Out.ok_bind, ptr_nil]
      exact a1
    · intro x hx; simp only [addrs, List.mem_cons, List.mem_append] at hx ⊢; grind
  | node lb ll lk lv lr =>
    cases r with
    | nil =>
      obtain ⟨h', a1, a2, a3, a4⟩ := removeBranch_case (n := n) (by omega) zp f1 rfl f2 (by grind) (by grind)
        (by simp only [List.nodup_append]; grind) e1 e3 hfresh
      refine ⟨h', t', b, ?_, e1, e2, e3, a2, a3, a4.mono ?_⟩
      · simp only [removeMapElement, get_eq f1, Out.ok_bind, ptr_nil, ptr_node]
        exact a1
      · intro x hx; simp only [addrs, List.mem_cons, List.mem_append] at hx ⊢; grind
    | node rb rl rk rv rr =>
      generalize hL : Tree.node lb ll lk lv lr = L at *
      have hrem : Map.removeAt p b L k v (.node rb rl rk rv rr) =
          ((Map.firstElement (.node rb rl rk rv rr) (⟨.R, b, k, v, L⟩ :: p)).bind fun (pt, tk, tv, tr) =>
            (Map.removeBranchNode pt tr).map (Map.takePlace k tk tv)) := by
        subst hL; rfl
      obtain ⟨q, tb, tk, tv, tr, hq⟩ := Map.firstElement_node rb rl rk rv rr (⟨.R, b, k, v, L⟩ :: p)
      rcases hq with ⟨g1, g2, g3, g4⟩ | ⟨hq, _⟩
      case inr => simp at hq
      rw [hrem, g1] at e1
      simp only [Option.bind_some, Map.removeBranchNode, Option.map_eq_some_iff] at e1
      obtain ⟨t0, c1, c2⟩ := e1
      subst c2
      -- the position of `top`
      have zq : Zip h m q (.node tb .nil tk tv tr) := by
        rw [zip_plug, g2, ← zip_plug, zip_step]
        exact ⟨zp, ⟨f1, f2, f3⟩, zn'⟩
      have hperm : ∀ x, x ∈ addrs (.node tb .nil tk tv tr) ++ paddrs q ↔
          x ∈ addrs (.node b L k v (.node rb rl rk rv rr)) ++ paddrs p := by
        intro x
        rw [List.mem_append, ← mem_addrs_plug, g2, mem_addrs_plug, ← mem_addrs_plug, List.mem_append,
          ← mem_addrs_plug]
        rfl
      obtain ⟨qp, ⟨q1, q2, q3⟩, qn⟩ := zq
      have qn' := qn
      simp only [addrs, List.nil_append, List.cons_append, List.nodup_append, List.nodup_cons, List.mem_cons,
        List.mem_append, not_or] at qn
      have hqlen : q.length ≤ n := by
        have h1 := path_length q
        have h2 : (addrs (plug q (.node tb .nil tk tv tr))).length = (addrs (plug (⟨.R, b, k, v, L⟩ :: p)
          (.node rb rl rk rv rr))).length := by rw [g2]
        have h3 : ∀ (p : Path κ Addr) (t : Tree κ Addr), (addrs (plug p t)).length = (addrs t).length + (paddrs p).length := by
          intro p
          induction p with
          | nil => intro t; simp [plug, paddrs]
          | cons f p ih =>
            intro t
            obtain ⟨d, b, k, v, s⟩ := f
            cases d <;> simp [plug, paddrs, ih, plug1, addrs] <;> omega
        rw [h3, h3] at h2
        simp only [paddrs, addrs, List.length_append, List.length_cons, List.length_nil] at h2 hn ⊢
        omega
      obtain ⟨h1, a1, a2, a3⟩ := removeBranchNode_spec hqlen qp q1 rfl q3 qn.1.1 qn.1.2
        (by simp only [List.nodup_append]; exact qn.2) c1
      -- the tree without `top`
      have hbq := hb
      change Map.Bal (plug (⟨.R, b, k, v, L⟩ :: p) (.node rb rl rk rv rr)) at hbq
      rw [← g2, Map.bal_plug] at hbq
      simp only [Map.Bal, Map.height] at hbq
      obtain ⟨t1, c3, c4, c5⟩ := Map.removeClimb_spec q tr hbq.1.2.1 (by
        rw [show Map.height tr + 1 = 1 + max 0 (Map.height tr) by omega]; exact hbq.2)
      rw [c1, Option.some.injEq] at c3
      subst c3
      have hlist : Map.toList (plug q (.node tb .nil tk tv tr)) =
          Map.toList (plug p (.node b L k v (.node rb rl rk rv rr))) := by rw [g2]; rfl
      have hs0 : Map.Sorted lt (Map.toList t0) := by
        have hs1 := hs
        rw [← hlist, Map.toList_plug] at hs1
        rw [c5]
        refine List.Pairwise.sublist ?_ hs1
        simp only [Map.toList, List.nil_append]
        exact ((List.sublist_cons_self _ _).append_left _).append_right _
      have hmem : (k, v) ∈ Map.toList t0 := by rw [c5, g3]; simp [Map.lefts]
      obtain ⟨q', b', l', r', hpos⟩ := Map.position_exists t0 k v hmem
      have hu := Map.key_unique O (p := q') (b := b') (l := l') (r := r') (k := k) (v := v) (by rw [← hpos]; exact hs0)
      have htp : Map.takePlace k tk tv t0 = plug q' (.node b' l' tk tv r') := by
        rw [hpos, Map.takePlace_plug _ _ _ _ _ fun x hx => hu x (by
          simp only [List.mem_append] at hx ⊢; grind)]
        rw [Map.takePlace, if_pos rfl]
      have ztop : Zip h1 m q' (.node b' l' k v r') := by rw [zip_plug, ← hpos]; exact a2
      have hw : h1.node tv = h.node tv := a3.node _ (by simp only [List.mem_append, not_or]; exact qn.1)
      rw [q1] at hw
      have hmem0 : ∀ x, x ∈ addrs (.node b' l' k v r') ++ paddrs q' ↔ x ∈ addrs tr ++ paddrs q := by
        intro x
        rw [List.mem_append, ← mem_addrs_plug, ← hpos, addrs_toList, c5, List.mem_append, ← mem_addrs_plug,
          addrs_toList, Map.toList_plug]
      obtain ⟨h2, nv, d1, d2, d3, d4, d5⟩ := takePlace_spec ztop hw rfl (by
        rw [hmem0]; simp only [List.mem_append, not_or]; exact qn.1)
      rw [htp] at e2 e3
      have zf : Zip h2 m [] (plug q' (.node b' l' tk tv r')) := (zip_plug _ _ _ _).1 d2
      obtain ⟨h3, i1, i2, i3, i4, i5⟩ := unlink_spec zf d3 (by
        simp only [paddrs, List.append_nil, addrs_toList, e3]; exact hfresh)
      refine ⟨h3, _, nv.balance, ?_, ?_, e2, e3, i2, by rw [i3, d4], ⟨?_, ?_⟩⟩
      · have hfe := firstElement_spec (h := h) rfl (.node rb rl rk rv rr) n _ _ _ _ _ _ _ (by
          simp only [addrs, List.length_append, List.length_cons] at hn ⊢; omega) f3 rfl g1
        subst hL
        simp only [removeMapElement, get_eq f1, Out.ok_bind, ptr_node, hfe, get_eq q1, a1, d1, i1]
      · rw [hrem, g1]
        simp only [Option.bind_some, Map.removeBranchNode, c1, Option.map_some, htp]
      · intro a ha
        rw [← hperm] at ha
        have hav : a ≠ v := by
          rintro rfl
          exact ha ((hperm a).2 (by simp [addrs]))
        simp only [addrs, List.nil_append, List.cons_append, List.mem_cons, not_or] at ha
        rw [i4 a hav, d5.node a (by
          simp only [List.mem_cons, not_or]; exact ⟨ha.1, by rw [hmem0]; exact ha.2⟩), a3.node a ha.2]
      · intro x hx
        rw [i5, d5.root x hx, a3.root x hx]

end Verif.Links
