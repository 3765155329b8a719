import Verif.Lemmas.LinksPurge

/-!
# `ReplaceMapElement` below the root
-/

namespace Verif.Links

open Verif.Map (Tree Path Frame Dir plug plug1)
open Verif.Spec (World)

variable {κ : Type} {lt : κ → κ → Bool}

theorem insertReplaceSearch_spec {h : Store κ} {m : MapId} (key : κ) (a : Addr) (f : Nat) (t : Tree κ Addr)
    (s : Option Addr) (p : Path κ Addr) (v : Addr) (n : Nat)
    (ht : Rep h.node m s t) (hv : ptr t = some v) (hn : (addrs t).length ≤ n) :
    insertReplaceSearch lt f m key a n v h =
      match Map.descend lt key t p with
      | none => (match (Map.findMapElement lt key t).map (·.2) with
        | some x => if a ≠ x then (some x, ·) <$> replaceMapElement f m x a h else .ok (none, h)
        | none => .ub)
      | some q => (none, ·) <$> insertAt f m a q h := by
  induction t generalizing s n v p with
  | nil => cases hv
  | node b l k w r ihl ihr =>
    obtain ⟨h1, h2, h3⟩ := ht
    simp only [ptr_node, Option.some.injEq] at hv
    subst hv
    simp only [addrs, List.length_append, List.length_cons] at hn
    obtain ⟨n, rfl⟩ : ∃ n', n = n' + 1 := ⟨n - 1, by omega⟩
    simp only [insertReplaceSearch, get_eq h1, Out.ok_bind, Map.descend, Map.findMapElement]
    split
    · cases l with
      | nil => simp only [ptr_nil, Map.descend, insertAt]
      | node lb ll lk lv lr => exact ihl _ _ _ _ h2 rfl (by omega)
    · split
      · cases r with
        | nil => simp only [ptr_nil, Map.descend, insertAt]
        | node lb ll lk lv lr => exact ihr _ _ _ _ h3 rfl (by omega)
      · rfl

theorem insertReplaceMapElement_spec {h : Store κ} {m : MapId} {t : Tree κ Addr} (z : Zip h m [] t) {a : Addr}
    {na : Node κ} (ha : h.node a = some na) (n : Nat) (hn : (addrs t).length ≤ n) :
    insertReplaceMapElement lt n m a h =
      match Map.descend lt na.key t [] with
      | none => (match (Map.findMapElement lt na.key t).map (·.2) with
        | some x => if a ≠ x then (some x, ·) <$> replaceMapElement n m x a h else .ok (none, h)
        | none => .ub)
      | some q => (none, ·) <$> insertAt n m a q h := by
  have hr : h.root m = ptr t := z.path
  unfold insertReplaceMapElement
  rw [hr]
  cases t with
  | nil => rfl
  | node b l k v r =>
    simp only [ptr_node, get_eq ha, Out.ok_bind]
    exact insertReplaceSearch_spec _ _ _ _ _ _ _ _ z.tree rfl hn

/-- A loose object takes the place of an element below the root. -/
theorem replace_spec {h : Store κ} {m : MapId} {f : Frame κ Addr} {p : Path κ Addr} {b : Int} {l r : Tree κ Addr}
    {k : κ} {v w : Addr} {nw : Node κ} (n : Nat) (z : Zip h m (f :: p) (.node b l k v r)) (hw : h.node w = some nw)
    (ho : nw.owner = none) (hf : w ∉ addrs (.node b l k v r) ++ paddrs (f :: p)) :
    ∃ h' b', replaceMapElement n m v w h = .ok h' ∧ Zip h' m (f :: p) (.node b l nw.key w r) ∧
      h'.node v = some ⟨none, none, none, none, b', k⟩ ∧
      Same m (w :: (addrs (.node b l k v r) ++ paddrs (f :: p))) h h' := by
  obtain ⟨zp, ⟨e1, e2, e3⟩, zn⟩ := z
  have zn' := zn
  simp only [addrs, List.nodup_append, List.nodup_cons, List.mem_cons, List.mem_append, not_or, or_imp,
    forall_and, forall_eq] at zn hf
  have hvw : v ≠ w := by grind
  have hd : detach n w h = .ok h := by simp [detach, get_eq hw, ho]
  obtain ⟨h2, b1, b2, b3', b4⟩ := replaceSubnode_spec (some w) zp (by grind) (by grind)
  have b3 : ∀ x, x ∉ paddrs (f :: p) → h2.node x = h.node x :=
    fun x hx => b3' x (by rintro rfl; simp [paddrs] at hx)
  have hw2 : h2.node w = some nw := by rw [b3 _ (by grind), hw]
  have hv2 : h2.node v = some ⟨supOf (f :: p), ptr l, ptr r, some m, b, k⟩ := by rw [b3 _ (by grind), e1]
  obtain ⟨h3, c1, c2, c3, c4⟩ := mod_spec hw2 fun n => { n with super := supOf (f :: p) }
  have hv3 := (c3 v hvw).trans hv2
  obtain ⟨h4, d1, d2, d3, d4⟩ := mod_spec c2 fun n => { n with balance := b }
  obtain ⟨h5, f1, f2, f3, f4⟩ := mod_spec d2 fun n => { n with owner := some m }
  have hv5 := (f3 v hvw).trans ((d3 v hvw).trans hv3)
  obtain ⟨h6, g1, g2, g3, g4⟩ := mod_spec f2 fun n => { n with left := ptr l }
  have rl : Rep h6.node m (some v) l := e2.congr fun a ha => by
    rw [g3 _ (by grind), f3 _ (by grind), d3 _ (by grind), c3 _ (by grind), b3 _ (by grind)]
  obtain ⟨h7, i1, i2, i3, i4⟩ := setSuper_spec (some w) rl (by grind)
  have hv7 : h7.node v = _ := (i3 v (by grind)).trans ((g3 v hvw).trans hv5)
  have hw7 : h7.node w = _ := (i3 w (by grind)).trans g2
  obtain ⟨h8, j1, j2, j3, j4⟩ := mod_spec hw7 fun n => { n with right := ptr r }
  have rr : Rep h8.node m (some v) r := e3.congr fun a ha => by
    rw [j3 _ (by grind), i3 _ (by grind), g3 _ (by grind), f3 _ (by grind), d3 _ (by grind), c3 _ (by grind), b3 _ (by grind)]
  obtain ⟨h9, k1, k2, k3, k4⟩ := setSuper_spec (some w) rr (by grind)
  have hv9 : h9.node v = _ := (k3 v (by grind)).trans ((j3 v hvw).trans hv7)
  have hw9 : h9.node w = _ := (k3 w (by grind)).trans j2
  obtain ⟨h10, m1, m2, m3, m4⟩ := mod_spec hv9 fun n => { n with super := none, left := none, right := none, owner := none }
  have run : replaceMapElement n m v w h = .ok h10 := by
    simp only [replaceMapElement, hd, Out.ok_bind, get_eq e1, supOf_cons]
    refine (congrArg (fun x => x >>= _) b1).trans ?_
    simp only [supOf_cons] at c1
    simp only [Out.ok_bind, c1, get_eq hv3, d1, f1, get_eq hv5, g1, i1, get_eq hv7, j1, k1]
    exact m1
  refine ⟨h10, b, run, ⟨?_, ⟨?_, ?_, ?_⟩, ?_⟩, m2, ⟨?_, ?_⟩⟩
  · rw [m4, k4, j4, i4, g4, f4, d4, c4]
    refine b2.congr fun a ha => ?_
    rw [m3 _ (by grind), k3 _ (by grind), j3 _ (by grind), i3 _ (by grind), g3 _ (by grind), f3 _ (by grind),
      d3 _ (by grind), c3 _ (by grind)]
  · rw [m3 w (Ne.symm hvw), hw9]
  · exact i2.congr fun a ha => by rw [m3 _ (by grind), k3 _ (by grind), j3 _ (by grind)]
  · exact k2.congr fun a ha => by rw [m3 _ (by grind)]
  · simp only [addrs, List.nodup_append, List.nodup_cons, List.mem_cons, List.mem_append, not_or, or_imp,
      forall_and, forall_eq]
    grind
  · intro a ha
    simp only [addrs, List.mem_cons, List.mem_append, not_or] at ha
    rw [m3 _ (by grind), k3 _ (by grind), j3 _ (by grind), i3 _ (by grind), g3 _ (by grind), f3 _ (by grind),
      d3 _ (by grind), c3 _ (by grind), b3 _ (by grind)]
  · intro x hx
    rw [m4, k4, j4, i4, g4, f4, d4, c4, b4]

/-- `InsertReplaceMapElement` when the element to be replaced is not the root of the map. -/
theorem Good.replace [DecidableEq κ] (O : Spec.StrictTotal lt) {h : Store κ} {T : MapId → Tree κ Addr}
    (g : Good lt h T) {n : Nat} {m : MapId} {k : κ} {o : Option MapId} {a : Addr}
    (hv : view h a = some (k, o)) (hn : ∀ m, (addrs (T m)).length ≤ n)
    (hroot : ∀ x, view h x = some (k, some m) → h.root m = some x → x = a) :
    (¬ ∃ x, view h x = some (k, some m)) ∧ (∃ h' T', insertReplaceMapElement lt n m a h = .ok (none, h') ∧
      Good lt h' T' ∧ (∀ m, (addrs (T' m)).length ≤ (addrs (T m)).length + 1) ∧
      view h' = World.set (view h) a (some (k, some m))) ∨
    (view h a = some (k, some m) ∧ insertReplaceMapElement lt n m a h = .ok (none, h)) ∨
    ∃ x, view h x = some (k, some m) ∧ x ≠ a ∧ ∃ h' T', insertReplaceMapElement lt n m a h = .ok (some x, h') ∧
      Good lt h' T' ∧ (∀ m, (addrs (T' m)).length ≤ (addrs (T m)).length + 1) ∧
      view h' = World.set (World.set (view h) x (some (k, none))) a (some (k, some m)) := by
  obtain ⟨na, ha, hk, ho⟩ := view_some hv
  subst hk
  rw [insertReplaceMapElement_spec (g.zip m) ha n (hn m)]
  have hd := g.descend_iff O m na.key
  cases hq : Map.descend lt na.key (T m) [] with
  | some q =>
    refine .inl ⟨by rw [← hd, hq]; simp, ?_⟩
    obtain ⟨h', T', e1, e2, e3, e4, e5⟩ := g.insertAt O hv hq hn
    refine ⟨h', T', by simp only [e1]; rfl, e2, e3, ?_⟩
    funext x
    simp only [World.set]
    split
    · next hx => rw [hx, e4]
    · next hx => exact e5 x hx
  | none =>
    obtain ⟨x, hx⟩ := hd.1 hq
    have hfx := (g.find_iff O m na.key x).2 hx
    simp only [hfx]
    by_cases hax : a = x
    · subst hax
      exact .inr (.inl ⟨hx, by simp⟩)
    refine .inr (.inr ⟨x, hx, Ne.symm hax, ?_⟩)
    have hom : o ≠ some m := by
      rintro rfl
      have := (g.find_iff O m na.key a).2 hv
      rw [hfx] at this
      simp only [Option.some.injEq] at this
      exact hax this.symm
    obtain ⟨h1, T1, d1, g1, d2, d3, d4, d5⟩ := g.detach O hv hn
    have hTm := d3 m hom
    obtain ⟨nb, hb, hkb, hob⟩ := view_some d4
    have hd1 : Links.detach n a h1 = .ok h1 := by simp [Links.detach, get_eq hb, hob]
    have hrep : replaceMapElement n m x a h = replaceMapElement n m x a h1 := by
      unfold replaceMapElement
      rw [d1, hd1]
    have hx1 : view h1 x = some (na.key, some m) := by rw [d5 x (Ne.symm hax), hx]
    obtain ⟨p, b, l, r, e, z⟩ := g1.position hx1
    cases p with
    | nil =>
      have h1r : h1.root m = ptr (T1 m) := (g1.zip m).path
      have h0r : h.root m = ptr (T m) := (g.zip m).path
      have : h.root m = some x := by rw [h0r, ← hTm, e]; rfl
      exact absurd (hroot x hx this).symm hax
    | cons f p =>
      have hnot : ∀ m, a ∉ addrs (T1 m) := g1.not_mem (by rw [d4]; simp)
      have hmem : ∀ y, y ∈ addrs (T1 m) ↔ y ∈ addrs (.node b l na.key x r) ++ paddrs (f :: p) := by
        intro y
        rw [e, mem_addrs_plug, List.mem_append]
      obtain ⟨h', b', r1, r2, r3, r4⟩ := replace_spec n z hb hob (by rw [← hmem]; exact hnot m)
      rw [hkb] at r2
      have hl1 : Map.toList (T1 m) = (Map.lefts (f :: p) ++ Map.toList l) ++ (na.key, x) :: (Map.toList r ++ Map.rights (f :: p)) := by
        rw [e, Map.toList_plug]; simp [Map.toList]
      have hl2 : Map.toList (plug (f :: p) (.node b l na.key a r)) =
          (Map.lefts (f :: p) ++ Map.toList l) ++ (na.key, a) :: (Map.toList r ++ Map.rights (f :: p)) := by
        rw [Map.toList_plug]; simp [Map.toList]
      have hsort : Map.Sorted lt (Map.toList (plug (f :: p) (.node b l na.key a r))) := by
        have := g1.sorted m
        rw [hl1] at this
        rw [hl2]
        obtain ⟨s1, s2, s3⟩ := List.pairwise_append.1 this
        obtain ⟨s4, s5⟩ := List.pairwise_cons.1 s2
        refine List.pairwise_append.2 ⟨s1, List.pairwise_cons.2 ⟨s4, s5⟩, ?_⟩
        intro y hy c hc
        simp only [List.mem_cons] at hc
        rcases hc with rfl | hc
        · exact s3 y hy (na.key, x) (by simp)
        · exact s3 y hy c (by simp [hc])
      have hbal : Map.Bal (plug (f :: p) (.node b l na.key a r)) := by
        have := g1.bal m
        rw [e, Map.bal_plug] at this
        rw [Map.bal_plug]
        exact this
      have z' := (zip_plug _ _ _ _).1 r2
      have ha' : h'.node a = some ⟨supOf (f :: p), ptr l, ptr r, some m, b, na.key⟩ := r2.tree.1
      have hu := g1.update (h' := h') (m := m) [a, x] ⟨fun y hy => r4.node y (by
          simp only [List.mem_append, List.mem_cons, List.not_mem_nil, or_false, not_or, hmem] at hy ⊢
          exact ⟨hy.1.1, hy.2⟩), r4.root⟩ z' hbal hsort (by
        intro y hy m' hm
        simp only [List.mem_cons, List.not_mem_nil, or_false] at hy
        rcases hy with rfl | rfl
        · exact hnot m'
        · rw [g1.mem_addrs, hx1]
          rintro ⟨k', hk'⟩
          simp at hk'
          exact hm hk'.2.symm) (by
        intro y hy k'
        simp only [List.mem_cons, List.not_mem_nil, or_false, not_or] at hy
        rw [hl1, hl2]
        simp [hy.1, hy.2]) (by
        intro y hy ny hny
        simp only [List.mem_cons, List.not_mem_nil, or_false] at hy
        rcases hy with rfl | rfl
        · rw [ha'] at hny
          cases hny
          refine ⟨fun hc => (by cases hc), fun m' hm => ?_⟩
          simp only [Option.some.injEq] at hm
          refine ⟨hm.symm, ?_⟩
          rw [mem_addrs_plug]
          simp [addrs]
        · rw [r3] at hny
          cases hny
          exact ⟨fun _ => ⟨rfl, rfl, rfl⟩, by intro m' hm; cases hm⟩)
      refine ⟨h', _, ?_, hu.1, ?_, ?_⟩
      · simp only [ne_eq, hax, not_false_eq_true, if_true, hrep, r1]
        rfl
      · intro m'
        split
        · next hm =>
          subst hm
          have h2 := d2 m'
          rw [e] at h2
          simp only [length_plug, addrs, List.length_append, List.length_cons] at h2 ⊢
          omega
        · have := d2 m'; omega
      · funext y
        simp only [World.set]
        by_cases hya : y = a
        · subst hya; simp [view, ha']
        · by_cases hyx : y = x
          · subst hyx
            simp [hya, view, r3]
          · simp only [hya, hyx, if_false]
            rw [hu.2 y (by simp [hya, hyx]), d5 y hya]

end Verif.Links
