import Verif.Lemmas.LinksWorld
import Verif.Lemmas.MapIter

/-!
# The operations keep the maps of the store intact
-/

namespace Verif.Links

open Verif.Map (Tree Path Frame Dir plug plug1)

variable {κ : Type} {lt : κ → κ → Bool}

theorem view_some {h : Store κ} {a : Addr} {k : κ} {o : Option MapId} (hv : view h a = some (k, o)) :
    ∃ n, h.node a = some n ∧ n.key = k ∧ n.owner = o := by
  simpa only [view, Option.map_eq_some_iff, Prod.mk.injEq] using hv

theorem view_none {h : Store κ} {a : Addr} (hv : view h a = none) : h.node a = none := by
  simpa only [view, Option.map_eq_none_iff] using hv

/-- The search for a key in a map of the store. -/
theorem Good.find_iff [DecidableEq κ] (O : Spec.StrictTotal lt) {h : Store κ} {T : MapId → Tree κ Addr}
    (g : Good lt h T) (m : MapId) (k : κ) (a : Addr) :
    (Map.findMapElement lt k (T m)).map (·.2) = some a ↔ view h a = some (k, some m) := by
  rw [← g.mem, Option.map_eq_some_iff]
  constructor
  · rintro ⟨⟨k', a'⟩, e1, rfl⟩
    obtain ⟨rfl, e2⟩ := (Map.find_spec O k (T m) (g.sorted m) _).1 e1
    exact e2
  · intro e
    exact ⟨(k, a), (Map.find_spec O k (T m) (g.sorted m) _).2 ⟨rfl, e⟩, rfl⟩

theorem Good.find [DecidableEq κ] (O : Spec.StrictTotal lt) {h : Store κ} {T : MapId → Tree κ Addr}
    (g : Good lt h T) {n : Nat} (m : MapId) (k : κ) (hn : (addrs (T m)).length ≤ n) :
    ∃ o, findMapElement lt n m k h = .ok o ∧ ∀ a, o = some a ↔ view h a = some (k, some m) := by
  refine ⟨_, ?_, g.find_iff O m k⟩
  have hr : h.root m = ptr (T m) := (g.zip m).path
  rw [findMapElement, hr]
  exact findFrom_spec k _ _ _ (g.zip m).tree hn

/-- The position for a key is found just if the map does not have the key. -/
theorem Good.descend_iff [DecidableEq κ] (O : Spec.StrictTotal lt) {h : Store κ} {T : MapId → Tree κ Addr}
    (g : Good lt h T) (m : MapId) (k : κ) :
    Map.descend lt k (T m) [] = none ↔ ∃ a, view h a = some (k, some m) := by
  rw [Map.descend_none]
  constructor
  · rintro ⟨x, e⟩
    exact ⟨x.2, (g.find_iff O m k x.2).1 (by rw [e]; rfl)⟩
  · rintro ⟨a, e⟩
    have := (g.find_iff O m k a).2 e
    rw [Option.map_eq_some_iff] at this
    obtain ⟨x, e, _⟩ := this
    exact ⟨x, e⟩

theorem Good.insertAt [DecidableEq κ] (O : Spec.StrictTotal lt) {h : Store κ} {T : MapId → Tree κ Addr}
    (g : Good lt h T) {n : Nat} {m : MapId} {k : κ} {o : Option MapId} {a : Addr} {q : Path κ Addr}
    (hv : view h a = some (k, o)) (hq : Map.descend lt k (T m) [] = some q)
    (hn : ∀ m, (addrs (T m)).length ≤ n) :
    ∃ h' T', insertAt n m a q h = .ok h' ∧ Good lt h' T' ∧
      (∀ m, (addrs (T' m)).length ≤ (addrs (T m)).length + 1) ∧ view h' a = some (k, some m) ∧
      ∀ x, x ≠ a → view h' x = view h x := by
  have hno : ¬ ∃ a, view h a = some (k, some m) := by
    rw [← g.descend_iff O, hq]; simp
  have hom : o ≠ some m := by rintro rfl; exact hno ⟨a, hv⟩
  obtain ⟨h1, T1, d1, g1, d2, d3, d4, d5⟩ := g.detach O hv hn
  have hTm := d3 m hom
  obtain ⟨na, ha, hk, ho⟩ := view_some d4
  have hloose := g1.loose a na ha
  have hd1 : Links.detach n a h1 = .ok h1 := by simp [Links.detach, get_eq ha, ho]
  rw [insertAt_detach d1 hd1]
  have hnot : ∀ m, a ∉ addrs (T1 m) := g1.not_mem (by rw [d4]; simp)
  obtain ⟨c1, c2, c3⟩ := Map.descend_some O k (T m) [] q (g.sorted m) hq
  simp only [Map.plug, Map.lefts, Map.rights, List.not_mem_nil, false_or] at c1 c2 c3
  -- the new tree
  obtain ⟨h', t', i1, i2, i3, i4, i5⟩ : ∃ h' t', Links.insertAt n m a q h1 = .ok h' ∧ Zip h' m [] t' ∧
      Same m (a :: addrs (T1 m)) h1 h' ∧ Map.Bal t' ∧ Map.toList t' = Map.lefts q ++ (k, a) :: Map.rights q := by
    cases q with
    | nil =>
      obtain ⟨h', e1, e2, e3⟩ := setRoot_spec (m := m) n ha hloose ho
      refine ⟨h', _, e1, e2, e3.mono (by simp), by simp [Map.Bal, Map.height], ?_⟩
      simp [Map.toList, Map.lefts, Map.rights, hk]
    | cons f q =>
      have hp : Map.PathBal (f :: q) 0 := by
        have := (Map.bal_plug (f :: q) (Tree.nil : Tree κ Addr)).1 (by rw [c1]; exact g.bal m)
        exact this.2
      obtain ⟨t', j1, j2, j3⟩ := Map.insertSubnode_spec f q k a hp
      have z : Zip h1 m (f :: q) .nil := by
        rw [zip_plug, c1, ← hTm]
        exact g1.zip m
      have hmem : ∀ x, x ∈ addrs (T1 m) ↔ x ∈ paddrs (f :: q) := by
        intro x
        rw [hTm, ← c1, mem_addrs_plug]
        simp [addrs]
      have hlen : q.length < n := by
        have h1 := length_plug (f :: q) (.nil : Tree κ Addr)
        rw [c1] at h1
        simp only [addrs, List.nil_append] at h1
        have h2 := path_length (f :: q)
        have h3 := hn m
        simp only [List.length_cons] at h2
        omega
      subst hk
      obtain ⟨h', e1, e2, e3⟩ := attach_spec z ha hloose ho (by rw [← hmem]; exact hnot m) hlen j1
      exact ⟨h', t', e1, e2, e3.mono (by intro x; simp only [List.mem_cons, hmem]; exact id), j2, j3⟩
  have hlist : Map.toList (T m) = Map.lefts q ++ Map.rights q := by
    rw [← c1, Map.toList_plug]; simp [Map.toList]
  have hsort : Map.Sorted lt (Map.toList t') := by
    rw [i5]
    refine Map.sorted_insert ?_ c2 c3
    rw [← hlist]
    exact g.sorted m
  have hin : a ∈ addrs t' := by
    rw [addrs_toList, i5]; simp
  obtain ⟨n', f1, f2, f3⟩ := rep_node i2.tree hin
  have hkey : n'.key = k := by
    rw [i5] at f3
    have hn' : (n'.key, a) ∉ Map.toList (T1 m) := by
      intro hc
      apply hnot m
      rw [addrs_toList]
      exact List.mem_map.2 ⟨_, hc, rfl⟩
    rw [hTm, hlist] at hn'
    simp only [List.mem_append, List.mem_cons, Prod.mk.injEq, and_true, not_or] at f3 hn'
    grind
  obtain ⟨g', hview⟩ := g1.update (h' := h') [a] (by simpa using i3) i2 i4 hsort (by
      intro x hx m' _
      simp only [List.mem_singleton] at hx
      subst hx
      exact hnot m') (by
      intro x hx k'
      simp only [List.mem_singleton] at hx
      rw [hTm, hlist, i5]
      simp [hx]) (by
      intro x hx nx hnx
      simp only [List.mem_singleton] at hx
      subst hx
      rw [f1] at hnx
      cases hnx
      refine ⟨fun hc => (by rw [f2] at hc; cases hc), fun m' hm => ?_⟩
      rw [f2] at hm
      cases hm
      exact ⟨rfl, hin⟩)
  refine ⟨h', _, i1, g', ?_, by simp [view, f1, f2, hkey], ?_⟩
  · intro m'
    split
    · next hm =>
      subst hm
      simp only [addrs_toList, List.length_map, i5, hlist, List.length_append, List.length_cons]
      omega
    · have := d2 m'; omega
  · intro x hx
    rw [hview x (by simpa using hx), d5 x hx]

theorem Good.insert [DecidableEq κ] (O : Spec.StrictTotal lt) {h : Store κ} {T : MapId → Tree κ Addr}
    (g : Good lt h T) {n : Nat} {m : MapId} {k : κ} {o : Option MapId} {a : Addr}
    (hv : view h a = some (k, o)) (hn : ∀ m, (addrs (T m)).length ≤ n) :
    (∃ x, view h x = some (k, some m)) ∧ insertMapElement lt n m a h = .ok (false, h) ∨
    (¬ ∃ x, view h x = some (k, some m)) ∧ ∃ h' T', insertMapElement lt n m a h = .ok (true, h') ∧ Good lt h' T' ∧
      (∀ m, (addrs (T' m)).length ≤ (addrs (T m)).length + 1) ∧ view h' a = some (k, some m) ∧
      ∀ x, x ≠ a → view h' x = view h x := by
  obtain ⟨na, ha, hk, ho⟩ := view_some hv
  subst hk
  rw [insertMapElement_spec (g.zip m) ha n (hn m)]
  have hd := g.descend_iff O m na.key
  cases hq : Map.descend lt na.key (T m) [] with
  | none => exact .inl ⟨hd.1 hq, rfl⟩
  | some q =>
    refine .inr ⟨by rw [← hd, hq]; simp, ?_⟩
    obtain ⟨h', T', e1, e2, e3, e4, e5⟩ := g.insertAt O hv hq hn
    exact ⟨h', T', by simp only [e1]; rfl, e2, e3, e4, e5⟩

/-- Reserving a place and inserting there at once. -/
theorem Good.reserve [DecidableEq κ] (O : Spec.StrictTotal lt) {h : Store κ} {T : MapId → Tree κ Addr}
    (g : Good lt h T) {n : Nat} {m : MapId} {k : κ} {o : Option MapId} {a : Addr}
    (hv : view h a = some (k, o)) (hn : ∀ m, (addrs (T m)).length ≤ n) :
    (∃ x, view h x = some (k, some m)) ∧ reserveMapElement lt n m k h = .ok none ∨
    (¬ ∃ x, view h x = some (k, some m)) ∧ ∃ r h', reserveMapElement lt n m k h = .ok (some r) ∧
      insertReserved n m a r h = .ok h' ∧ insertMapElement lt n m a h = .ok (true, h') := by
  obtain ⟨na, ha, hk, ho⟩ := view_some hv
  subst hk
  rw [reserveMapElement_spec (g.zip m) na.key n (hn m), insertMapElement_spec (g.zip m) ha n (hn m)]
  have hd := g.descend_iff O m na.key
  cases hq : Map.descend lt na.key (T m) [] with
  | none => exact .inl ⟨hd.1 hq, rfl⟩
  | some q =>
    refine .inr ⟨by rw [← hd, hq]; simp, ?_⟩
    obtain ⟨h', T', e1, e2, e3, e4, e5⟩ := g.insertAt O hv hq hn
    exact ⟨_, h', rfl, by rw [insertReserved_eq, e1], by simp only [e1]; rfl⟩

end Verif.Links
