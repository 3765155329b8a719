import Verif.Lemmas.LinksErase

/-!
# Several linked maps in one store
-/

namespace Verif.Links

open Verif.Map (Tree Path Frame Dir plug plug1)

variable {κ : Type}

/-- What can be seen of the objects: the key and the owning map. -/
def view (h : Store κ) : Addr → Option (κ × Option MapId) := fun a => (h.node a).map fun n => (n.key, n.owner)

/-- An object outside of any map. -/
def Loose (n : Node κ) : Prop := n.owner = none → n.super = none ∧ n.left = none ∧ n.right = none

/-- The store holds the maps `T`, and no other links. -/
structure Good (lt : κ → κ → Bool) (h : Store κ) (T : MapId → Tree κ Addr) : Prop where
  zip : ∀ m, Zip h m [] (T m)
  bal : ∀ m, Map.Bal (T m)
  sorted : ∀ m, Map.Sorted lt (Map.toList (T m))
  owned : ∀ a n m, h.node a = some n → n.owner = some m → a ∈ addrs (T m)
  loose : ∀ a n, h.node a = some n → Loose n

variable {lt : κ → κ → Bool}

theorem Good.mem {h : Store κ} {T : MapId → Tree κ Addr} (g : Good lt h T) (m : MapId) (k : κ) (a : Addr) :
    (k, a) ∈ Map.toList (T m) ↔ view h a = some (k, some m) := by
  constructor
  · intro hm
    obtain ⟨p, b, l, r, e⟩ := Map.position_exists _ _ _ hm
    have z := g.zip m
    rw [e, ← zip_plug] at z
    simp [view, z.tree.1]
  · intro hv
    simp only [view, Option.map_eq_some_iff, Prod.mk.injEq] at hv
    obtain ⟨n, e1, rfl, e2⟩ := hv
    obtain ⟨n', f1, f2, f3⟩ := rep_node (g.zip m).tree (g.owned a n m e1 e2)
    rw [e1] at f1
    cases f1
    exact f3

theorem Good.mem_addrs {h : Store κ} {T : MapId → Tree κ Addr} (g : Good lt h T) (m : MapId) (a : Addr) :
    a ∈ addrs (T m) ↔ ∃ k, view h a = some (k, some m) := by
  simp only [addrs_toList, List.mem_map, Prod.exists, exists_eq_right, g.mem]

/-- The position of an object in its map. -/
theorem Good.position {h : Store κ} {T : MapId → Tree κ Addr} (g : Good lt h T) {m : MapId} {k : κ} {a : Addr}
    (hv : view h a = some (k, some m)) : ∃ p b l r, T m = plug p (.node b l k a r) ∧ Zip h m p (.node b l k a r) := by
  obtain ⟨p, b, l, r, e⟩ := Map.position_exists _ _ _ ((g.mem m k a).2 hv)
  refine ⟨p, b, l, r, e, ?_⟩
  rw [zip_plug, ← e]
  exact g.zip m

theorem Zip.congr {h h' : Store κ} {m : MapId} {p : Path κ Addr} {t : Tree κ Addr} (z : Zip h m p t)
    (e : ∀ a ∈ addrs t ++ paddrs p, h'.node a = h.node a) (hr : h'.root m = h.root m) : Zip h' m p t := by
  refine ⟨?_, z.tree.congr fun a ha => e a (by simp [ha]), z.nodup⟩
  rw [hr]
  exact z.path.congr fun a ha => e a (by simp [ha])

/-- One map is changed; the objects `S` may enter or leave it. -/
theorem Good.update {h h' : Store κ} {T : MapId → Tree κ Addr} (g : Good lt h T) {m : MapId} {t' : Tree κ Addr}
    (S : List Addr) (hsame : Same m (S ++ addrs (T m)) h h') (z : Zip h' m [] t') (hb : Map.Bal t')
    (hs : Map.Sorted lt (Map.toList t')) (hS : ∀ x ∈ S, ∀ m', m' ≠ m → x ∉ addrs (T m'))
    (hk : ∀ x, x ∉ S → ∀ k, (k, x) ∈ Map.toList (T m) ↔ (k, x) ∈ Map.toList t')
    (hx : ∀ x ∈ S, ∀ n, h'.node x = some n → Loose n ∧ ∀ m', n.owner = some m' → m' = m ∧ x ∈ addrs t') :
    Good lt h' (fun x => if x = m then t' else T x) ∧ ∀ x, x ∉ S → view h' x = view h x := by
  have hmem : ∀ x, x ∉ S → (x ∈ addrs (T m) ↔ x ∈ addrs t') := by
    intro x hxS
    simp only [addrs_toList, List.mem_map, Prod.exists, exists_eq_right]
    exact ⟨fun ⟨k, e⟩ => ⟨k, (hk x hxS k).1 e⟩, fun ⟨k, e⟩ => ⟨k, (hk x hxS k).2 e⟩⟩
  have hdisj : ∀ m', m' ≠ m → ∀ a ∈ addrs (T m'), a ∉ S ++ addrs (T m) := by
    intro m' hm a ha hc
    simp only [List.mem_append] at hc
    rcases hc with hc | hc
    · exact hS a hc m' hm ha
    · rw [g.mem_addrs] at ha hc
      obtain ⟨k1, e1⟩ := ha
      obtain ⟨k2, e2⟩ := hc
      rw [e1] at e2
      simp at e2
      exact hm e2.2
  refine ⟨⟨?_, ?_, ?_, ?_, ?_⟩, ?_⟩
  · intro m'
    by_cases hm : m' = m
    · subst hm; simpa using z
    · simp only [hm, if_false]
      refine (g.zip m').congr ?_ (hsame.root m' hm)
      intro a ha
      simp only [paddrs, List.append_nil] at ha
      exact hsame.node a (hdisj m' hm a ha)
  · intro m'; split
    · exact hb
    · exact g.bal m'
  · intro m'; split
    · exact hs
    · exact g.sorted m'
  · intro a n m' e1 e2
    by_cases haS : a ∈ S
    · obtain ⟨e3, e4⟩ := (hx a haS n e1).2 m' e2
      simp [e3, e4]
    · by_cases hat : a ∈ addrs (T m)
      · have h2 := (hmem a haS).1 hat
        obtain ⟨n', f1, f2, f3⟩ := rep_node z.tree h2
        rw [e1] at f1
        cases f1
        rw [e2] at f2
        cases f2
        simpa using h2
      · have h1 := hsame.node a (by simp [haS, hat])
        rw [e1] at h1
        have h3 := g.owned a n m' h1.symm e2
        have hm : m' ≠ m := by rintro rfl; exact hat h3
        simpa [hm] using h3
  · intro a n e1
    by_cases haS : a ∈ S
    · exact (hx a haS n e1).1
    · by_cases hat : a ∈ addrs (T m)
      · obtain ⟨n', f1, f2, f3⟩ := rep_node z.tree ((hmem a haS).1 hat)
        rw [e1] at f1
        cases f1
        intro hnone
        rw [f2] at hnone
        cases hnone
      · have h1 := hsame.node a (by simp [haS, hat])
        rw [e1] at h1
        exact g.loose a n h1.symm
  · intro x hxS
    by_cases hat : x ∈ addrs (T m)
    · obtain ⟨n, f1, f2, f3⟩ := rep_node z.tree ((hmem x hxS).1 hat)
      have h2 := (g.mem m _ _).1 ((hk x hxS _).2 f3)
      rw [h2]
      simp [view, f1, f2]
    · simp only [view, hsame.node x (by simp [hxS, hat])]

theorem length_plug (p : Path κ Addr) (t : Tree κ Addr) :
    (addrs (plug p t)).length = (addrs t ++ paddrs p).length := by
  induction p generalizing t with
  | nil => simp [plug, paddrs]
  | cons f p ih =>
    obtain ⟨d, b, k, v, s⟩ := f
    cases d <;> simp [plug, paddrs, ih, plug1, addrs] <;> omega

/-- `RemoveMapElement` of a member. -/
theorem Good.remove [DecidableEq κ] (O : Spec.StrictTotal lt) {h : Store κ} {T : MapId → Tree κ Addr}
    (g : Good lt h T) {n : Nat} {m : MapId} {k : κ} {a : Addr} (hv : view h a = some (k, some m))
    (hn : (addrs (T m)).length ≤ n) :
    ∃ h' t', removeMapElement n m a h = .ok h' ∧ Good lt h' (fun x => if x = m then t' else T x) ∧
      (addrs t').length + 1 = (addrs (T m)).length ∧ view h' a = some (k, none) ∧
      ∀ x, x ≠ a → view h' x = view h x := by
  obtain ⟨p, b, l, r, e, z⟩ := g.position hv
  have hlen : (addrs (T m)).length = (addrs (.node b l k a r) ++ paddrs p).length := by
    rw [e, length_plug]
  have hb := g.bal m
  have hs := g.sorted m
  rw [e] at hb hs
  obtain ⟨h', t', b', a1, a2, a3, a4, a5, a6, a7⟩ := removeMapElement_spec (n := n) O z hb hs (by omega)
  have hu := Map.key_unique O hs
  have hlist : Map.toList (T m) = Map.lefts p ++ Map.toList l ++ (k, a) :: (Map.toList r ++ Map.rights p) := by
    rw [e, Map.toList_plug]; simp [Map.toList]
  have hs' : Map.Sorted lt (Map.toList t') := by
    rw [a4]
    have hs1 := g.sorted m
    rw [hlist] at hs1
    rw [List.append_assoc (Map.lefts p ++ Map.toList l)]
    exact List.Pairwise.sublist ((List.sublist_cons_self _ _).append_left _) hs1
  have hnot : a ∉ addrs t' := by
    intro hc
    obtain ⟨n', f1, f2, f3⟩ := rep_node a5.tree hc
    rw [a6] at f1
    cases f1
    cases f2
  obtain ⟨g', hview⟩ := g.update (h' := h') [a] ⟨fun x hx => a7.node x (by
      rw [List.mem_append, ← mem_addrs_plug, ← e]; simp at hx; exact hx.2), a7.root⟩ a5 a3 hs' (by
      intro x hx m' hm hc
      simp only [List.mem_singleton] at hx
      subst hx
      rw [g.mem_addrs] at hc
      obtain ⟨k', e'⟩ := hc
      rw [hv] at e'
      simp at e'
      exact hm e'.2.symm) (by
      intro x hx k'
      simp only [List.mem_singleton] at hx
      rw [hlist, a4]
      simp [hx]) (by
      intro x hx n' hn'
      simp only [List.mem_singleton] at hx
      subst hx
      rw [a6] at hn'
      cases hn'
      exact ⟨fun _ => ⟨rfl, rfl, rfl⟩, by intro m' hm; cases hm⟩)
  refine ⟨h', t', a1, g', ?_, by simp [view, a6], fun x hx => hview x (by simpa using hx)⟩
  simp only [addrs_toList, List.length_map, a4, hlist, List.length_append, List.length_cons]
  omega

/-- `Detach`. -/
theorem Good.detach [DecidableEq κ] (O : Spec.StrictTotal lt) {h : Store κ} {T : MapId → Tree κ Addr}
    (g : Good lt h T) {n : Nat} {k : κ} {o : Option MapId} {a : Addr} (hv : view h a = some (k, o))
    (hn : ∀ m, (addrs (T m)).length ≤ n) :
    ∃ h' T', detach n a h = .ok h' ∧ Good lt h' T' ∧ (∀ m, (addrs (T' m)).length ≤ (addrs (T m)).length) ∧
      (∀ m, o ≠ some m → T' m = T m) ∧ view h' a = some (k, none) ∧ ∀ x, x ≠ a → view h' x = view h x := by
  have hv' := hv
  simp only [view, Option.map_eq_some_iff, Prod.mk.injEq] at hv'
  obtain ⟨na, e1, e2, e3⟩ := hv'
  cases o with
  | none =>
    refine ⟨h, T, by simp [Links.detach, get_eq e1, e3], g, fun _ => Nat.le_refl _, fun _ _ => rfl, hv, fun _ _ => rfl⟩
  | some m =>
    obtain ⟨h', t', a1, a2, a3, a4, a5⟩ := g.remove O hv (hn m)
    refine ⟨h', _, by simp [Links.detach, get_eq e1, e3, a1], a2, ?_, ?_, a4, a5⟩
    · intro m'
      split
      · next hm => subst hm; omega
      · exact Nat.le_refl _
    · intro m' hm
      simp only [ne_eq, Option.some.injEq] at hm
      simp [Ne.symm hm]

/-- Storing an object that is in no map does not touch the maps. -/
theorem Good.outside {h : Store κ} {T : MapId → Tree κ Addr} (g : Good lt h T) {a : Addr}
    (ha : ∀ m, a ∉ addrs (T m)) (o : Option (Node κ)) (ho : ∀ n, o = some n → n.owner = none ∧ Loose n) :
    Good lt { h with node := fun x => if x = a then o else h.node x } T := by
  refine ⟨fun m => (g.zip m).congr ?_ rfl, g.bal, g.sorted, ?_, ?_⟩
  · intro x hx
    simp only [paddrs, List.append_nil] at hx
    have : x ≠ a := by rintro rfl; exact ha m hx
    simp [this]
  · intro x n m e1 e2
    dsimp only at e1
    split at e1
    · rw [(ho n e1).1] at e2; cases e2
    · exact g.owned x n m e1 e2
  · intro x n e1
    dsimp only at e1
    split at e1
    · exact (ho n e1).2
    · exact g.loose x n e1

theorem Good.not_mem {h : Store κ} {T : MapId → Tree κ Addr} (g : Good lt h T) {a : Addr}
    (hv : ∀ k m, view h a ≠ some (k, some m)) (m : MapId) : a ∉ addrs (T m) := by
  rw [g.mem_addrs]
  rintro ⟨k, e⟩
  exact hv k m e

end Verif.Links
