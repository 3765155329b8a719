import Verif.Lemmas.MapCost
import Verif.Props.Map

/-!
# Time of the functions of `Terathon::Map`: C161, C162, C163

The steps are those of `Verif.Model.MapCost`. The results of the counted functions are those of the functions the
other properties of the map are about.
-/

namespace Verif.Props

open Verif.Map Verif.Spec

variable {κ α : Type} [DecidableEq κ]

/-- `s` steps are at most `c` times 1.45 times the binary logarithm of `n + 1`. -/
def Logarithmic (n c s : Nat) : Prop := ∃ h, 2 ^ (100 * h) ≤ (n + 1) ^ 145 ∧ s ≤ c * h

/-- With seven elements, `3 * 1.45 * 3 = 13.05`: twelve steps are allowed, thirteen are not. -/
example : Logarithmic 7 3 12 ∧ ¬ Logarithmic 7 3 13 := by
  refine ⟨⟨4, by decide +kernel, by decide⟩, ?_⟩
  rintro ⟨h, h1, h2⟩
  have h5 : 5 ≤ h := by omega
  have h3 : 2 ^ (100 * 5) ≤ 2 ^ (100 * h) := Nat.pow_le_pow_right (by omega) (by omega)
  exact absurd (Nat.le_trans h3 h1) (by decide +kernel)

theorem logarithmic_height {lt : κ → κ → Bool} {t : Tree κ α} {m : AMap κ α} (h : MapInv lt t m) {c s : Nat}
    (hs : s ≤ c * height t) : Logarithmic (toList t).length c s :=
  ⟨height t, by have := height_bound t h.bal; rwa [size_eq] at this, hs⟩

/-! ### C161: iteration -/

/-- **C161.** In every map, a loop over all `n` elements, in either direction, takes exactly `2 n` steps, and
`operator[]` at most as many. They visit what the functions without a counter visit. -/
theorem C161_iteration (t : Tree κ α) :
    ∃ l, Map.forward t = .ok l ∧ MapCost.forward t = .ok (l, 2 * l.length) ∧
      Map.backward t = .ok l.reverse ∧ MapCost.backward t = .ok (l.reverse, 2 * l.length) ∧
      ∀ i, ∃ s, Map.index t i = .ok l[i]? ∧ MapCost.index t i = .ok (l[i]?, s) ∧ s ≤ 2 * l.length := by
  refine ⟨toList t, forward_eq t, ?_, backward_eq t, ?_, fun i => ?_⟩
  · rw [MapCost.forward_run, size_eq]
  · rw [MapCost.backward_run, size_eq]
  · obtain ⟨s, e, hs⟩ := MapCost.index_run t i
    exact ⟨s, index_eq t i, e, by rwa [size_eq] at hs⟩

/-- The six elements of the sample map in twelve steps. -/
example : (mapRun natLt sampleHistory).map MapCost.forward
    = some (.ok ([(1, 10), (3, 30), (4, 40), (7, 70), (8, 80), (9, 90)], 12)) := by decide

example : (mapRun natLt sampleHistory).map (MapCost.index · 3) = some (.ok (some (7, 70), 7)) := by decide

/-- **C161, single calls.** In every reachable map with `n` elements `GetFirstMapElement`, `GetLastMapElement`,
`GetNextMapElement` and `GetPreviousMapElement` (the latter two for every element `z` of the map) take at most
`1.45 log2 (n + 1)` steps. -/
theorem C161_single_calls {lt : κ → κ → Bool} (O : StrictTotal lt) (ops : List (MapOp κ α)) :
    ∃ t n, mapRun lt ops = some t ∧ count t = .ok n ∧
      (MapCost.firstPos t []).1 = Map.firstPos t [] ∧ Logarithmic n 1 (MapCost.firstPos t []).2 ∧
      (MapCost.lastPos t []).1 = Map.lastPos t [] ∧ Logarithmic n 1 (MapCost.lastPos t []).2 ∧
      ∀ z : Pos κ α, plug z.path (.node z.balance z.left z.key z.val z.right) = t →
        (MapCost.nextPos z).1 = Map.nextPos z ∧ Logarithmic n 1 (MapCost.nextPos z).2 ∧
        (MapCost.prevPos z).1 = Map.prevPos z ∧ Logarithmic n 1 (MapCost.prevPos z).2 := by
  obtain ⟨t, e, h⟩ := mapInv_run O ops
  refine ⟨t, _, e, count_eq t, MapCost.firstPos_fst _ _, logarithmic_height h ?_, MapCost.lastPos_fst _ _,
    logarithmic_height h ?_, fun z hz => ⟨MapCost.nextPos_fst _, logarithmic_height h ?_, MapCost.prevPos_fst _,
    logarithmic_height h ?_⟩⟩
  · simpa using MapCost.firstPos_height t []
  · simpa using MapCost.lastPos_height t []
  · have := MapCost.nextPos_height z; rw [hz] at this; omega
  · have := MapCost.prevPos_height z; rw [hz] at this; omega

/-- Element 4 of the sample map is below 3, which is below the root 7: two steps up to its successor. -/
example : (mapRun natLt sampleHistory).bind (fun t => (locate natLt 4 t []).map fun (p, b, l, k, v, r) =>
    (decide (plug p (.node b l k v r) = t),
      (MapCost.nextPos ⟨p, b, l, k, v, r⟩).1.map (·.key), (MapCost.nextPos ⟨p, b, l, k, v, r⟩).2))
    = some (true, some 7, 2) := by decide

/-! ### C162: insertion and removal -/

/-- **C162.** In every reachable map with `n` elements an insertion takes at most `2.9 log2 (n + 1)` steps, and the
search for an element together with its removal at most `4.35 log2 (n + 1)`, the rotations included. -/
theorem C162_update {lt : κ → κ → Bool} (O : StrictTotal lt) (ops : List (MapOp κ α)) :
    ∃ t n, mapRun lt ops = some t ∧ count t = .ok n ∧
      (∀ k v, (MapCost.insertMapElement lt t k v).1 = Map.insertMapElement lt t k v ∧
        Logarithmic n 2 (MapCost.insertMapElement lt t k v).2) ∧
      ∀ k, (MapCost.removeMapElement lt t k).1 = Map.removeMapElement lt t k ∧
        Logarithmic n 3 (MapCost.removeMapElement lt t k).2 := by
  obtain ⟨t, e, h⟩ := mapInv_run O ops
  exact ⟨t, _, e, count_eq t,
    fun k v => ⟨MapCost.insertMapElement_fst lt t k v, logarithmic_height h (MapCost.insert_height lt t k v)⟩,
    fun k => ⟨MapCost.removeMapElement_fst lt t k, logarithmic_height h (MapCost.remove_height lt t k)⟩⟩

/-- Inserting 7 after 1, …, 6: three comparisons; a first round without a rotation (the node 6 leans to the right),
a second one with a rotation about the node 5. -/
example : (mapRun natLt ((List.range 6).map fun i => MapOp.insert (i + 1) i)).map
    (fun t => (MapCost.insertMapElement natLt t 7 0).2) = some 5 := by decide

/-- Removing the root of the sample map: one comparison, one round for the successor, and one round on the way up. -/
example : (mapRun natLt sampleHistory).map (fun t => (MapCost.removeMapElement natLt t 7).2) = some 3 := by decide

/-- One call of a history, with the steps so far. -/
def mapStepT (lt : κ → κ → Bool) (x : Option (Tree κ α) × Nat) : MapOp κ α → Option (Tree κ α) × Nat
  | .insert k v => match x.1 with
      | none => x
      | some t => ((MapCost.insertMapElement lt t k v).1.map Prod.snd, x.2 + (MapCost.insertMapElement lt t k v).2)
  | .remove k => match x.1 with
      | none => x
      | some t => ((MapCost.removeMapElement lt t k).1, x.2 + (MapCost.removeMapElement lt t k).2)

/-- A history of calls on an empty map, with the number of its steps. -/
def mapRunT (lt : κ → κ → Bool) (ops : List (MapOp κ α)) : Option (Tree κ α) × Nat :=
  ops.foldl (mapStepT lt) (some .nil, 0)

theorem insert_length {lt : κ → κ → Bool} (O : StrictTotal lt) {t : Tree κ α} {m : AMap κ α} (h : MapInv lt t m)
    (k : κ) (v : α) {x : Bool × Tree κ α} (e : Map.insertMapElement lt t k v = some x) :
    (toList x.2).length ≤ (toList t).length + 1 := by
  rcases insert_spec O t k v h.bal h.sorted with ⟨_, e1⟩ | ⟨_, t', a, c, e1, _, ha, hc, _⟩
  · rw [e1] at e
    cases e
    exact Nat.le_succ _
  · rw [e1] at e
    cases e
    simp [ha, hc]; omega

theorem remove_length {lt : κ → κ → Bool} (O : StrictTotal lt) {t : Tree κ α} {m : AMap κ α} (h : MapInv lt t m)
    (k : κ) {t' : Tree κ α} (e : Map.removeMapElement lt t k = some t') :
    (toList t').length ≤ (toList t).length + 1 := by
  rcases remove_spec O t k h.bal h.sorted with ⟨_, e1⟩ | ⟨t', a, c, v, _, e1, _, ha, hc⟩
  · rw [e1] at e
    cases e
    exact Nat.le_succ _
  · rw [e1] at e
    cases e
    simp [ha, hc]; omega

/-- **C162, whole histories.** Any `m` insertions and removals, in any order, beginning with an empty map, take at most
`m` times `4.35 log2 (m + 1)` steps together: there is no order of the calls for which the map becomes slow. -/
theorem C162_history {lt : κ → κ → Bool} (O : StrictTotal lt) (ops : List (MapOp κ α)) :
    (mapRunT lt ops).1 = mapRun lt ops ∧
      ∃ s, Logarithmic ops.length 3 s ∧ (mapRunT lt ops).2 ≤ ops.length * s := by
  have gen : ∀ (M : Nat) (ops : List (MapOp κ α)) (t : Tree κ α) (m : AMap κ α) (n H : Nat), MapInv lt t m →
      (toList t).length + ops.length ≤ M →
      (∀ h, 2 ^ (100 * h) ≤ (M + 1) ^ 145 → h ≤ H) →
      (ops.foldl (mapStepT lt) (some t, n)).1 = ops.foldl (mapStep lt) (some t) ∧
        (ops.foldl (mapStepT lt) (some t, n)).2 ≤ n + ops.length * (3 * H) := by
    intro M ops
    induction ops with
    | nil => intro t m n H _ _ _; exact ⟨rfl, by simp⟩
    | cons op ops ih =>
      intro t m n H h hM hH
      have hh : height t ≤ H := by
        apply hH
        have h1 := height_bound t h.bal
        rw [size_eq] at h1
        refine Nat.le_trans h1 (Nat.pow_le_pow_left ?_ _)
        simp only [List.length_cons] at hM
        omega
      cases op with
      | insert k v =>
        obtain ⟨x, e, h'⟩ := mapInv_insert O h k v
        have hl : (toList x).length ≤ (toList t).length + 1 := insert_length O h k v e
        simp only [List.length_cons] at hM
        obtain ⟨i1, i2⟩ := ih x _ (n + (MapCost.insertMapElement lt t k v).2) H h' (by omega) hH
        have hc := MapCost.insert_height lt t k v
        simp only [List.foldl_cons, mapStep, Option.bind_some, e, mapStepT, MapCost.insertMapElement_fst, Option.map_some]
        refine ⟨i1, Nat.le_trans i2 ?_⟩
        simp only [List.length_cons, Nat.succ_mul]
        omega
      | remove k =>
        obtain ⟨t', e, h'⟩ := mapInv_remove O h k
        have hl := remove_length O h k e
        simp only [List.length_cons] at hM
        obtain ⟨i1, i2⟩ := ih t' _ (n + (MapCost.removeMapElement lt t k).2) H h' (by omega) hH
        have hc := MapCost.remove_height lt t k
        simp only [List.foldl_cons, mapStep, Option.bind_some, e, mapStepT, MapCost.removeMapElement_fst]
        refine ⟨i1, Nat.le_trans i2 ?_⟩
        simp only [List.length_cons, Nat.succ_mul]
        omega
  obtain ⟨H, hH1, hH2⟩ : ∃ H, 2 ^ (100 * H) ≤ (ops.length + 1) ^ 145 ∧
      ∀ h, 2 ^ (100 * h) ≤ (ops.length + 1) ^ 145 → h ≤ H := by
    have bound : ∀ h, 2 ^ (100 * h) ≤ (ops.length + 1) ^ 145 → h ≤ (ops.length + 1) ^ 145 := by
      intro h hh
      have : 100 * h < 2 ^ (100 * h) := Nat.lt_two_pow_self
      omega
    have hz : 2 ^ (100 * 0) ≤ (ops.length + 1) ^ 145 := Nat.pow_pos (by omega)
    generalize (ops.length + 1) ^ 145 = B at bound hz
    have key : ∀ d, ∃ H, 2 ^ (100 * H) ≤ B ∧ ∀ h, h ≤ d → 2 ^ (100 * h) ≤ B → h ≤ H := by
      intro d
      induction d with
      | zero => exact ⟨0, hz, fun h hh _ => hh⟩
      | succ d ih =>
        obtain ⟨H, h1, h2⟩ := ih
        by_cases hd : 2 ^ (100 * (d + 1)) ≤ B
        · exact ⟨d + 1, hd, fun h hh _ => hh⟩
        · refine ⟨H, h1, fun h hh hb => ?_⟩
          rcases Nat.lt_or_ge d h with h3 | h3
          · have : h = d + 1 := by omega
            subst this
            exact absurd hb hd
          · exact h2 h h3 hb
    obtain ⟨H, h1, h2⟩ := key B
    exact ⟨H, h1, fun h hb => h2 h (bound h hb) hb⟩
  obtain ⟨g1, g2⟩ := gen ops.length ops .nil AMap.empty 0 H (mapInv_empty lt) (by simp [toList]) hH2
  exact ⟨g1, 3 * H, ⟨H, hH1, Nat.le_refl _⟩, by rw [Nat.zero_add] at g2; exact g2⟩

/-- Twenty elements in ascending order, which would make a tree without balancing a list (190 comparisons). -/
example : (mapRunT natLt ((List.range 20).map fun i => MapOp.insert i i)).2 = 117 := by decide +kernel

/-! ### C163: emptying -/

/-- **C163.** Emptying a reachable map with `n` elements, with `RemoveAllMapElements`, `PurgeMap` or the destructor,
takes exactly `n` calls of the recursive function, removes every element once, and has never more than
`1.45 log2 (n + 1)` of the calls on the stack. -/
theorem C163_empty {lt : κ → κ → Bool} (O : StrictTotal lt) (ops : List (MapOp κ α)) :
    ∃ t l, mapRun lt ops = some t ∧ Map.forward t = .ok l ∧ (MapCost.emptySubtree t).order.Perm l ∧
      (MapCost.emptySubtree t).calls = l.length ∧ Logarithmic l.length 1 (MapCost.emptySubtree t).depth := by
  obtain ⟨t, e, h⟩ := mapInv_run O ops
  obtain ⟨h1, h2, h3⟩ := MapCost.emptySubtree_spec t
  refine ⟨t, toList t, e, forward_eq t, h1, by rw [h2, size_eq], logarithmic_height h ?_⟩
  rw [h3]; omega

example : (mapRun natLt sampleHistory).map MapCost.emptySubtree
    = some ⟨[(1, 10), (4, 40), (3, 30), (9, 90), (8, 80), (7, 70)], 6, 3⟩ := by decide

end Verif.Props
