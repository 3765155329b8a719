import Verif.Lemmas.MapIter
import Verif.Lemmas.MapInv

/-!
# Properties of `Terathon::Map`: C16 (container part), C35, C36, C37, C38, C39
-/

namespace Verif.Props

open Verif.Map Verif.Spec

variable {κ α : Type} [DecidableEq κ]

/-- One operation of a history on the model; `none` is undefined behaviour. -/
def mapStep (lt : κ → κ → Bool) (t : Option (Tree κ α)) : MapOp κ α → Option (Tree κ α)
  | .insert k v => t.bind fun t => (insertMapElement lt t k v).map Prod.snd
  | .remove k => t.bind fun t => removeMapElement lt t k

/-- A history of `InsertMapElement` / `RemoveMapElement` calls on an empty map. -/
def mapRun (lt : κ → κ → Bool) (ops : List (MapOp κ α)) : Option (Tree κ α) :=
  ops.foldl (mapStep lt) (some .nil)

theorem mapInv_run {lt : κ → κ → Bool} (O : StrictTotal lt) (ops : List (MapOp κ α)) :
    ∃ t, mapRun lt ops = some t ∧ MapInv lt t (AMap.run ops) := by
  have gen : ∀ (ops : List (MapOp κ α)) (t : Tree κ α) (m : AMap κ α), MapInv lt t m →
      ∃ t', ops.foldl (mapStep lt) (some t) = some t' ∧ MapInv lt t' (ops.foldl AMap.apply m) := by
    intro ops
    induction ops with
    | nil => intro t m h; exact ⟨t, rfl, h⟩
    | cons op ops ih =>
      intro t m h
      cases op with
      | insert k v =>
        obtain ⟨t', e, h'⟩ := mapInv_insert O h k v
        simpa [mapStep, e, AMap.apply] using ih t' _ h'
      | remove k =>
        obtain ⟨t', e, h'⟩ := mapInv_remove O h k
        simpa [mapStep, e, AMap.apply] using ih t' _ h'
  exact gen ops .nil AMap.empty ⟨trivial, by simp [Sorted, toList], by simp [toList, AMap.empty]⟩

/-- **C35.** After any history of insertions and removals the model has no undefined
behaviour, `FindMapElement` returns exactly what a finite map with first-insertion-wins
semantics contains, and `InsertMapElement` returns whether the key was absent. -/
theorem C35_map_refines_finite_map {lt : κ → κ → Bool} (O : StrictTotal lt)
    (ops : List (MapOp κ α)) :
    ∃ t, mapRun lt ops = some t ∧
      (∀ k, findMapElement lt k t = (AMap.run ops k).map fun v => (k, v)) ∧
      (∀ k v, ∃ t', insertMapElement lt t k v = some ((AMap.run ops k).isNone, t')) := by
  obtain ⟨t, e, h⟩ := mapInv_run O ops
  refine ⟨t, e, mapInv_find O h, ?_⟩
  intro k v
  obtain ⟨t', e', _⟩ := mapInv_insert O h k v
  exact ⟨t', e'⟩

/-- The order used in the examples: natural numbers. -/
def natLt (a b : Nat) : Bool := decide (a < b)

theorem natLt_total : StrictTotal natLt :=
  ⟨by simp [natLt], by simp [natLt]; omega, by simp [natLt]; omega⟩

/-- A history with rotations, a repeated key and a removal of an inner node. -/
def sampleHistory : List (MapOp Nat Nat) :=
  [.insert 5 50, .insert 3 30, .insert 4 40, .insert 8 80, .insert 9 90, .insert 4 41, .insert 7 70,
   .remove 5, .insert 1 10]

example : (mapRun natLt sampleHistory).bind (findMapElement natLt 4) = some (4, 40) := by decide
example : (mapRun natLt sampleHistory).bind (findMapElement natLt 5) = none := by decide
example : AMap.run sampleHistory 4 = some 40 := by decide

/-- The number of nodes examined by `FindMapElement` (TSMap.h:756-771) for key `k`. -/
def nodesExamined (lt : κ → κ → Bool) (k : κ) : Tree κ α → Nat
  | .nil => 0
  | .node _ l nk _ r =>
      1 + if lt k nk then nodesExamined lt k l else if lt nk k then nodesExamined lt k r else 0

theorem nodesExamined_le (lt : κ → κ → Bool) (k : κ) (t : Tree κ α) :
    nodesExamined lt k t ≤ height t := by
  induction t with
  | nil => simp [nodesExamined]
  | node b l nk nv r ihl ihr =>
    simp only [nodesExamined, height]
    split
    · omega
    · split <;> omega

/-- **C36.** In every reachable map with `n` elements no lookup examines more than
`1.45 * log2 (n + 1)` nodes, stated without logarithms as `2^(100 s) ≤ (n+1)^145`. -/
theorem C36_map_lookup_logarithmic {lt : κ → κ → Bool} (O : StrictTotal lt)
    (ops : List (MapOp κ α)) :
    ∃ t n, mapRun lt ops = some t ∧ count t = .ok n ∧
      ∀ k, 2 ^ (100 * nodesExamined lt k t) ≤ (n + 1) ^ 145 := by
  obtain ⟨t, e, h⟩ := mapInv_run O ops
  refine ⟨t, _, e, count_eq t, fun k => ?_⟩
  have h1 := height_bound t h.bal
  rw [size_eq] at h1
  refine Nat.le_trans (Nat.pow_le_pow_right (by omega) ?_) h1
  have := nodesExamined_le lt k t
  omega

/-- Inserting 1..7 in order gives a tree of three levels. -/
example : (mapRun natLt ((List.range 7).map fun i => MapOp.insert i i)).map (nodesExamined natLt 6)
    = some 3 := by decide

/-- **C37.** `RemoveMapElement` takes exactly the element of the given key out of the
sequence of elements, wherever it is in the tree; all others keep their order and the map
stays balanced. -/
theorem C37_remove_exact {lt : κ → κ → Bool} (O : StrictTotal lt) (ops : List (MapOp κ α)) (k : κ)
    (v : α) (hk : AMap.run ops k = some v) :
    ∃ t t' a c, mapRun lt ops = some t ∧ removeMapElement lt t k = some t' ∧
      forward t = .ok (a ++ (k, v) :: c) ∧ forward t' = .ok (a ++ c) ∧
      (∀ x ∈ a ++ c, x.1 ≠ k) ∧ findMapElement lt k t' = none ∧ Bal t' := by
  obtain ⟨t, e, h⟩ := mapInv_run O ops
  have hf := mapInv_find O h k
  obtain ⟨t0, e0, h0⟩ := mapInv_remove O h k
  rcases remove_spec O t k h.bal h.sorted with ⟨hn, _⟩ | ⟨t', a, c, v', hx, hr, hb, e1, e2⟩
  · rw [hf, hk] at hn; simp at hn
  · rw [hf, hk] at hx
    simp only [Option.map_some, Option.some.injEq, Prod.mk.injEq, true_and] at hx
    subst hx
    rw [hr] at e0
    simp only [Option.some.injEq] at e0
    subst e0
    have hnone : findMapElement lt k t' = none := by
      rw [mapInv_find O h0]; simp [AMap.erase]
    refine ⟨t, t', a, c, e, hr, by rw [forward_eq, e1], by rw [forward_eq, e2], ?_, hnone, hb⟩
    have := (find_none O k t' h0.sorted).1 hnone
    rwa [e2] at this

example : (mapRun natLt sampleHistory).map forward
    = some (.ok [(1, 10), (3, 30), (4, 40), (7, 70), (8, 80), (9, 90)]) := by decide

/-- **C39.** Forward iteration, backward iteration, index access and the element count
agree, for every tree. -/
theorem C39_iteration_consistent (t : Tree κ α) :
    ∃ l, forward t = .ok l ∧ backward t = .ok l.reverse ∧ count t = .ok l.length ∧
      ∀ i, index t i = .ok l[i]? :=
  ⟨toList t, forward_eq t, backward_eq t, count_eq t, index_eq t⟩

example : (mapRun natLt sampleHistory).map (fun t => (backward t, index t 2, index t 9))
    = some (.ok [(9, 90), (8, 80), (7, 70), (4, 40), (3, 30), (1, 10)], .ok (some (4, 40)), .ok none) := by
  decide

/-- **C39.** `GetNextMapElement` and `GetPreviousMapElement` undo each other: whenever one of them yields an element,
the other leads back. -/
theorem C39_next_previous_inverse (z z' : Pos κ α) :
    (nextPos z = some z' → prevPos z' = some z) ∧ (prevPos z = some z' → nextPos z' = some z) :=
  ⟨prev_next z z', next_prev z z'⟩

/-- Element 4 of the sample map and its neighbours. -/
example : (mapRun natLt sampleHistory).bind (fun t => (locate natLt 4 t []).bind fun (p, b, l, k, v, r) =>
    (nextPos ⟨p, b, l, k, v, r⟩).bind fun z => (prevPos z).map fun y => (z.key, y.key)) = some (7, 4) := by decide

/-- **C16, container part.** Iterating a reachable map visits each key exactly once, in
strictly increasing order, and visits exactly the elements contained in the map. -/
theorem C16_map_iteration_sorted {lt : κ → κ → Bool} (O : StrictTotal lt) (ops : List (MapOp κ α)) :
    ∃ t l, mapRun lt ops = some t ∧ forward t = .ok l ∧
      l.Pairwise (fun x y => lt x.1 y.1 = true) ∧
      ∀ k v, (k, v) ∈ l ↔ AMap.run ops k = some v := by
  obtain ⟨t, e, h⟩ := mapInv_run O ops
  exact ⟨t, toList t, e, forward_eq t, h.sorted, h.mem⟩

/-! ### C38: InsertReplaceMapElement -/

/-- A map with three elements and root key 2. -/
def threeMap : Option (Tree Nat Nat) :=
  mapRun natLt [.insert 2 20, .insert 1 10, .insert 3 30]

/-- **C38, negation.** Replacing the element at the root loses the rest of the map and
does not store the new element: the statement of C38 is false. -/
theorem C38_violated_at_root :
    ∃ (ops : List (MapOp Nat Nat)) (t t' : Tree Nat Nat) (old : Option (Nat × Nat)),
      mapRun natLt ops = some t ∧ insertReplaceMapElement natLt t 2 99 = some (old, t') ∧
      findMapElement natLt 2 t' ≠ some (2, 99) ∧
      findMapElement natLt 1 t = some (1, 10) ∧ findMapElement natLt 1 t' = none := by
  refine ⟨[.insert 2 20, .insert 1 10, .insert 3 30],
    .node 0 (.node 0 .nil 1 10 .nil) 2 20 (.node 0 .nil 3 30 .nil), .node 0 .nil 2 20 .nil,
    some (2, 20), by decide, by decide, by decide, by decide, by decide⟩

/-- The key stored in `rootElement`. -/
def rootKey : Tree κ α → Option κ
  | .nil => none
  | .node _ _ k _ _ => some k

theorem locate_path (lt : κ → κ → Bool) (k : κ) (t : Tree κ α) (p : Path κ α) {q b l nk nv r}
    (h : locate lt k t p = some (q, b, l, nk, nv, r)) : ∃ s, q = s ++ p := by
  induction t generalizing p with
  | nil => simp [locate] at h
  | node b' l' nk' nv' r' ihl ihr =>
    simp only [locate] at h
    split at h
    · obtain ⟨s, e⟩ := ihl _ h; exact ⟨s ++ [⟨.L, b', nk', nv', r'⟩], by simp [e]⟩
    · split at h
      · obtain ⟨s, e⟩ := ihr _ h; exact ⟨s ++ [⟨.R, b', nk', nv', l'⟩], by simp [e]⟩
      · simp only [Option.some.injEq, Prod.mk.injEq] at h; exact ⟨[], by simp [h.1]⟩

theorem replace_inv {lt : κ → κ → Bool} (O : StrictTotal lt) (ops : List (MapOp κ α))
    (k : κ) (v : α) :
    ∃ t, mapRun lt ops = some t ∧ (rootKey t ≠ some k →
      ∃ t', insertReplaceMapElement lt t k v = some ((AMap.run ops k).map fun w => (k, w), t') ∧
        MapInv lt t' ((AMap.run ops).put k v)) := by
  obtain ⟨t, e, h⟩ := mapInv_run O ops
  refine ⟨t, e, fun hroot => ?_⟩
  have hf := mapInv_find O h k
  generalize AMap.run ops = m at *
  unfold insertReplaceMapElement
  cases hl : locate lt k t [] with
  | none =>
    have hn := (locate_none k t []).1 hl
    have hm : m k = none := by rw [hf] at hn; cases hm : m k <;> simp_all
    obtain ⟨t', e', h'⟩ := mapInv_insert O h k v
    refine ⟨t', by simp [e', hm], ⟨h'.bal, h'.sorted, ?_⟩⟩
    intro k' v'
    rw [h'.mem]
    simp [AMap.put, AMap.insertNew, hm]
  | some z =>
    obtain ⟨p, b, l, nk, nv, r⟩ := z
    obtain ⟨e1, e2⟩ := locate_some k t [] hl
    simp only [plug] at e1
    have hnk : nk = k := ((find_spec O k _ h.sorted _).1 e2).1
    subst hnk
    have hm : m nk = some nv := by
      have := (find_spec O nk _ h.sorted _).1 e2
      exact (h.mem _ _).1 this.2
    cases p with
    | nil =>
      simp only [plug] at e1
      subst e1
      simp [rootKey] at hroot
    | cons f p =>
      simp only [replaceAt]
      refine ⟨_, by rw [hm]; rfl, ?_, ?_, ?_⟩
      · rw [bal_plug]
        have := h.bal
        rw [← e1, bal_plug] at this
        simp only [Bal, height] at this ⊢
        exact this
      · have := h.sorted
        rw [← e1, toList_plug] at this
        rw [toList_plug]
        simp only [toList, Sorted, List.pairwise_append, List.pairwise_cons, List.mem_append,
          List.mem_cons] at this ⊢
        obtain ⟨⟨p1, ⟨p2, p3, p4⟩, p5⟩, p6, p7⟩ := this
        refine ⟨⟨p1, ⟨p2, p3, ?_⟩, ?_⟩, p6, ?_⟩
        · rintro a ha y (rfl | hy)
          · exact p4 a ha (nk, nv) (Or.inl rfl)
          · exact p4 a ha y (Or.inr hy)
        · rintro a ha y (hy | rfl | hy)
          · exact p5 a ha y (Or.inl hy)
          · exact p5 a ha (nk, nv) (Or.inr (Or.inl rfl))
          · exact p5 a ha y (Or.inr (Or.inr hy))
        · rintro a (ha | ha | rfl | ha) y hy
          · exact p7 a (Or.inl ha) y hy
          · exact p7 a (Or.inr (Or.inl ha)) y hy
          · exact p7 (nk, nv) (Or.inr (Or.inr (Or.inl rfl))) y hy
          · exact p7 a (Or.inr (Or.inr (Or.inr ha))) y hy
      · intro k' v'
        have hmem := h.mem k' v'
        have hs := h.sorted
        rw [← e1, toList_plug] at hs
        rw [← e1, toList_plug] at hmem
        rw [toList_plug]
        simp only [toList, List.mem_append, List.mem_cons, Prod.mk.injEq] at hmem ⊢
        by_cases hk : k' = nk
        · subst hk
          simp only [AMap.put, if_true, Option.some.injEq, true_and]
          constructor
          · have hx : ∀ w, (k', w) ∈ lefts (f :: p) ∨ (k', w) ∈ toList l ∨ (k', w) ∈ toList r ∨
                (k', w) ∈ rights (f :: p) → False := by
              intro w hw
              simp only [toList, Sorted, List.pairwise_append, List.pairwise_cons, List.mem_append,
                List.mem_cons] at hs
              obtain ⟨⟨p1, ⟨p2, p3, p4⟩, p5⟩, p6, p7⟩ := hs
              rcases hw with h1 | h1 | h1 | h1
              · have := p5 _ h1 (k', nv) (Or.inr (Or.inl rfl)); simp [O.irrefl] at this
              · have := p4 _ h1 (k', nv) (Or.inl rfl); simp [O.irrefl] at this
              · have := p3.1 _ h1; simp [O.irrefl] at this
              · have := p7 (k', nv) (Or.inr (Or.inr (Or.inl rfl))) _ h1; simp [O.irrefl] at this
            rintro ((h1 | h1 | h1 | h1) | h1)
            · exact absurd (hx v' (by simp [h1])) id
            · exact absurd (hx v' (by simp [h1])) id
            · exact h1.symm
            · exact absurd (hx v' (by simp [h1])) id
            · exact absurd (hx v' (by simp [h1])) id
          · rintro rfl; simp
        · simp only [AMap.put, hk, if_false, false_and, false_or] at hmem ⊢
          exact hmem

/-- **C38 (partial).** If the key is absent or is not the key of the root element,
`InsertReplaceMapElement` returns the replaced element, afterwards the key is bound to the
new element and every other key is unaffected. Missing from the full statement: the key at
the root, where the code is wrong (`C38_violated_at_root`). -/
theorem C38_replace_partial {lt : κ → κ → Bool} (O : StrictTotal lt) (ops : List (MapOp κ α))
    (k : κ) (v : α) :
    ∃ t, mapRun lt ops = some t ∧ (rootKey t ≠ some k →
      ∃ t', insertReplaceMapElement lt t k v = some ((AMap.run ops k).map fun w => (k, w), t') ∧
        (∀ x, findMapElement lt x t' = ((AMap.run ops).put k v x).map fun w => (x, w)) ∧ Bal t') := by
  obtain ⟨t, e, h⟩ := replace_inv O ops k v
  refine ⟨t, e, fun hr => ?_⟩
  obtain ⟨t', e', h'⟩ := h hr
  exact ⟨t', e', mapInv_find O h', h'.bal⟩

example : threeMap.bind (fun t => (insertReplaceMapElement natLt t 1 11).map fun x =>
    (x.1, findMapElement natLt 1 x.2, findMapElement natLt 3 x.2))
    = some (some (1, 10), some (1, 11), some (3, 30)) := by decide

end Verif.Props
