import Verif.Lemmas.MapOrder

/-! # The invariant relating a tree to the finite map it stands for -/

namespace Verif.Map

open Verif.Spec

variable {κ α : Type} [DecidableEq κ]

/-- The relation between a tree and the abstract map it stands for. -/
structure MapInv (lt : κ → κ → Bool) (t : Tree κ α) (m : AMap κ α) : Prop where
  bal : Bal t
  sorted : Sorted lt (toList t)
  mem : ∀ k v, (k, v) ∈ toList t ↔ m k = some v

theorem mapInv_find {lt : κ → κ → Bool} (O : StrictTotal lt) {t : Tree κ α} {m : AMap κ α}
    (h : MapInv lt t m) (k : κ) : findMapElement lt k t = (m k).map fun v => (k, v) := by
  cases hm : m k with
  | none =>
    simp only [Option.map_none]
    rw [find_none O k t h.sorted]
    rintro ⟨x, v⟩ hx rfl
    have := (h.mem x v).1 hx
    simp [hm] at this
  | some v =>
    simp only [Option.map_some]
    rw [find_spec O k t h.sorted]
    exact ⟨rfl, (h.mem k v).2 hm⟩

theorem mapInv_insert {lt : κ → κ → Bool} (O : StrictTotal lt) {t : Tree κ α} {m : AMap κ α}
    (h : MapInv lt t m) (k : κ) (v : α) :
    ∃ t', insertMapElement lt t k v = some ((m k).isNone, t') ∧ MapInv lt t' (m.insertNew k v) := by
  have hf := mapInv_find O h k
  rcases insert_spec O t k v h.bal h.sorted with ⟨⟨x, hx⟩, hi⟩ | ⟨hn, t', a, c, hi, hb, e1, e2, ha, hc⟩
  · rw [hf] at hx
    cases hm : m k with
    | none => simp [hm] at hx
    | some w =>
      refine ⟨t, by simp [hi], ⟨h.bal, h.sorted, ?_⟩⟩
      intro k' v'
      rw [h.mem]; simp [AMap.insertNew, hm]
  · have hm : m k = none := by
      rw [hf] at hn; cases hm : m k <;> simp_all
    refine ⟨t', by simp [hi, hm], ⟨hb, ?_, ?_⟩⟩
    · rw [e2]; exact sorted_insert (by rw [← e1]; exact h.sorted) ha hc
    · intro k' v'
      have hmem := h.mem k' v'
      rw [e1, List.mem_append] at hmem
      rw [e2]
      simp only [List.mem_append, List.mem_cons, Prod.mk.injEq, AMap.insertNew, hm, and_true]
      by_cases hk : k' = k
      · subst hk
        simp only [true_and, if_true, Option.some.injEq]
        rw [hm] at hmem
        constructor
        · rintro (h1 | rfl | h1)
          · simpa using hmem.1 (Or.inl h1)
          · rfl
          · simpa using hmem.1 (Or.inr h1)
        · rintro rfl; exact Or.inr (Or.inl rfl)
      · simp only [hk, false_and, false_or, if_false]
        exact hmem

theorem mapInv_remove {lt : κ → κ → Bool} (O : StrictTotal lt) {t : Tree κ α} {m : AMap κ α}
    (h : MapInv lt t m) (k : κ) :
    ∃ t', removeMapElement lt t k = some t' ∧ MapInv lt t' (m.erase k) := by
  have hf := mapInv_find O h k
  rcases remove_spec O t k h.bal h.sorted with ⟨hn, hr⟩ | ⟨t', a, c, v, hx, hr, hb, e1, e2⟩
  · have hm : m k = none := by rw [hf] at hn; cases hm : m k <;> simp_all
    refine ⟨t, hr, ⟨h.bal, h.sorted, ?_⟩⟩
    intro k' v'
    rw [h.mem]
    by_cases hk : k' = k
    · subst hk; simp [AMap.erase, hm]
    · simp [AMap.erase, hk]
  · refine ⟨t', hr, ⟨hb, ?_, ?_⟩⟩
    · have := h.sorted
      rw [e1] at this
      rw [e2]
      simp only [Sorted, List.pairwise_append, List.pairwise_cons, List.mem_cons] at this ⊢
      exact ⟨this.1, this.2.1.2, fun x hx y hy => this.2.2 x hx y (Or.inr hy)⟩
    · intro k' v'
      have hmem := h.mem k' v'
      rw [e1] at hmem
      have hs := h.sorted
      rw [e1] at hs
      simp only [Sorted, List.pairwise_append, List.pairwise_cons, List.mem_cons] at hs
      rw [e2]
      by_cases hk : k' = k
      · subst hk
        simp only [AMap.erase, if_true, reduceCtorEq, iff_false, List.mem_append]
        rintro (h1 | h1)
        · have := hs.2.2 _ h1 (k', v) (Or.inl rfl); simp [O.irrefl] at this
        · have := hs.2.1.1 _ h1; simp [O.irrefl] at this
      · simp only [AMap.erase, hk, if_false]
        rw [← hmem]
        simp [hk]

theorem mapInv_empty (lt : κ → κ → Bool) : MapInv lt (.nil : Tree κ α) AMap.empty :=
  ⟨trivial, by simp [Sorted, toList], by simp [toList, AMap.empty]⟩

end Verif.Map
