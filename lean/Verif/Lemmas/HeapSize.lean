import Verif.Lemmas.Heap
import Verif.Spec.Size

/-!
# The number of objects made for a text
-/

namespace Verif.Own

open Verif Verif.Text Verif.Number Verif.Parser Verif.Spec

variable {D : Type}

theorem oval_reach_ne (v : OVal D) : v.reach ≠ [] := by
  cases v <;> simp [OVal.reach]

mutual
theorem rep_size (N : NumOps D) (v : OVal D) (j : J) (h : Rep N v j) :
    v.reach.length + v.lost.length = j.size := by
  match v, j with
  | .leaf a x, j =>
    simp only [Rep] at h
    cases j <;> simp_all [Scalar, OVal.reach, OVal.lost, J.size]
  | .arr a l, .arr jl =>
    simp only [Rep] at h
    have := repL_size N l jl h
    simp only [OVal.reach, OVal.lost, J.size, List.length_cons]; omega
  | .obj a m, .obj jm =>
    simp only [Rep] at h
    have := repM_size N [] m jm h
    simp only [OVal.reach, OVal.lost, J.size, List.length_cons]; omega
  | .arr a l, .null | .arr a l, .bool _ | .arr a l, .num _ | .arr a l, .str _ | .arr a l, .obj _ =>
    simp [Rep] at h
  | .obj a l, .null | .obj a l, .bool _ | .obj a l, .num _ | .obj a l, .str _ | .obj a l, .arr _ =>
    simp [Rep] at h

theorem repL_size (N : NumOps D) (l : OList D) (jl : JL) (h : RepL N l jl) :
    l.reach.length + l.lost.length = jl.size := by
  match l, jl with
  | .nil, .nil => rfl
  | .cons v l, .cons j jl =>
    simp only [RepL] at h
    have := rep_size N v j h.1
    have := repL_size N l jl h.2
    simp only [OList.reach, OList.lost, JL.size, List.length_append]; omega
  | .nil, .cons _ _ | .cons _ _, .nil => simp [RepL] at h

theorem repM_size (N : NumOps D) (seen : List Bytes) (m : OMem D) (jm : JM) (h : RepM N seen m jm) :
    m.reach.length + m.lost.length = jm.size := by
  match m, jm with
  | .nil, .nil => rfl
  | .cons k b v m, .cons k' j jm =>
    simp only [RepM] at h
    have := rep_size N v j h.2.2.1
    have := repM_size N _ m jm h.2.2.2
    cases b <;>
      simp only [OMem.reach, OMem.lost, JM.size, List.length_append, if_true, if_false, List.length_nil,
        Bool.false_eq_true] <;> omega
  | .nil, .cons _ _ _ | .cons _ _ _ _, .nil => simp [RepM] at h
end

mutual
theorem rep_lost (N : NumOps D) (v : OVal D) (j : J) (h : Rep N v j) : v.lost = [] ↔ j.Distinct := by
  match v, j with
  | .leaf a x, j =>
    simp only [Rep] at h
    cases j <;> simp_all [Scalar, OVal.lost, J.Distinct]
  | .arr a l, .arr jl =>
    simp only [Rep] at h
    simp only [OVal.lost, J.Distinct]
    exact repL_lost N l jl h
  | .obj a m, .obj jm =>
    simp only [Rep] at h
    simp only [OVal.lost, J.Distinct]
    rw [repM_lost N [] m jm h]
    simp
  | .arr a l, .null | .arr a l, .bool _ | .arr a l, .num _ | .arr a l, .str _ | .arr a l, .obj _ =>
    simp [Rep] at h
  | .obj a l, .null | .obj a l, .bool _ | .obj a l, .num _ | .obj a l, .str _ | .obj a l, .arr _ =>
    simp [Rep] at h

theorem repL_lost (N : NumOps D) (l : OList D) (jl : JL) (h : RepL N l jl) : l.lost = [] ↔ jl.Distinct := by
  match l, jl with
  | .nil, .nil => simp [OList.lost, JL.Distinct]
  | .cons v l, .cons j jl =>
    simp only [RepL] at h
    simp only [OList.lost, JL.Distinct, List.append_eq_nil_iff, rep_lost N v j h.1, repL_lost N l jl h.2]
  | .nil, .cons _ _ | .cons _ _, .nil => simp [RepL] at h

theorem repM_lost (N : NumOps D) (seen : List Bytes) (m : OMem D) (jm : JM) (h : RepM N seen m jm) :
    m.lost = [] ↔ (jm.names.Nodup ∧ ∀ k ∈ jm.names, k ∉ seen) ∧ jm.Distinct := by
  match m, jm with
  | .nil, .nil => simp [OMem.lost, JM.Distinct, JM.names]
  | .cons k b v m, .cons k' j jm =>
    simp only [RepM] at h
    obtain ⟨rfl, hb, hv, hm⟩ := h
    simp only [OMem.lost, JM.Distinct, List.append_eq_nil_iff, rep_lost N v j hv, repM_lost N _ m jm hm, JM.names,
      List.nodup_cons, List.mem_cons, List.mem_append, List.not_mem_nil, or_false]
    have hb' : (if b = true then [] else v.reach) = [] ↔ k ∉ seen := by
      subst hb
      by_cases hk : k ∈ seen <;> simp [hk, oval_reach_ne]
    rw [hb']
    grind
  | .nil, .cons _ _ _ | .cons _ _ _ _, .nil => simp [RepM] at h
end

theorem repM_names (N : NumOps D) (seen : List Bytes) (m : OMem D) (jm : JM) (h : RepM N seen m jm) :
    m.names = jm.names := by
  match m, jm with
  | .nil, .nil => rfl
  | .cons k b v m, .cons k' j jm =>
    simp only [RepM] at h
    simp only [OMem.names, JM.names]
    rw [h.1, repM_names N _ m jm h.2.2.2]
  | .nil, .cons _ _ _ | .cons _ _ _ _, .nil => simp [RepM] at h

mutual
theorem rep_stands (N : NumOps D) (v : OVal D) (j : J) (h : Rep N v j) : v.Stands (interp N j) := by
  match v, j with
  | .leaf a x, j =>
    simp only [Rep] at h
    simp only [OVal.Stands]
    exact h.2.symm
  | .arr a l, .arr jl =>
    simp only [Rep] at h
    simp only [OVal.Stands, interp]
    exact ⟨_, rfl, repL_stands N l jl h⟩
  | .obj a m, .obj jm =>
    simp only [Rep] at h
    simp only [OVal.Stands, interp]
    refine ⟨_, by rw [repM_names N _ m jm h], ?_⟩
    exact repM_builds N [] m jm h .nil _ (Map.mapInv_empty nameLt) (by simp [AMap.empty])
  | .arr a l, .null | .arr a l, .bool _ | .arr a l, .num _ | .arr a l, .str _ | .arr a l, .obj _ =>
    simp [Rep] at h
  | .obj a l, .null | .obj a l, .bool _ | .obj a l, .num _ | .obj a l, .str _ | .obj a l, .arr _ =>
    simp [Rep] at h

theorem repL_stands (N : NumOps D) (l : OList D) (jl : JL) (h : RepL N l jl) : l.Stands (interpL N jl) := by
  match l, jl with
  | .nil, .nil => simp [OList.Stands, interpL]
  | .cons v l, .cons j jl =>
    simp only [RepL] at h
    simp only [OList.Stands, interpL]
    exact ⟨_, _, rfl, rep_stands N v j h.1, repL_stands N l jl h.2⟩
  | .nil, .cons _ _ | .cons _ _, .nil => simp [RepL] at h

theorem repM_builds (N : NumOps D) (seen : List Bytes) (m : OMem D) (jm : JM) (h : RepM N seen m jm)
    (t : Map.Tree Bytes (Value D)) (A : AMap Bytes (Value D)) (hA : Map.MapInv nameLt t A)
    (hs : ∀ k, k ∈ seen ↔ (A k).isSome) : m.Builds t (interpM N jm t) := by
  match m, jm with
  | .nil, .nil => simp [OMem.Builds, interpM]
  | .cons k b v m, .cons k' j jm =>
    simp only [RepM] at h
    obtain ⟨rfl, hb, hv, hm⟩ := h
    simp only [OMem.Builds, interpM]
    obtain ⟨t', e, h'⟩ := Map.mapInv_insert nameLt_strict hA k (interp N j)
    have e' : addMember t k (interp N j) = t' := by unfold addMember; rw [e]
    rw [e']
    refine ⟨_, t', rep_stands N v j hv, ?_, repM_builds N _ m jm hm t' _ h' ?_⟩
    · rw [e, hb]
      have := hs k
      cases hk : A k <;> simp_all
    · intro x
      simp only [AMap.insertNew, List.mem_append, List.mem_singleton]
      rw [hs x]
      by_cases hx : x = k
      · subst hx; cases hA : A x <;> simp
      · simp [hx]
  | .nil, .cons _ _ _ | .cons _ _ _ _, .nil => simp [RepM] at h
end

end Verif.Own
