import Verif.Lemmas.Root
import Verif.Lemmas.MapIter
import Verif.Model.Document

/-! # The value objects built by the parser, seen through the access functions -/

namespace Verif.Parser

open Verif Verif.Text Verif.Number Verif.Map Verif.Spec Verif.Doc

variable {D : Type}

/-- Induction over a member list. -/
theorem jm_ind {P : JM → Prop} (nil : P .nil) (cons : ∀ k j m, P m → P (.cons k j m)) : ∀ m, P m
  | .nil => nil
  | .cons k j m => cons k j m (jm_ind nil cons m)

/-- Induction over an element list. -/
theorem jl_ind {P : JL → Prop} (nil : P .nil) (cons : ∀ j l, P l → P (.cons j l)) : ∀ l, P l
  | .nil => nil
  | .cons j l => cons j l (jl_ind nil cons l)

theorem mapInv_interpM (N : NumOps D) (m : JM) (t : Tree Bytes (Value D)) (A : AMap Bytes (Value D))
    (h : MapInv nameLt t A) :
    MapInv nameLt (interpM N m t) (fun k => (A k).or ((m.first k).map (interp N))) := by
  induction m using jm_ind generalizing t A with
  | nil =>
    simp only [interpM, JM.first, Option.map_none, Option.or_none]; exact h
  | cons k j m ih =>
    simp only [interpM]
    obtain ⟨t', e, h'⟩ := mapInv_insert nameLt_strict h k (interp N j)
    have e' : addMember t k (interp N j) = t' := by unfold addMember; rw [e]
    rw [e']
    have := ih t' _ h'
    refine cast (congrArg _ ?_) this
    funext x
    simp only [AMap.insertNew, JM.first]
    by_cases hx : x = k
    · subst hx
      cases hA : A x <;> simp
    · have : k ≠ x := fun e => hx e.symm
      simp [hx, this]

theorem mapInv_obj (N : NumOps D) (m : JM) :
    MapInv nameLt (interpM N m .nil) (fun k => (m.first k).map (interp N)) := by
  have := mapInv_interpM N m .nil _ (mapInv_empty nameLt)
  simpa [AMap.empty] using this

theorem find_interpM (N : NumOps D) (m : JM) (k : Bytes) :
    findMapElement nameLt k (interpM N m .nil) = (m.first k).map fun j => (k, interp N j) := by
  rw [mapInv_find nameLt_strict (mapInv_obj N m)]
  cases m.first k <;> rfl

theorem interpL_get (N : NumOps D) (l : JL) (i : Nat) : (interpL N l)[i]? = (l.get i).map (interp N) := by
  induction l using jl_ind generalizing i with
  | nil => rfl
  | cons j l ih =>
    cases i with
    | zero => rfl
    | succ i => simp [interpL, JL.get, ih]

theorem interpL_length (N : NumOps D) (l : JL) : (interpL N l).length = l.length := by
  induction l using jl_ind with
  | nil => rfl
  | cons j l ih => simp [interpL, JL.length, ih]

theorem step_interp (N : NumOps D) (j : J) (s : Step) : step (interp N j) s = (j.step s).map (interp N) := by
  cases j <;> cases s <;> simp only [interp, step, J.step, Option.map_none]
  · exact interpL_get N _ _
  · rw [find_interpM]
    cases JM.first _ _ <;> rfl

theorem walk_interp (N : NumOps D) (j : J) (p : List Step) :
    walk (interp N j) p = (j.walk p).map (interp N) := by
  induction p generalizing j with
  | nil => rfl
  | cons s p ih =>
    simp only [walk, J.walk, step_interp]
    cases j.step s with
    | none => rfl
    | some j' => simpa using ih j'

theorem first_isSome (m : JM) (k : Bytes) : (m.first k).isSome ↔ k ∈ m.names := by
  induction m using jm_ind with
  | nil => simp [JM.first, JM.names]
  | cons k' j m ih =>
    simp only [JM.first, JM.names, List.mem_cons]
    by_cases h : k' = k
    · subst h; simp
    · rw [if_neg h, ih]
      constructor
      · exact .inr
      · rintro (e | h') 
        · exact absurd e.symm h
        · exact h'

end Verif.Parser
