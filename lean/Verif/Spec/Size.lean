import Verif.Spec.Json

/-!
# Specification of the number of values in a JSON value
-/

namespace Verif.Spec

open Verif

mutual
/-- The number of values of a text: one for the value itself and those of all elements and members. -/
def J.size : J → Nat
  | .arr l => l.size + 1
  | .obj m => m.size + 1
  | _ => 1
/-- Elements. -/
def JL.size : JL → Nat
  | .nil => 0
  | .cons j l => j.size + l.size
/-- Members. -/
def JM.size : JM → Nat
  | .nil => 0
  | .cons _ j m => j.size + m.size
end

mutual
/-- No object of the value has two members with the same name. -/
def J.Distinct : J → Prop
  | .arr l => l.Distinct
  | .obj m => m.names.Nodup ∧ m.Distinct
  | _ => True
/-- Elements. -/
def JL.Distinct : JL → Prop
  | .nil => True
  | .cons j l => j.Distinct ∧ l.Distinct
/-- Members. -/
def JM.Distinct : JM → Prop
  | .nil => True
  | .cons _ j m => j.Distinct ∧ m.Distinct
end

end Verif.Spec
