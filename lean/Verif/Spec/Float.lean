import Verif.Model.Binary32

/-!
# Values of floats
-/

namespace Verif.Spec.F32

open Verif Verif.B32

/-- The significands and exponents of the finite floats. -/
def Canonical (m q : Nat) : Prop := m < 2 ^ 24 ∧ q ≤ 253 ∧ (q = 0 ∨ 2 ^ 23 ≤ m)

/-- A finite float. -/
def Finite (x : Flt) : Prop := ∃ s m q, x = .fin s m q ∧ Canonical m q

/-- The value of a finite float, in units of `2^(-149)`. -/
def val : Flt → Int
  | .fin s m q => if s then -(m * 2 ^ q : Nat) else (m * 2 ^ q : Nat)
  | _ => 0

/-- One, in units of `2^(-149)`. -/
def unit : Nat := 2 ^ 149

/-- `r` is the greatest integer that is not greater than `x`. -/
def IsFloor (x r : Flt) : Prop := Finite r ∧ ∃ n : Int, val r = n * unit ∧ n * unit ≤ val x ∧ val x < (n + 1) * unit

/-- `r` is the least integer that is not less than `x`. -/
def IsCeil (x r : Flt) : Prop := Finite r ∧ ∃ n : Int, val r = n * unit ∧ (n - 1) * unit < val x ∧ val x ≤ n * unit

/-- The order of the floats that are not NaN; both zeros are equal. -/
def Le : Flt → Flt → Prop
  | .nan, _ => False
  | _, .nan => False
  | .inf true, _ => True
  | _, .inf false => True
  | .inf false, _ => False
  | _, .inf true => False
  | .fin s m q, .fin s' m' q' => val (.fin s m q) ≤ val (.fin s' m' q')

/-- Equal as numbers. -/
def Same (x y : Flt) : Prop := Le x y ∧ Le y x

end Verif.Spec.F32
