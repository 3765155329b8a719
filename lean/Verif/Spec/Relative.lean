import Mathlib.Algebra.Field.Rat
import Verif.Model.Binary64

/-!
# Values of doubles and accumulated rounding errors
-/

namespace Verif.Spec

open Verif.B64

/-- The number that is a finite double. -/
def value : Dbl → Option Rat
  | .fin s m q => some ((if s then -1 else 1) * (m * 2 ^ q / 2 ^ 1074))
  | _ => none

/-- `x` and `d` differ by at most `k` roundings of binary64: by a factor between `(1 + 2^(-53))^(-k)` and `(1 + 2^(-53))^k`. -/
def Roundings (k : Nat) (x d : Rat) : Prop := d ≤ x * (1 + 1 / 2 ^ 53) ^ k ∧ x ≤ d * (1 + 1 / 2 ^ 53) ^ k

end Verif.Spec
