import Verif.Model.Binary64
import Verif.Spec.Json

/-!
# The finite doubles
-/

namespace Verif.Spec

open Verif Verif.B64

/-- The finite doubles: 53 significant bits, the leading one set unless the exponent is the smallest; the largest is
`(2^53 - 1) * 2^971`. -/
def Canonical (m q : Nat) : Prop := m < 2 ^ 53 ∧ q ≤ 2045 ∧ (q = 0 ∨ 2 ^ 52 ≤ m)

/-- The double with the given 64 bits: sign, 11 bits of exponent, 52 bits of fraction (IEEE 754, 3.4). -/
def ofBits (b : Nat) : Dbl :=
  let neg := decide (b / 2 ^ 63 % 2 = 1)
  let e := b / 2 ^ 52 % 2048
  let f := b % 2 ^ 52
  if e = 2047 then (if f = 0 then .inf neg else .nan)
  else if e = 0 then .fin neg f 0
  else .fin neg (2 ^ 52 + f) (e - 1)

/-- A finite double. -/
def Finite : Dbl → Prop
  | .fin _ m q => Canonical m q
  | _ => False

/-- Distance of two numbers. -/
def dist (a b : Nat) : Nat := (a - b) + (b - a)

/-- `x` is the double nearest to the decimal `d`, of two nearest doubles the one with the even significand; the sign is the
one of the decimal. Values that are at least half a unit beyond the largest double are infinite (IEEE 754, 4.3.1). Absolute
values are compared, multiplied by `2^1074` and by the denominator `10^(-exponent)`. -/
def NearestDouble (d : Dec) : Dbl → Prop
  | .fin s m q => s = d.neg ∧ Canonical m q ∧ 2 * scaled d < (2 ^ 54 - 1) * 2 ^ 2045 * 10 ^ (-d.exponent).toNat ∧
      ∀ m' q', Canonical m' q' →
        dist (scaled d) (m * 2 ^ q * 10 ^ (-d.exponent).toNat) ≤ dist (scaled d) (m' * 2 ^ q' * 10 ^ (-d.exponent).toNat) ∧
        (dist (scaled d) (m * 2 ^ q * 10 ^ (-d.exponent).toNat) = dist (scaled d) (m' * 2 ^ q' * 10 ^ (-d.exponent).toNat) →
          m * 2 ^ q ≠ m' * 2 ^ q' → m % 2 = 0)
  | .inf s => s = d.neg ∧ (2 ^ 54 - 1) * 2 ^ 2045 * 10 ^ (-d.exponent).toNat ≤ 2 * scaled d
  | .nan => False
where
  scaled (d : Dec) : Nat := d.mantissa * 10 ^ d.exponent.toNat * 2 ^ 1074

instance (m q : Nat) : Decidable (Canonical m q) := by unfold Canonical; infer_instance

end Verif.Spec
