import Verif.Spec.Binary64

/-!
# The finite floats
-/

namespace Verif.Spec

open Verif

/-- The bits of a finite `float`: sign, 8 bits of exponent, 23 bits of fraction (IEEE 754, 3.4). -/
def FiniteFloat (b : Nat) : Prop := b < 2 ^ 32 ∧ b / 2 ^ 23 % 256 ≠ 255

/-- The absolute value of a finite float, multiplied by `2^149`. -/
def units (b : Nat) : Nat :=
  if b / 2 ^ 23 % 256 = 0 then b % 2 ^ 23 else (2 ^ 23 + b % 2 ^ 23) * 2 ^ (b / 2 ^ 23 % 256 - 1)

/-- `x` is the float nearest to the decimal `d`, of two nearest floats the one with the even significand; the sign is the
one of the decimal. Absolute values are compared, multiplied by `2^149` and by the denominator `10^(-exponent)`. -/
def NearestFloat (d : Dec) (b : Nat) : Prop :=
  FiniteFloat b ∧ d.neg = decide (2 ^ 31 ≤ b) ∧ ∀ b', FiniteFloat b' →
    dist (scaled d) (units b * 10 ^ (-d.exponent).toNat) ≤ dist (scaled d) (units b' * 10 ^ (-d.exponent).toNat) ∧
    (dist (scaled d) (units b * 10 ^ (-d.exponent).toNat) = dist (scaled d) (units b' * 10 ^ (-d.exponent).toNat) →
      units b ≠ units b' → b % 2 = 0)
where
  scaled (d : Dec) : Nat := d.mantissa * 10 ^ d.exponent.toNat * 2 ^ 149

/-- The distance of `mantissa / 10^k` and of the absolute value of the float `b` is less than `10^(-5) + 2^(-23)`. -/
def Near (mantissa k b : Nat) : Prop :=
  dist (mantissa * 2 ^ 149) (units b * 10 ^ k) * (10 ^ 5 * 2 ^ 23) < (10 ^ 5 + 2 ^ 23) * (10 ^ k * 2 ^ 149)

instance (m k b : Nat) : Decidable (Near m k b) := by unfold Near; infer_instance

end Verif.Spec
