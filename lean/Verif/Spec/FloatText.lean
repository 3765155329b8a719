import Verif.Spec.FloatReal
import Verif.Spec.Json

/-!
# Decimals as real numbers
-/

namespace Verif.Spec

/-- The real number that is a decimal. -/
noncomputable def decReal (d : Dec) : ℝ := (if d.neg then -1 else 1) * (d.mantissa * (10 : ℝ) ^ d.exponent)

end Verif.Spec
