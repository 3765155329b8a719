import Mathlib.Data.Real.Basic
import Verif.Spec.Float

/-!
# Floats as real numbers
-/

namespace Verif.Spec.F32

open Verif.B32

/-- The real number that is a finite float. -/
noncomputable def real (x : Flt) : ℝ := (val x : ℝ) / 2 ^ 149

end Verif.Spec.F32
