import Verif.Model.Binary32

/-!
# Conversion of `double` to `float`

`NumberValue::Write` without the C library passes its `double` to `Text::FloatToString(float)` (C4Json.cpp:1225, TSString.h:698-701).
The conversion gives the nearest float, of two nearest ones the one with the even significand (IEEE 754, 5.4.2; the default rounding
direction). The two formats of the model count in units of `2^(-1074)` and `2^(-149)`.
-/

namespace Verif.B32

open Verif.B64 (Dbl)

/-- `static_cast<float>(x)`. -/
def narrow : Dbl → Flt
  | .fin s m q => round s (m * 2 ^ q) (2 ^ 925)
  | .inf s => .inf s
  | .nan => .nan

/-- The bits of the float. -/
def narrowBits (x : Dbl) : Nat := toBits (narrow x)

end Verif.B32
