import Verif.Model.Binary64
import Verif.Model.Builtin

/-!
# Model of the arithmetic of `double`

The operations the built-in number reader uses (C4Json.cpp:846-983), for IEEE-754 binary64 with every operation rounded to
nearest, ties to even, and no excess precision (`FLT_EVAL_METHOD` 0, no contraction of `v * 10.0F + double( x )` into a fused
operation). Every NaN is the same.
-/

namespace Verif.B64

open Verif Verif.Builtin

/-- Absolute value of a finite double in units of `2^(-1074)`. -/
def ulps (m q : Nat) : Nat := m * 2 ^ q

/-- Sum, C4Json.cpp:861 and 897. -/
def add : Dbl → Dbl → Dbl
  | .nan, _ => .nan
  | _, .nan => .nan
  | .inf s, .inf s' => if s = s' then .inf s else .nan
  | .inf s, .fin .. => .inf s
  | .fin .., .inf s => .inf s
  | .fin s m q, .fin s' m' q' =>
    if s = s' then round s (ulps m q + ulps m' q') 1
    else if ulps m q = ulps m' q' then .fin false 0 0
    else if ulps m' q' < ulps m q then round s (ulps m q - ulps m' q') 1
    else round s' (ulps m' q' - ulps m q) 1

/-- Product, C4Json.cpp:861, 900, 977 and 981. -/
def mul : Dbl → Dbl → Dbl
  | .nan, _ => .nan
  | _, .nan => .nan
  | .inf s, .inf s' => .inf (s != s')
  | .inf s, .fin s' m _ => if m = 0 then .nan else .inf (s != s')
  | .fin s m _, .inf s' => if m = 0 then .nan else .inf (s != s')
  | .fin s m q, .fin s' m' q' => round (s != s') (ulps m q * ulps m' q') (2 ^ 1074)

/-- Quotient, C4Json.cpp:897. -/
def div : Dbl → Dbl → Dbl
  | .nan, _ => .nan
  | _, .nan => .nan
  | .inf _, .inf _ => .nan
  | .inf s, .fin s' _ _ => .inf (s != s')
  | .fin s _ _, .inf s' => .fin (s != s') 0 0
  | .fin s m q, .fin s' m' q' =>
    if m' = 0 then (if m = 0 then .nan else .inf (s != s'))
    else round (s != s') (ulps m q * 2 ^ 1074) (ulps m' q')

/-- A small integer as `double`, C4Json.cpp:846, 861, 891 and 897. -/
def ofNat (n : Nat) : Dbl := conv false n 0

/-- binary64 for the built-in reader. The literals `1eN` of the tables (C4Json.cpp:538-588) are converted by the compiler to
the nearest double. -/
def arith : Arith Dbl where
  ofNat := ofNat
  add := add
  mul := mul
  div := div
  lit e := conv false 1 e
  huge := .inf false

end Verif.B64
