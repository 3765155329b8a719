import Verif.Model.Text

/-!
# Model of the integer functions

Code/Terathon/TSBasic.h. A signed integer of `w` bits is a `BitVec w`; `w` is 32 for `int32` and 64 for `int64`. Signed
addition, subtraction and negation whose result does not fit are undefined (`Out.ub`), and so are shifts by the width or
more. `>>` of a negative signed integer copies the sign, as every compiler the library names does (implementation-defined
before C++20). `1 << 31` is defined since C++14 and gives the bits `0x80000000`.
-/

namespace Verif.Basic

open Verif

/-- Signed integers of `w` bits that are the result of an operation with the mathematical result `n`. -/
def fit (w : Nat) (n : Int) : Out (BitVec w) :=
  if -(2 ^ (w - 1) : Int) ≤ n ∧ n < 2 ^ (w - 1) then .ok (BitVec.ofInt w n) else .ub

/-- `x + y`. -/
def addS {w : Nat} (x y : BitVec w) : Out (BitVec w) := fit w (x.toInt + y.toInt)

/-- `x - y`. -/
def subS {w : Nat} (x y : BitVec w) : Out (BitVec w) := fit w (x.toInt - y.toInt)

/-- `-x`. -/
def negS {w : Nat} (x : BitVec w) : Out (BitVec w) := fit w (-x.toInt)

/-- `x < y`. -/
def ltS {w : Nat} (x y : BitVec w) : Bool := decide (x.toInt < y.toInt)

/-- `x >> (w - 1)`: the sign in every bit. -/
def signMask {w : Nat} (x : BitVec w) : BitVec w := x.sshiftRight (w - 1)

/-- `Abs`, TSBasic.h:30-34; `Abs64`, 36-40. -/
def abs {w : Nat} (x : BitVec w) : Out (BitVec w) :=
  let a := signMask x
  subS (x ^^^ a) a

/-- `Sgn`, TSBasic.h:43-46; `Sgn64`, 48-51. -/
def sgn {w : Nat} (x : BitVec w) : Out (BitVec w) :=
  negS x >>= fun y => subS (signMask x) (signMask y)

/-- `Min`, TSBasic.h:54-57; `Min64`, 59-62. -/
def min {w : Nat} (x y : BitVec w) : BitVec w := if ltS x y then x else y

/-- `Max`, TSBasic.h:64-67; `Max64`, 69-72. -/
def max {w : Nat} (x y : BitVec w) : BitVec w := if ltS y x then x else y

/-- `MinZero`, TSBasic.h:74-77; `MinZero64`, 79-82. -/
def minZero {w : Nat} (x : BitVec w) : BitVec w := x &&& signMask x

/-- `MaxZero`, TSBasic.h:84-87; `MaxZero64`, 89-92. -/
def maxZero {w : Nat} (x : BitVec w) : BitVec w := x &&& ~~~(signMask x)

/-- `IncMod<mod>`, TSBasic.h:95-100. -/
def incMod (mod x : BitVec 32) : Out (BitVec 32) :=
  addS x 1 >>= fun y => .ok (if ltS y mod then y else 0)

/-- `DecMod<mod>`, TSBasic.h:102-107. -/
def decMod (mod x : BitVec 32) : Out (BitVec 32) :=
  subS x 1 >>= fun y => if ltS y 0 then subS mod 1 else .ok y

/-- `OverflowZero`, TSBasic.h:109-112. -/
def overflowZero (x y : BitVec 32) : Out (BitVec 32) :=
  subS x y >>= fun d => .ok (x &&& signMask d)

/-- Memory with variables of `w` bits at addresses. -/
abbrev Vars (w : Nat) := Nat → BitVec w

/-- `*i ^= *j`. -/
def xorInto {w : Nat} (i j : Nat) (m : Vars w) : Vars w := fun k => if k = i then m i ^^^ m j else m k

/-- `Exchange(x, y)` for integers, TSBasic.h:115-121, where `x` and `y` are the variables at the addresses `i` and `j`. -/
def exchange {w : Nat} (i j : Nat) (m : Vars w) : Vars w := xorInto i j (xorInto j i (xorInto i j m))

/-- Number of the leading zeros of the low `k` bits. -/
def leading (n : BitVec 32) : Nat → Nat
  | 0 => 0
  | k + 1 => if n.getLsbD k then 0 else leading n k + 1

/-- `Cntlz`, TSBasic.h:132-150. `__builtin_clz(n)` and `31 - x` with `_BitScanReverse(&x, n)` are the number of leading zeros of
a nonzero `n`. -/
def cntlz (n : BitVec 32) : Nat := if n ≠ 0 then leading n 32 else 32

/-- `IntLog2`, TSBasic.h:153-156. -/
def intLog2 (n : BitVec 32) : Int := 31 - (cntlz n : Int)

/-- `Pow2Floor`, TSBasic.h:158-161. -/
def pow2Floor (n : BitVec 32) : Out (BitVec 32) :=
  if cntlz n < 32 then .ok (0x80000000#32 >>> cntlz n) else .ub

/-- `Pow2Ceil`, TSBasic.h:163-166. `n - 1` is unsigned and wraps. -/
def pow2Ceil (n : BitVec 32) : Out (BitVec 32) :=
  if 32 - cntlz (n - 1) < 32 then .ok (1#32 <<< (32 - cntlz (n - 1))) else .ub

end Verif.Basic
