import Verif.Model.Number

/-!
# Model of `double` with `strtod` and `snprintf("%.17g")`

The C library functions called by C4Json.cpp:830 and C4Json.cpp:1219 for IEEE-754 binary64, rounding to nearest and ties to
even (glibc documents both functions as correctly rounding). This is a concrete instance of the parameter `NumOps`.
-/

namespace Verif.B64

open Verif Verif.Number

/-- A `double`. `fin neg m q` is `± m * 2^q * 2^(-1074)`; see `Spec.Canonical` for the representatives of the finite
doubles. -/
inductive Dbl where
  | fin (neg : Bool) (m q : Nat)
  | inf (neg : Bool)
  | nan
  deriving DecidableEq, Repr

/-- The integer nearest to `n / d`, ties to even. -/
def rne (n d : Nat) : Nat :=
  if 2 * (n % d) < d then n / d
  else if d < 2 * (n % d) then n / d + 1
  else if n / d % 2 = 0 then n / d else n / d + 1

/-- A rounded significand and exponent as a double; values that are too large become infinite. -/
def pack (neg : Bool) (m q : Nat) : Dbl :=
  if m = 2 ^ 53 then (if q + 1 ≤ 2045 then .fin neg (2 ^ 52) (q + 1) else .inf neg)
  else if q ≤ 2045 then .fin neg m q else .inf neg

/-- The double nearest to `(num / den) * 2^(-1074)`: 53 significant bits, or all bits above `2^(-1074)`. -/
def round (neg : Bool) (num den : Nat) : Dbl :=
  pack neg (rne num (den * 2 ^ ((num / den).log2 - 52))) ((num / den).log2 - 52)

/-- `strtod`: the double nearest to `± m * 10^e`. -/
def conv (neg : Bool) (m : Nat) (e : Int) : Dbl := round neg (m * 10 ^ e.toNat * 2 ^ 1074) (10 ^ (-e).toNat)

/-- Unary minus. -/
def negate : Dbl → Dbl
  | .fin s m q => .fin (!s) m q
  | .inf s => .inf (!s)
  | .nan => .nan

/-! ## `snprintf("%.17g")`, C17 7.21.6.1 -/

/-- The least `s` (from the given one on) with `n < d * 10^(s + 1)`. -/
def seek (n d : Nat) : Nat → Nat → Nat
  | 0, s => s
  | f + 1, s => if n < d * 10 ^ (s + 1) then s else seek n d f (s + 1)

/-- Decimal exponent (plus 324) of `n * 2^(-1074)`. -/
def exponent10 (n : Nat) : Nat := seek (n * 10 ^ 324) (2 ^ 1074) 633 0

/-- The 17 significant digits of `n * 2^(-1074)` as a number, and the decimal exponent (plus 324) of the first one. -/
def sig17 (n : Nat) : Nat × Nat :=
  let d := rne (n * 10 ^ 340) (2 ^ 1074 * 10 ^ exponent10 n)
  if d = 10 ^ 17 then (10 ^ 16, exponent10 n + 1) else (d, exponent10 n)

/-- The last `w` decimal digits of a number. -/
def digs : Nat → Nat → Bytes
  | 0, _ => []
  | w + 1, n => digs w (n / 10) ++ [UInt8.ofNat (48 + n % 10)]

/-- Without trailing zeros. -/
def stripZ (l : Bytes) : Bytes := (l.reverse.dropWhile (· == 48)).reverse

/-- A fraction, with the decimal point unless it is empty. -/
def frac (fp : Bytes) : Bytes := if fp = [] then [] else 46 :: fp

/-- An exponent: sign and at least two digits. -/
def expo (x : Int) : Bytes :=
  101 :: (if x < 0 then 45 else 43) :: (if x.natAbs < 100 then digs 2 x.natAbs else digs 3 x.natAbs)

/-- `%.17g` of the 17 digits `d` with decimal exponent `x`: style `f` if `-4 ≤ x < 17`, else style `e`. -/
def style (d : Nat) (x : Int) : Bytes :=
  if -4 ≤ x ∧ x < 17 then
    if 0 ≤ x then (digs 17 d).take (x.toNat + 1) ++ frac (stripZ ((digs 17 d).drop (x.toNat + 1)))
    else 48 :: frac (stripZ (List.replicate ((-x).toNat - 1) 48 ++ digs 17 d))
  else (digs 17 d).take 1 ++ (frac (stripZ ((digs 17 d).drop 1)) ++ expo x)

/-- The text of a number without its sign. -/
def magnitude (n : Nat) : Bytes := if n = 0 then [48] else style (sig17 n).1 ((sig17 n).2 - 324)

/-- `snprintf("%.17g")`. -/
def fmt : Dbl → Bytes
  | .fin s m q => (if s then [45] else []) ++ magnitude (m * 2 ^ q)
  | .inf s => (if s then [45] else []) ++ [105, 110, 102]
  | .nan => [110, 97, 110]

/-- binary64. `NumberValue::Write` prints into a buffer of 32 bytes, C4Json.cpp:1216-1219, so `snprintf` keeps at most 31
characters. -/
def ops : NumOps Dbl where
  conv := conv
  neg := negate
  fmt x := (fmt x).take 31

end Verif.B64
