import Verif.Model.Text

/-!
# Model of number conversion

The code calls the C library: `strtod` (C4Json.cpp:830) and `snprintf("%.17g")`
(C4Json.cpp:1219). Their rounding is a parameter of the model (`NumOps`); the syntax
accepted by `strtod` is modelled concretely for the only strings it is called on,
runs of `0-9 . e E + -`.
-/

namespace Verif.Number

open Verif

/-- The floating point operations the library gets from its environment.

* `conv neg m e` : the `double` nearest to `± m * 10^e` (what `strtod` returns);
* `neg`          : unary minus on `double` (C4Json.cpp:1181);
* `fmt`          : the text left in the buffer by `snprintf("%.17g")`, without terminator. -/
structure NumOps (D : Type) where
  conv : Bool → Nat → Int → D
  neg : D → D
  fmt : D → Bytes

/-- `'0' ≤ c ≤ '9'`. -/
def isDigit (c : Byte) : Bool := 48 ≤ c.toNat && c.toNat ≤ 57

/-- The characters a number run is made of, C4Json.cpp:627-628. -/
def isFloatChar (c : Byte) : Bool :=
  isDigit c || c == 46 || c == 101 || c == 69 || c == 43 || c == 45

/-- Longest prefix of digits and the rest. -/
def spanDigits : Bytes → Bytes × Bytes
  | [] => ([], [])
  | c :: t => if isDigit c then ((c :: (spanDigits t).1), (spanDigits t).2) else ([], c :: t)

/-- Decimal value of a digit string. -/
def digitsVal (ds : Bytes) : Nat := ds.foldl (fun n c => n * 10 + (c.toNat - 48)) 0

/-- Optional sign of a subject sequence: (is negative, rest). -/
def optSign : Bytes → Bool × Bytes
  | 45 :: t => (true, t)
  | 43 :: t => (false, t)
  | t => (false, t)

/-- Optional fraction: digits after a decimal point. -/
def optFraction : Bytes → Bytes × Bytes
  | 46 :: t => spanDigits t
  | t => ([], t)

/-- Optional exponent, ignored unless it has a digit. -/
def optExponent : Bytes → Int
  | c :: t =>
      if c = 101 ∨ c = 69 then
        let (neg, t) := optSign t
        let ds := (spanDigits t).1
        if ds = [] then 0 else if neg then -(digitsVal ds : Int) else (digitsVal ds : Int)
      else 0
  | [] => 0

/-- `strtod` (C17 7.22.1.3) on a run of `isFloatChar` characters: `none` if no
conversion is performed (`end == str`), else the sign, digits and decimal exponent of the longest
prefix of the expected form (sign, digits with optional point, optional exponent). Hexadecimal
numbers, infinities, NaNs and leading blanks cannot occur in such a run. -/
def strtodParts (run : Bytes) : Option (Bool × Nat × Int) :=
  let (neg, t) := optSign run
  let (ip, t) := spanDigits t
  let (fp, t) := optFraction t
  if ip = [] ∧ fp = [] then none
  else some (neg, digitsVal (ip ++ fp), optExponent t - fp.length)

/-- The value returned by `strtod`, `none` when `end == str`. -/
def strtod {D : Type} (N : NumOps D) (run : Bytes) : Option D :=
  (strtodParts run).map fun (neg, m, e) => N.conv neg m e

end Verif.Number
