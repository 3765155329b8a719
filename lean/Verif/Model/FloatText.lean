import Verif.Model.DynString

/-!
# Model of the printing of floats

Code/Terathon/TSText.cpp: `FloatToString` (1258-1449), used by the constructors and assignments of strings from
`float`, and by `NumberValue::Write` (C4Json.cpp:1225) when the conversions of the C library are not used.

A `float` is given by its 32 bits (IEEE 754 binary32), a natural number. Positive finite floats are ordered as their
bits. The functions `Log` and `Exp` (TSMath.cpp:479-561), which are needed below 1e-4 and from 1e5 on, are a
parameter, except that `Exp` returns zero for arguments below -87.

`mantissa << exponent` at 1345 is undefined in C++17 (the standard the library is built with, CMakeLists.txt:118) if the
product is not less than `2^32`; with `wrapv` its low 32 bits are taken, as compilers do. All other integers are small.
-/

namespace Verif.FloatText

open Verif Verif.Text Verif.Str Verif.Dyn

/-- What `FloatToString` needs of `Log` and `Exp`: `lg a` is `Floor(Log(a) * one_over_ln_10)`, and `quot a f` is the
float `a / Exp(f * ln_10)` if that value of `Exp` is not zero. -/
structure Elem where
  lg : Nat → Int
  quot : Nat → Int → Nat

/-- `absolute /= Exp(f * ln_10)`, TSText.cpp:1324. The constant `ln_10` is `9657742 / 2^22`; rounding the product
does not change its floor for the exponents of floats. `Exp` returns zero if `int32(Floor(x)) + 88` is not positive
(TSMath.cpp:510-512, 528), and division by it gives infinity. -/
def quotient (e : Elem) (absolute : Nat) (f : Int) : Nat :=
  if (f * 9657742) / 4194304 + 88 ≤ 0 then 0x7F800000 else e.quot absolute f

/-- TSText.cpp:1319-1330: the number to be printed before the exponent, and `power`. The constants are `1.0e-4F`
and `1.0e5F`. -/
def scale (e : Elem) (absolute : Nat) : Nat × Int :=
  if absolute < 0x38D1B717 ∨ ¬ absolute < 0x47C35000 then (quotient e absolute (e.lg absolute), e.lg absolute)
  else (absolute, 0)

/-- The loop over the digits after the decimal point, TSText.cpp:1382-1408. The first argument is `7 - a`; result: the
block and `len`. -/
def fracLoop (max : Nat) : Nat → Nat → Nat → Nat → Nat → Bytes → Out (Bytes × Nat)
  | 0, _, _, _, len, b => .ok (b, len)
  | s + 1, zeroCount, nineCount, mantissa, len, b =>
    if len < max then
      let n := mantissa * 10 / 2 ^ 23 + 48
      wr b len (UInt8.ofNat n) >>= fun b =>
      let zeroCount := if n = 48 then zeroCount + 1 else zeroCount
      let nineCount := if n = 57 then nineCount + 1 else nineCount
      let mantissa := mantissa * 10 % 2 ^ 23
      if n = 48 ∧ 4 ≤ zeroCount ∧ s ≤ 2 then .ok (b, len + 1)
      else if n = 57 ∧ 4 ≤ nineCount ∧ s ≤ 2 then .ok (b, len + 1)
      else if mantissa < 2 then .ok (b, len + 1)
      else fracLoop max s zeroCount nineCount mantissa (len + 1) b
    else .ok (b, len)

/-- The loop that steps back over nines, TSText.cpp:1412-1425; the first argument is `a + 1`. -/
def nineLoop (len : Nat) (b : Bytes) : Nat → Out (Bytes × Nat)
  | 0 => .ub
  | a + 1 =>
    rd b a >>= fun c =>
    if c ≠ 57 then
      if c ≠ 46 then wr b a (c + 1) >>= fun b => .ok (b, a + 1)
      else .ok (b, len)
    else nineLoop len b a

/-- `while (text[len - 1] == '0') len--`, TSText.cpp:1429-1432. -/
def zeroLoop (b : Bytes) : Nat → Out Nat
  | 0 => .ub
  | len + 1 => rd b len >>= fun c => if c = 48 then zeroLoop b len else .ok (len + 1)

/-- Removal of trailing nines and zeros, TSText.cpp:1410-1438. `text[len - 2]` is only read if `text[len - 1]` is a nine;
`len` is at least 3 here. -/
def trim (len : Nat) (b : Bytes) : Out (Bytes × Nat) :=
  if len < 2 then .ub
  else
    rd b (len - 1) >>= fun c1 =>
    rd b (len - 2) >>= fun c2 =>
    if c1 = 57 ∧ c2 = 57 then nineLoop len b (len - 2)
    else
      zeroLoop b len >>= fun len =>
      rd b (len - 1) >>= fun c =>
      if c = 46 then wr b len 48 >>= fun b => .ok (b, len + 1) else .ok (b, len)

/-- The label `end`, TSText.cpp:1446-1448. -/
def finish (len : Nat) (b : Bytes) : Out (Bytes × Nat) := wr b len 0 >>= fun b => .ok (b, len)

/-- From the digits after the decimal point to the end, TSText.cpp:1382-1448. In the last step only the length of the
exponent is returned. -/
def fraction (wrapv : Bool) (mantissa : Nat) (power : Int) (max len : Nat) (b : Bytes) : Out (Bytes × Nat) :=
  fracLoop max 7 0 0 mantissa len b >>= fun (b, len) =>
  trim len b >>= fun (b, len) =>
  if power ≠ 0 ∧ len < max then
    wr b len 101 >>= fun b => integerToString wrapv power (len + 1) ((max : Int) - (len + 1 : Nat)) b
  else finish len b

/-- The part before the decimal point, TSText.cpp:1332-1380, and the rest. -/
def digits (wrapv neg : Bool) (absolute : Nat) (power : Int) (max : Nat) (b : Bytes) : Out (Bytes × Nat) :=
  let exponent := absolute / 2 ^ 23 % 256
  let mantissa := absolute % 2 ^ 23 + 2 ^ 23
  (if neg then wr b 0 45 >>= fun b => .ok (b, 1) else .ok (b, 0)) >>= fun (b, len) =>
  if 127 ≤ exponent then
    if 150 < exponent then .ub
    else if wrapv = false ∧ 2 ^ 32 ≤ mantissa * 2 ^ (exponent - 127) then .ub
    else
      integerToString wrapv (mantissa / 2 ^ (150 - exponent) : Nat) len ((max : Int) - len) b >>= fun (b, k) =>
      let len := len + k
      (if len < max then wr b len 46 >>= fun b => .ok (b, len + 1) else .ok (b, len)) >>= fun (b, len) =>
      if len = max then finish len b
      else fraction wrapv (mantissa * 2 ^ (exponent - 127) % 2 ^ 23) power max len b
  else if len + 2 ≤ max then
    wr b len 48 >>= fun b => wr b (len + 1) 46 >>= fun b =>
    if len + 2 = max then finish (len + 2) b
    else if 32 ≤ 127 - exponent then .ub
    else fraction wrapv (mantissa / 2 ^ (127 - exponent)) power max (len + 2) b
  else if len < max then wr b len 48 >>= fun b => finish (len + 1) b
  else finish len b

/-- `Text::FloatToString(num, text, max)`, TSText.cpp:1258-1449, with `text = b`: the block after the call and the
return value. -/
def floatToString (e : Elem) (wrapv : Bool) (num : Nat) (max : Int) (b : Bytes) : Out (Bytes × Nat) :=
  if max < 1 then wr b 0 0 >>= fun b => .ok (b, 0)
  else if num / 2 ^ 23 % 256 = 0 then
    if 3 ≤ max then wrAll [48, 46, 48, 0] 0 b >>= fun b => .ok (b, 3)
    else wrAll [48, 0] 0 b >>= fun b => .ok (b, 1)
  else if num / 2 ^ 23 % 256 = 255 then
    if 4 ≤ max then
      (if 2 ^ 31 ≤ num then wr b 0 45 >>= fun b => .ok (b, 1) else .ok (b, 0)) >>= fun (b, k) =>
      wrAll (if num % 2 ^ 23 = 0 then [73, 78, 70, 0] else [78, 65, 78, 0]) k b >>= fun b => .ok (b, 3 + k)
    else wr b 0 0 >>= fun b => .ok (b, 0)
  else
    digits wrapv (decide (2 ^ 31 ≤ num)) (scale e (num % 2 ^ 31)).1 (scale e (num % 2 ^ 31)).2 max.toNat b

/-- `explicit String(float n)` of `String<len>`, TSString.h:202-205, and `operator =(float)`, 262-266. `NumberValue::Write`
without the C library (C4Json.cpp:1225) writes the text of a `String<15>` (TSString.h:698-701). -/
def fixedSetFloat (e : Elem) (wrapv : Bool) (len : Nat) (num : Nat) (c : Bytes) : Out Bytes :=
  floatToString e wrapv num len c >>= fun r => .ok r.1

/-- `String<0>::String(float n)`, TSString.cpp:210-215. -/
def newFloat (e : Elem) (wrapv : Bool) (g : Nat → Byte) (num : Nat) : Out Dyn :=
  floatToString e wrapv num 63 (fresh g 64) >>= fun r =>
  .ok { logical := r.2 + 1, physical := 64, heap := some r.1, loc := loc0 }

/-- `String<0>::operator =(float n)`, TSString.cpp:431-436. -/
def setFloat (e : Elem) (wrapv : Bool) (g : Nat → Byte) (num : Nat) (s : Dyn) : Out Dyn :=
  let s' := (resize g 64 s).1
  floatToString e wrapv num 63 s'.data >>= fun r => .ok { s'.store r.1 with logical := r.2 + 1 }

end Verif.FloatText
