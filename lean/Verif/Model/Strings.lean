import Verif.Model.Text

/-!
# Model of fixed-capacity strings, integer printing and status messages

Code/Terathon/TSString.h (`String<len>`), Code/Terathon/TSText.cpp (`CopyText`,
`IntegerToString`, `Integer64ToString`), Code/Json4C4/C4Json.cpp (`StatusToString`,
`ParseResultToString`).

A block of memory is the list of its bytes; its length is the size of the block. Writing
outside the block is undefined behaviour. Bytes that were never written have arbitrary
values: every theorem is about all blocks.

Simplification: `int32` indices into a block are natural numbers. `FloatToString` is in
`Model/FloatText.lean`.
-/

namespace Verif.Str

open Verif

/-- The store `b[i] = v`. -/
def wr (b : Bytes) (i : Nat) (v : Byte) : Out Bytes :=
  if i < b.length then .ok (b.set i v) else .ub

/-- What a `const char *` argument points to: text outside the block that is being
written, or position `i` of this block itself. -/
inductive Src where
  | ext (t : Bytes)
  | own (i : Nat)
  deriving DecidableEq, Repr

/-- The load `source[i]`, while the block being written is `b`. -/
def rdSrc (s : Src) (b : Bytes) (i : Nat) : Out Byte :=
  match s with
  | .ext t => Text.rd t i
  | .own k => Text.rd b (k + i)

/-- `Text::CopyText(source, dest)`, TSText.cpp:609-625. The loop stands at `source[i]` and
`dest = b + d`; the result is the block and the number of bytes copied. The fuel bounds the
number of steps. -/
def copyText (s : Src) : Nat → Nat → Nat → Bytes → Out (Bytes × Nat)
  | 0, _, _, _ => .fuel
  | n + 1, i, d, b =>
    rdSrc s b i >>= fun k =>
    wr b d k >>= fun b =>
    if k = 0 then .ok (b, i) else copyText s n (i + 1) (d + 1) b

/-- `Text::CopyText(source, dest, max)`, TSText.cpp:627-644. The first argument is the
number of times `--max >= 0` will still hold. -/
def copyTextMax (s : Src) : Nat → Nat → Nat → Bytes → Out (Bytes × Nat)
  | 0, i, d, b => wr b d 0 >>= fun b => .ok (b, i)
  | m + 1, i, d, b =>
    rdSrc s b i >>= fun k =>
    if k = 0 then wr b d 0 >>= fun b => .ok (b, i)
    else wr b d k >>= fun b => copyTextMax s m (i + 1) (d + 1) b

/-- `Text::GetTextLength`, TSText.cpp:477-486. -/
def getTextLength : Bytes → Out Nat
  | [] => .ub
  | c :: t => if c = 0 then .ok 0 else getTextLength t >>= fun n => .ok (n + 1)

/-- `Abs(num) & 0x7FFFFFFF` (TSBasic.h:30-34, TSText.cpp:1171) and `Abs64(num) &
0x7FFFFFFFFFFFFFFF` (TSBasic.h:36-40, TSText.cpp:1217) for a signed type of `bits` bits. For
the smallest value the subtraction in `Abs` overflows, which is undefined behaviour; a compiler
that wraps instead (`wrapv`) obtains zero after the mask. -/
def absMasked (wrapv : Bool) (bits : Nat) (n : Int) : Out Nat :=
  if n = -(2 ^ (bits - 1)) then (if wrapv then .ok 0 else .ub) else .ok n.natAbs

/-- The first loop of `IntegerToString`, TSText.cpp:1173-1179: the digits are stored in
`char c[cap]`. The list holds `c[length - 1], ..., c[0]`. -/
def digitLoop (cap : Nat) : Nat → Nat → Bytes → Out Bytes
  | 0, _, _ => .fuel
  | f + 1, num, c =>
    if c.length < cap then
      let c := UInt8.ofNat (num % 10 + 48) :: c
      if num / 10 ≠ 0 then digitLoop cap f (num / 10) c else .ok c
    else .ub

/-- The second loop of `IntegerToString`, TSText.cpp:1196-1209, with `text = b + d`; `a` is the
value of `a + 1` of the code (the index to be tested next). Result: block and return value. -/
def putDigits (max : Int) (d : Nat) : Bytes → Nat → Bytes → Out (Bytes × Nat)
  | [], _, _ => .ub
  | k :: c, a, b =>
    if (a : Int) < max then
      wr b (d + a) k >>= fun b =>
      if c = [] then wr b (d + (a + 1)) 0 >>= fun b => .ok (b, a + 1)
      else putDigits max d c (a + 1) b
    else wr b (d + a) 0 >>= fun b => .ok (b, a)

/-- `Text::IntegerToString(num, text, max)`, TSText.cpp:1166-1210 (`bits = 32`, `cap = 16`) and
`Text::Integer64ToString(num, text, max)`, TSText.cpp:1212-1256 (`bits = 64`, `cap = 32`), with
`text = b + d`. -/
def printInt (wrapv : Bool) (bits cap : Nat) (num : Int) (d : Nat) (max : Int) (b : Bytes) :
    Out (Bytes × Nat) :=
  absMasked wrapv bits num >>= fun m =>
  digitLoop cap (m + 1) m [] >>= fun c =>
  if num < 0 then
    if (0 : Int) < max then wr b d 45 >>= fun b => putDigits max d c 1 b
    else wr b d 0 >>= fun b => .ok (b, 0)
  else putDigits max d c 0 b

/-- `Text::IntegerToString`, TSText.cpp:1166-1210. -/
def integerToString (wrapv : Bool) := printInt wrapv 32 16

/-- `Text::Integer64ToString`, TSText.cpp:1212-1256. -/
def integer64ToString (wrapv : Bool) := printInt wrapv 64 32

/-- Conversion of an integer to a signed type of `bits` bits, as happens to the unsigned
arguments passed to `IntegerToString` and `Integer64ToString` (TSString.h:194, 252, 297, 311). -/
def toSigned (bits : Nat) (n : Nat) : Int :=
  if n < 2 ^ (bits - 1) then n else (n : Int) - 2 ^ bits

/-! ## `String<len>`, TSString.h:161-392. The member `char c[len + 1]` is the block. -/

/-- The constructors from text (TSString.h:172-180) and the assignments of text
(TSString.h:232-242). `c` is the previous contents of the member (arbitrary for a
constructor). -/
def fixedSet (len : Nat) (s : Src) (c : Bytes) : Out Bytes :=
  copyTextMax s len 0 0 c >>= fun r => .ok r.1

/-- `String(const char *s, int32 length)`, TSString.h:182-185, and `Set`, 216-220. -/
def fixedSetN (len : Nat) (s : Src) (length : Int) (c : Bytes) : Out Bytes :=
  copyTextMax s (min length len).toNat 0 0 c >>= fun r => .ok r.1

/-- `explicit String(int32 n)`, TSString.h:187-190, and `operator =(int32)`, 244-248. -/
def fixedSetInt (wrapv : Bool) (len : Nat) (n : Int) (c : Bytes) : Out Bytes :=
  integerToString wrapv n 0 len c >>= fun r => .ok r.1

/-- `explicit String(int64 n)`, TSString.h:197-200, and `operator =(int64)`, 256-260. -/
def fixedSetInt64 (wrapv : Bool) (len : Nat) (n : Int) (c : Bytes) : Out Bytes :=
  integer64ToString wrapv n 0 len c >>= fun r => .ok r.1

/-- `String(char c1, char c2, char c3, char c4)`, TSString.h:207-214. -/
def fixedSet4 (c1 c2 c3 c4 : Byte) (c : Bytes) : Out Bytes :=
  wr c 0 c1 >>= fun c => wr c 1 c2 >>= fun c => wr c 2 c3 >>= fun c => wr c 3 c4 >>= fun c => wr c 4 0

/-- `GetStringLength`, TSString.h:375-378. -/
def fixedLength (c : Bytes) : Out Nat := getTextLength c

/-- `operator +=(const char *)`, TSString.h:268-273. -/
def fixedAppend (len : Nat) (s : Src) (c : Bytes) : Out Bytes :=
  fixedLength c >>= fun l =>
  copyTextMax s (len - l) 0 l c >>= fun r => .ok r.1

/-- `operator +=(char)`, TSString.h:275-285. -/
def fixedAppendChar (len : Nat) (k : Byte) (c : Bytes) : Out Bytes :=
  fixedLength c >>= fun l =>
  if l < len then wr c l k >>= fun c => wr c (l + 1) 0 else .ok c

/-- `operator +=(int32)`, TSString.h:287-292. -/
def fixedAppendInt (wrapv : Bool) (len : Nat) (n : Int) (c : Bytes) : Out Bytes :=
  fixedLength c >>= fun l =>
  integerToString wrapv n l ((len : Int) - l) c >>= fun r => .ok r.1

/-- `operator +=(int64)`, TSString.h:301-306. -/
def fixedAppendInt64 (wrapv : Bool) (len : Nat) (n : Int) (c : Bytes) : Out Bytes :=
  fixedLength c >>= fun l =>
  integer64ToString wrapv n l ((len : Int) - l) c >>= fun r => .ok r.1

/-- `AppendString(const char *, int32)`, TSString.h:386-391. -/
def fixedAppendString (len : Nat) (s : Src) (length : Int) (c : Bytes) : Out Bytes :=
  fixedLength c >>= fun l =>
  copyTextMax s (min ((len : Int) - l) length).toNat 0 l c >>= fun r => .ok r.1

/-- `SetStringLength`, TSString.h:380-384. -/
def fixedSetLength (length : Int) (c : Bytes) : Out Bytes :=
  if 0 ≤ length then wr c length.toNat 0 else .ub

/-- `operator +(const char *) const`, TSString.h:315-318: a copy of the left operand (which
may be any text `a`), then `+=`. `g` is the uninitialised memory of the copy; the copying of the
returned temporary does not change the text. -/
def fixedPlus (len : Nat) (a : Bytes) (s : Src) (g : Bytes) : Out Bytes :=
  fixedSet len (.ext a) g >>= fun c => fixedAppend len s c

/-! ## Status messages -/

/-- The bytes of an ASCII string literal. -/
def ascii (s : String) : Bytes := s.toList.map fun c => UInt8.ofNat c.toNat

/-- `StatusString`, C4Json.cpp:502-527. -/
def statusString : List String :=
  [ "Ok",
    "Could not open file",
    "Could not read file",
    "Invalid JSON text",
    "Unterminated text buffer",
    "Expected opening curly braces",
    "Expected closing curly braces or comma",
    "Expected opening square braces",
    "Expected closing square braces or comma",
    "Illegal character",
    "Illegal escape",
    "Expected colon",
    "Expected begining double quotes",
    "Expected ending double quotes",
    "Invalid number",
    "Expected 'true' or 'false'",
    "Expected 'null'",
    "Expected a JSON value (object, array, string, number, 'true', 'false', or 'null')",
    "Expected end of file",
    "File ends prematurely",
    "Numbers cannot have leading zeros",
    "JSON structure is invalid",
    "An expected object value pair was not found",
    "An exception was caught",
    "JSON structured data contains invalid value type",
    "Could not find requested name of name/value pair" ]

/-- `StatusToString`, C4Json.cpp:529-532. `g` is the uninitialised memory of the result, a
`String<256>`. The literals are NUL-terminated. -/
def statusToString (st : Status) (g : Bytes) : Out Bytes :=
  match statusString[st.ctorIdx]? with
  | some m => fixedSet 256 (.ext (ascii m ++ [0])) g
  | none => .ub

/-- `ParseResultToString`, C4Json.cpp:1843-1853. `g` is the uninitialised memory of the
`String<256>`, `h` that of each temporary `String<24>`. The additions associate to the left:
`((". Line: " + line) + ", column: ") + column`, each in a `String<24>`. -/
def parseResultToString (wrapv : Bool) (st : Status) (line column : Int) (g h : Bytes) : Out Bytes :=
  statusToString st g >>= fun string =>
  if line ≠ 0 ∧ st ≠ .kException then
    fixedSet 24 (.ext (ascii ". Line: " ++ [0])) h >>= fun t1 =>
    fixedSetInt wrapv 24 line h >>= fun t2 =>
    fixedSet 24 (.ext (ascii ", column: " ++ [0])) h >>= fun t3 =>
    fixedSetInt wrapv 24 column h >>= fun t4 =>
    fixedPlus 24 t1 (.ext t2) h >>= fun u1 =>
    fixedPlus 24 u1 (.ext t3) h >>= fun u2 =>
    fixedPlus 24 u2 (.ext t4) h >>= fun u3 =>
    fixedAppend 256 (.ext u3) string
  else .ok string

end Verif.Str
