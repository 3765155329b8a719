import Verif.Model.Strings

/-!
# Model of the searching, comparing and scanning functions

Code/Terathon/TSText.cpp: `Hash`, `FindChar`, `FindUnquotedChar`, `CountChars`, the comparisons with a
limit and without regard to case, `CompareNumberedTextLessThan`, `FindText`, `GetResourceNameLength`,
`GetDirectoryPathLength`, `ReadInteger`, `ReadFloat`, `ReadString`, `ReadType`.
Code/Terathon/TSString.cpp: hexadecimal strings and type codes.

A `const char *` argument is the list of the bytes from the pointer to the end of its buffer; a read
after the last one is undefined behaviour. A character argument `uint32 k` is a natural number. Results of
type `int32` are `Option Nat`, with `none` for `-1`.

Simplifications: positions and counts do not overflow `int32` (texts are shorter than 2 GB); the buffer
that a scanning function writes does not overlap the text it reads.
-/

namespace Verif.Tools

open Verif Verif.Text Verif.Str

/-- The number of times `--max >= 0` holds. The decrement of the least `int32` is undefined. -/
def limit (max : Int) : Out Nat := if max ≤ -2147483648 then .ub else .ok max.toNat

/-! ## Hashing and searching for characters -/

/-- The loop of `Text::Hash`, TSText.cpp:491-503. -/
def hashLoop (hash : UInt32) : Bytes → Out UInt32
  | [] => .ub
  | c :: t => if c = 0 then .ok hash else hashLoop ((hash ^^^ c.toUInt32) * 0x6B84DF47 + 1) t

/-- `Text::Hash`, TSText.cpp:488-506. -/
def hashText (t : Bytes) : Out UInt32 := hashLoop 0 t

/-- The loop of `Text::FindChar(text, k)`, TSText.cpp:511-525; `i` is `text - start`. -/
def findCharFrom (k : Nat) (i : Nat) : Bytes → Out (Option Nat)
  | [] => .ub
  | c :: t => if c = 0 then .ok none else if c.toNat = k then .ok (some i) else findCharFrom k (i + 1) t

/-- `Text::FindChar(text, k)`, TSText.cpp:508-528. -/
def findChar (t : Bytes) (k : Nat) : Out (Option Nat) := findCharFrom k 0 t

/-- The loop of `Text::FindChar(text, k, max)`, TSText.cpp:533-547. -/
def findCharMaxFrom (k : Nat) : Nat → Nat → Bytes → Out (Option Nat)
  | 0, _, _ => .ok none
  | _ + 1, _, [] => .ub
  | m + 1, i, c :: t =>
    if c = 0 then .ok none else if c.toNat = k then .ok (some i) else findCharMaxFrom k m (i + 1) t

/-- `Text::FindChar(text, k, max)`, TSText.cpp:530-550. -/
def findCharMax (t : Bytes) (k : Nat) (max : Int) : Out (Option Nat) :=
  limit max >>= fun m => findCharMaxFrom k m 0 t

/-- The loop of `Text::FindUnquotedChar`, TSText.cpp:558-585. -/
def findUnquotedFrom (k : Nat) (quote backslash : Bool) (i : Nat) : Bytes → Out (Option Nat)
  | [] => .ub
  | c :: t =>
    if c = 0 then .ok none
    else
      let quote := if c = 34 then (if !quote then true else if !backslash then false else quote) else quote
      if c.toNat = k ∧ quote = false then .ok (some i)
      else findUnquotedFrom k quote (c = 92 && !backslash) (i + 1) t

/-- `Text::FindUnquotedChar`, TSText.cpp:552-588. -/
def findUnquotedChar (t : Bytes) (k : Nat) : Out (Option Nat) := findUnquotedFrom k false false 0 t

/-- The loop of `Text::CountChars`, TSText.cpp:593-604. -/
def countFrom (k : Nat) : Nat → Nat → Bytes → Out Nat
  | 0, count, _ => .ok count
  | _ + 1, _, [] => .ub
  | m + 1, count, c :: t =>
    if c = 0 then .ok count else countFrom k m (count + if c.toNat = k then 1 else 0) t

/-- `Text::CountChars`, TSText.cpp:590-607. The limit is only decremented while it is positive. -/
def countChars (t : Bytes) (k : Nat) (max : Int) : Out Nat := countFrom k max.toNat 0 t

/-! ## Comparisons -/

/-- `if (x - 'A' < 26U) x += 32`, TSText.cpp:700-703 and 736-739. -/
def lower (x : Byte) : Nat := if 65 ≤ x.toNat ∧ x.toNat < 91 then x.toNat + 32 else x.toNat

/-- `if (x - 'a' < 26U) x -= 32`, TSText.cpp:802-805, 831-834, 892-895, 921-924. -/
def upper (x : Byte) : Nat := if 97 ≤ x.toNat ∧ x.toNat < 123 then x.toNat - 32 else x.toNat

/-- The loop of `Text::CompareText(s1, s2, max)`, TSText.cpp:669-688. -/
def compareTextMaxLoop : Nat → Bytes → Bytes → Out Bool
  | 0, _, _ => .ok true
  | m + 1, x :: s1, y :: s2 =>
    if x ≠ y then .ok false else if x = 0 then .ok true else compareTextMaxLoop m s1 s2
  | _ + 1, _, _ => .ub

/-- `Text::CompareText(s1, s2, max)`, TSText.cpp:667-691. -/
def compareTextMax (s1 s2 : Bytes) (max : Int) : Out Bool :=
  limit max >>= fun m => compareTextMaxLoop m s1 s2

/-- `Text::CompareTextCaseless(s1, s2)`, TSText.cpp:693-722. -/
def compareTextCaseless : Bytes → Bytes → Out Bool
  | x :: s1, y :: s2 =>
    if lower x ≠ lower y then .ok false else if lower x = 0 then .ok true else compareTextCaseless s1 s2
  | _, _ => .ub

/-- The loop of `Text::CompareTextCaseless(s1, s2, max)`, TSText.cpp:726-755. -/
def compareTextCaselessMaxLoop : Nat → Bytes → Bytes → Out Bool
  | 0, _, _ => .ok true
  | m + 1, x :: s1, y :: s2 =>
    if lower x ≠ lower y then .ok false
    else if lower x = 0 then .ok true else compareTextCaselessMaxLoop m s1 s2
  | _ + 1, _, _ => .ub

/-- `Text::CompareTextCaseless(s1, s2, max)`, TSText.cpp:724-758. -/
def compareTextCaselessMax (s1 s2 : Bytes) (max : Int) : Out Bool :=
  limit max >>= fun m => compareTextCaselessMaxLoop m s1 s2

/-- The loop of `Text::CompareTextLessThan(s1, s2, max)`, TSText.cpp:776-790. -/
def lessThanMaxLoop : Nat → Bytes → Bytes → Out Bool
  | 0, _, _ => .ok false
  | m + 1, x :: s1, y :: s2 =>
    if x ≠ y ∨ x = 0 then .ok (decide (x.toNat < y.toNat)) else lessThanMaxLoop m s1 s2
  | _ + 1, _, _ => .ub

/-- `Text::CompareTextLessThan(s1, s2, max)`, TSText.cpp:774-793. -/
def compareTextLessThanMax (s1 s2 : Bytes) (max : Int) : Out Bool :=
  limit max >>= fun m => lessThanMaxLoop m s1 s2

/-- `Text::CompareTextLessThanCaseless(s1, s2)`, TSText.cpp:795-817. -/
def compareTextLessThanCaseless : Bytes → Bytes → Out Bool
  | x :: s1, y :: s2 =>
    if upper x ≠ upper y ∨ upper x = 0 then .ok (decide (upper x < upper y))
    else compareTextLessThanCaseless s1 s2
  | _, _ => .ub

/-- The loop of `Text::CompareTextLessThanCaseless(s1, s2, max)`, TSText.cpp:821-845. -/
def lessThanCaselessMaxLoop : Nat → Bytes → Bytes → Out Bool
  | 0, _, _ => .ok false
  | m + 1, x :: s1, y :: s2 =>
    if upper x ≠ upper y ∨ upper x = 0 then .ok (decide (upper x < upper y))
    else lessThanCaselessMaxLoop m s1 s2
  | _ + 1, _, _ => .ub

/-- `Text::CompareTextLessThanCaseless(s1, s2, max)`, TSText.cpp:819-848. -/
def compareTextLessThanCaselessMax (s1 s2 : Bytes) (max : Int) : Out Bool :=
  limit max >>= fun m => lessThanCaselessMaxLoop m s1 s2

/-- The loop of `Text::CompareTextLessEqual(s1, s2, max)`, TSText.cpp:866-880. -/
def lessEqualMaxLoop : Nat → Bytes → Bytes → Out Bool
  | 0, _, _ => .ok true
  | m + 1, x :: s1, y :: s2 =>
    if x ≠ y ∨ x = 0 then .ok (decide (x.toNat ≤ y.toNat)) else lessEqualMaxLoop m s1 s2
  | _ + 1, _, _ => .ub

/-- `Text::CompareTextLessEqual(s1, s2, max)`, TSText.cpp:864-883. -/
def compareTextLessEqualMax (s1 s2 : Bytes) (max : Int) : Out Bool :=
  limit max >>= fun m => lessEqualMaxLoop m s1 s2

/-- `Text::CompareTextLessEqualCaseless(s1, s2)`, TSText.cpp:885-907. -/
def compareTextLessEqualCaseless : Bytes → Bytes → Out Bool
  | x :: s1, y :: s2 =>
    if upper x ≠ upper y ∨ upper x = 0 then .ok (decide (upper x ≤ upper y))
    else compareTextLessEqualCaseless s1 s2
  | _, _ => .ub

/-- The loop of `Text::CompareTextLessEqualCaseless(s1, s2, max)`, TSText.cpp:911-935. -/
def lessEqualCaselessMaxLoop : Nat → Bytes → Bytes → Out Bool
  | 0, _, _ => .ok true
  | m + 1, x :: s1, y :: s2 =>
    if upper x ≠ upper y ∨ upper x = 0 then .ok (decide (upper x ≤ upper y))
    else lessEqualCaselessMaxLoop m s1 s2
  | _ + 1, _, _ => .ub

/-- `Text::CompareTextLessEqualCaseless(s1, s2, max)`, TSText.cpp:909-938. -/
def compareTextLessEqualCaselessMax (s1 s2 : Bytes) (max : Int) : Out Bool :=
  limit max >>= fun m => lessEqualCaselessMaxLoop m s1 s2

/-- `x - '0' < 10U`. -/
def isDigit (x : Byte) : Bool := decide (48 ≤ x.toNat ∧ x.toNat < 58)

/-- The loops of `CompareNumberedTextLessThan` that read the rest of a number, TSText.cpp:955-966 and
968-979: the number (`uint32`), the count of digits and the text after it. -/
def readDigits (num : UInt32) (count : Nat) : Bytes → Out (UInt32 × Nat × Bytes)
  | [] => .ub
  | x :: s =>
    if isDigit x then readDigits (num * 10 + UInt32.ofNat (x.toNat - 48)) (count + 1) s
    else .ok (num, count, x :: s)

/-- `Text::CompareNumberedTextLessThan`, TSText.cpp:940-998, with `f` the identity, and
`Text::CompareNumberedTextLessThanCaseless`, TSText.cpp:1000-1068, with `f` the change to upper case at
1051-1059. The fuel bounds the number of steps of the outer loop. -/
def numberedLess (f : Byte → Nat) : Nat → Bytes → Bytes → Out Bool
  | 0, _, _ => .fuel
  | n + 1, x :: s1, y :: s2 =>
    if isDigit x = true ∧ isDigit y = true then
      readDigits (UInt32.ofNat (x.toNat - 48)) 1 s1 >>= fun (xnum, xcount, s1) =>
      readDigits (UInt32.ofNat (y.toNat - 48)) 1 s2 >>= fun (ynum, ycount, s2) =>
      if xnum ≠ ynum then .ok (decide (xnum < ynum))
      else if xcount < ycount then .ok true
      else numberedLess f n s1 s2
    else if f x ≠ f y ∨ f x = 0 then .ok (decide (f x < f y))
    else numberedLess f n s1 s2
  | _ + 1, _, _ => .ub

/-- `Text::CompareNumberedTextLessThan`, TSText.cpp:940-998. Every step of the outer loop reads a byte of
`s1`. -/
def compareNumbered (s1 s2 : Bytes) : Out Bool := numberedLess UInt8.toNat (s1.length + 1) s1 s2

/-- `Text::CompareNumberedTextLessThanCaseless`, TSText.cpp:1000-1068. -/
def compareNumberedCaseless (s1 s2 : Bytes) : Out Bool := numberedLess upper (s1.length + 1) s1 s2

/-! ## Searching for texts -/

/-- How the inner loop of `FindText` ends. -/
inductive Probe where
  | found
  | ended
  | differs
  deriving DecidableEq, Repr

/-- The inner loop of `Text::FindText`, TSText.cpp:1088-1106, and of `Text::FindTextCaseless`,
1131-1159; `f` is what happens to the characters before they are compared. -/
def probe (f : Byte → Nat) : Bytes → Bytes → Out Probe
  | _, [] => .ub
  | s3, x :: s4 =>
    if x = 0 then .ok .found
    else match s3 with
      | [] => .ub
      | y :: s3 => if y = 0 then .ok .ended else if f x ≠ f y then .ok .differs else probe f s3 s4

/-- The outer loop of `FindText`, TSText.cpp:1075-1108, and of `FindTextCaseless`, 1118-1161; `needle` is
`s2 + 1`, `i` is `s1 - start`. -/
def findFrom (f : Byte → Nat) (first : Byte) (needle : Bytes) (i : Nat) : Bytes → Out (Option Nat)
  | [] => .ub
  | c :: s1 =>
    if c = 0 then .ok none
    else if c = first then
      match probe f s1 needle with
      | .ok .found => .ok (some i)
      | .ok .ended => .ok none
      | .ok .differs => findFrom f first needle (i + 1) s1
      | .ub => .ub
      | .fuel => .fuel
    else findFrom f first needle (i + 1) s1

/-- `Text::FindText`, TSText.cpp:1070-1111. -/
def findText (s1 s2 : Bytes) : Out (Option Nat) :=
  match s2 with
  | [] => .ub
  | first :: needle => findFrom UInt8.toNat first needle 0 s1

/-- `Text::FindTextCaseless`, TSText.cpp:1113-1164. -/
def findTextCaseless (s1 s2 : Bytes) : Out (Option Nat) :=
  match s2 with
  | [] => .ub
  | first :: needle => findFrom upper first needle 0 s1

/-! ## Paths -/

/-- The loop of `Text::GetResourceNameLength`, TSText.cpp:1454-1466; the first argument is `a + 1`. -/
def resourceLoop (t : Bytes) (len : Nat) : Nat → Out Nat
  | 0 => .ok len
  | a + 1 =>
    rd t a >>= fun c => if c = 46 then .ok a else if c = 47 then .ok len else resourceLoop t len a

/-- `Text::GetResourceNameLength`, TSText.cpp:1451-1469. -/
def getResourceNameLength (t : Bytes) : Out Nat :=
  getTextLength t >>= fun len => resourceLoop t len len

/-- The loop of `Text::GetDirectoryPathLength`, TSText.cpp:1474-1483. The fuel bounds the number of steps. -/
def directoryLoop (t : Bytes) : Nat → Nat → Out Nat
  | 0, _ => .fuel
  | n + 1, len =>
    findChar (t.drop len) 47 >>= fun r =>
      match r with
      | none => .ok len
      | some x => directoryLoop t n (len + (x + 1))

/-- `Text::GetDirectoryPathLength`, TSText.cpp:1471-1486. -/
def getDirectoryPathLength (t : Bytes) : Out Nat := directoryLoop t (t.length + 1) 0

/-! ## Scanning -/

/-- `*number = 0; return (text - start)`. -/
def finish (i d : Nat) (b : Bytes) : Out (Bytes × Nat) := wr b d 0 >>= fun b => .ok (b, i)

/-- The loop of `Text::ReadInteger`, TSText.cpp:1502-1512, and its end; `i` is `text - start`,
`number = b + d`. -/
def readIntLoop : Nat → Nat → Bytes → Nat → Bytes → Out (Bytes × Nat)
  | 0, i, _, d, b => finish i d b
  | _ + 1, _, [], _, _ => .ub
  | m + 1, i, c :: t, d, b =>
    if isDigit c then wr b d c >>= fun b => readIntLoop m (i + 1) t (d + 1) b
    else finish i d b

/-- `Text::ReadInteger(text, number, max)`, TSText.cpp:1488-1516, with `number = b`: the block after the
call and the number of characters read. -/
def readInteger (t : Bytes) (max : Int) (b : Bytes) : Out (Bytes × Nat) :=
  match t with
  | [] => .ub
  | c :: t' =>
    if c = 45 then
      limit max >>= fun _ =>
      if 0 ≤ max - 1 then
        wr b 0 c >>= fun b => limit (max - 1) >>= fun m => readIntLoop m 1 t' 1 b
      else limit (max - 1) >>= fun m => readIntLoop m 0 t 0 b
    else limit max >>= fun m => readIntLoop m 0 t 0 b

/-- The loop of `Text::ReadFloat`, TSText.cpp:1536-1574, and its end. -/
def readFloatLoop : Nat → Bool → Bool → Bool → Nat → Bytes → Nat → Bytes → Out (Bytes × Nat)
  | 0, _, _, _, i, _, d, b => finish i d b
  | _ + 1, _, _, _, _, [], _, _ => .ub
  | m + 1, decimal, exponent, expneg, i, c :: t, d, b =>
    if c = 46 then
      if decimal then finish i d b
      else wr b d c >>= fun b => readFloatLoop m true exponent expneg (i + 1) t (d + 1) b
    else if c = 101 ∨ c = 69 then
      if exponent then finish i d b
      else wr b d c >>= fun b => readFloatLoop m decimal true false (i + 1) t (d + 1) b
    else if c = 45 ∧ expneg = true then finish i d b
    else if isDigit c = false then finish i d b
    else wr b d c >>= fun b => readFloatLoop m decimal exponent true (i + 1) t (d + 1) b

/-- `Text::ReadFloat(text, number, max)`, TSText.cpp:1518-1578. -/
def readFloat (t : Bytes) (max : Int) (b : Bytes) : Out (Bytes × Nat) :=
  match t with
  | [] => .ub
  | c :: t' =>
    if c = 45 then
      limit max >>= fun _ =>
      if 0 ≤ max - 1 then
        wr b 0 c >>= fun b => limit (max - 1) >>= fun m => readFloatLoop m false false true 1 t' 1 b
      else limit (max - 1) >>= fun m => readFloatLoop m false false true 0 t 0 b
    else limit max >>= fun m => readFloatLoop m false false true 0 t 0 b

/-- The loop of `Text::ReadString` after a double quote, TSText.cpp:1589-1614, and its end. -/
def readQuotedLoop : Nat → Bool → Nat → Bytes → Nat → Bytes → Out (Bytes × Nat)
  | 0, _, i, _, d, b => finish i d b
  | _ + 1, _, _, [], _, _ => .ub
  | m + 1, backslash, i, c :: t, d, b =>
    if c = 0 then finish i d b
    else if c ≠ 92 ∨ backslash = true then
      if c = 34 ∧ backslash = false then finish (i + 1) d b
      else wr b d c >>= fun b => readQuotedLoop m false (i + 1) t (d + 1) b
    else readQuotedLoop m true (i + 1) t d b

/-- The other loop of `Text::ReadString`, TSText.cpp:1617-1627, and its end. -/
def readPlainLoop : Nat → Nat → Bytes → Nat → Bytes → Out (Bytes × Nat)
  | 0, i, _, d, b => finish i d b
  | _ + 1, _, [], _, _ => .ub
  | m + 1, i, c :: t, d, b =>
    if c = 0 ∨ c.toNat < 33 then finish i d b
    else
      (if c = 47 then rd t 0 >>= fun k => .ok (decide (k = 47)) else .ok false) >>= fun comment =>
      if comment then finish i d b
      else wr b d c >>= fun b => readPlainLoop m (i + 1) t (d + 1) b

/-- `Text::ReadString(text, string, max)`, TSText.cpp:1580-1632. -/
def readString (t : Bytes) (max : Int) (b : Bytes) : Out (Bytes × Nat) :=
  match t with
  | [] => .ub
  | c :: t' =>
    limit max >>= fun m => if c = 34 then readQuotedLoop m false 1 t' 0 b else readPlainLoop m 0 t 0 b

/-- The loop of `Text::ReadType`, TSText.cpp:1644-1668: the value and `text - start`. -/
def readTypeLoop (value : UInt32) (backslash : Bool) (i : Nat) : Bytes → Out (UInt32 × Nat)
  | [] => .ub
  | c :: t =>
    if c = 0 then .ok (value, i)
    else if c ≠ 92 ∨ backslash = true then
      if c = 39 ∧ backslash = false then .ok (value, i + 1)
      else readTypeLoop ((value <<< 8) ||| c.toUInt32) false (i + 1) t
    else readTypeLoop value true (i + 1) t

/-- `Text::ReadType(text, type)`, TSText.cpp:1634-1676: `*type` and the result. -/
def readType (t : Bytes) : Out (UInt32 × Nat) :=
  match t with
  | [] => .ub
  | c :: t => if c = 39 then readTypeLoop 0 false 1 t else .ok (0, 0)

/-! ## Hexadecimal strings and type codes -/

/-- `Text::hexDigit`, TSText.cpp:18. -/
def hexDigit : List Byte := [48, 49, 50, 51, 52, 53, 54, 55, 56, 57, 65, 66, 67, 68, 69, 70]

/-- `text[i] = hexDigit[(num >> s) & 15]` for `i`, `i + 1`, … and the shifts `s` in the list, then
`text[i] = 0`. -/
def hexInto (num : UInt64) : List UInt64 → Nat → Bytes → Out Bytes
  | [], i, b => wr b i 0
  | s :: ss, i, b =>
    rd hexDigit ((num >>> s) &&& 15).toNat >>= fun h => wr b i h >>= fun b => hexInto num ss (i + 1) b

/-- `Text::Integer64ToHexString16`, TSString.cpp:858-881; `g` is the uninitialised memory of the result, a
`String<31>`. -/
def integer64ToHexString16 (num : UInt64) (g : Bytes) : Out Bytes :=
  hexInto num [60, 56, 52, 48, 44, 40, 36, 32, 28, 24, 20, 16, 12, 8, 4, 0] 0 g

/-- `Text::IntegerToHexString8`, TSString.cpp:883-898; the result is a `String<15>`. -/
def integerToHexString8 (num : UInt32) (g : Bytes) : Out Bytes :=
  hexInto num.toUInt64 [28, 24, 20, 16, 12, 8, 4, 0] 0 g

/-- `Text::IntegerToHexString4`, TSString.cpp:900-911; the result is a `String<7>`. -/
def integerToHexString4 (num : UInt32) (g : Bytes) : Out Bytes := hexInto num.toUInt64 [12, 8, 4, 0] 0 g

/-- `Text::IntegerToHexString2`, TSString.cpp:913-922; the result is a `String<3>`. -/
def integerToHexString2 (num : UInt32) (g : Bytes) : Out Bytes := hexInto num.toUInt64 [4, 0] 0 g

/-- `Text::StringToType`, TSString.cpp:924-953. -/
def stringToType (t : Bytes) : Out UInt32 :=
  rd t 0 >>= fun c0 =>
  if c0 = 0 then .ok 0
  else rd t 1 >>= fun c1 =>
    if c1 = 0 then .ok (c0.toUInt32 <<< 24)
    else rd t 2 >>= fun c2 =>
      if c2 = 0 then .ok ((c0.toUInt32 <<< 24) ||| (c1.toUInt32 <<< 16))
      else rd t 3 >>= fun c3 =>
        if c3 = 0 then .ok ((c0.toUInt32 <<< 24) ||| (c1.toUInt32 <<< 16) ||| (c2.toUInt32 <<< 8))
        else .ok ((c0.toUInt32 <<< 24) ||| (c1.toUInt32 <<< 16) ||| (c2.toUInt32 <<< 8) ||| c3.toUInt32)

/-- `Text::TypeToString`, TSString.cpp:955-964; the result is a `String<4>` in the memory `g`. -/
def typeToString (type : UInt32) (g : Bytes) : Out Bytes :=
  if type >>> 24 ≠ 0 then
    fixedSet4 (type >>> 24).toUInt8 (type >>> 16).toUInt8 (type >>> 8).toUInt8 type.toUInt8 g
  else fixedSet4 (type >>> 16).toUInt8 (type >>> 8).toUInt8 type.toUInt8 0 g

/-- `Text::TypeToHexCharString`, TSString.cpp:966-974; `g`, `h`, `k` are the uninitialised memory of the
result and of the two temporary strings. -/
def typeToHexCharString (type : UInt32) (g h k : Bytes) : Out Bytes :=
  fixedSet 31 (.ext [48, 120, 0]) g >>= fun s =>
  integerToHexString8 type h >>= fun x => fixedAppend 31 (.ext x) s >>= fun s =>
  fixedAppend 31 (.ext [32, 39, 0]) s >>= fun s =>
  typeToString type k >>= fun x => fixedAppend 31 (.ext x) s >>= fun s =>
  fixedAppendChar 31 39 s

end Verif.Tools
