import Verif.Model.Document

/-!
# Model of the parser with 32-bit integers

The functions of C4Json.cpp once more, with all lengths, counts and capacities as `int32`; `Model/Parser.lean` has unbounded
numbers instead. Signed addition that overflows and conversions that do not fit are `ub`. Memory is granted, but a negative
number of bytes cannot be requested: `new char[n]` throws. Pointers have 64 bits, so that the number of bytes of an array
of pointers or strings (`sizeof(type) * reservedCount`) fits.
-/

namespace Verif.Parser32

open Verif Verif.Text Verif.Map Verif.Number Verif.Parser

/-- A nonnegative result of type `int32`. -/
def i32 (n : Nat) : Out Nat := if n < 2 ^ 31 then .ok n else .ub

/-- `text += ComputeWhitespaceLength(text)`, C4Json.cpp:611-621: the length is converted to `int32`. -/
def skipWs (t : Bytes) : Out Bytes :=
  Parser.skipWs t >>= fun r => i32 (t.length - r.length) >>= fun _ => .ok r

/-- `ReadStringLiteral` without destination, C4Json.cpp:735-803: `count` is an `int32`, and the length of the text is converted
at the end. -/
def measureString : Nat → Bytes → Nat → Nat → Out (Status × Nat × Nat)
  | 0, _, _, _ => .fuel
  | n + 1, t, textLength, count =>
      rd t 0 >>= fun c =>
      if c = 0 then .ok (.kPrematureNullTerminator, textLength, count)
      else if c = 34 then i32 textLength >>= fun textLength => .ok (.kOk, textLength, count)
      else if c.toNat < 32 ∨ c = 127 then .ok (.kStringIllegalChar, textLength, count)
      else if c ≠ 92 then
        validateUnicodeChar t >>= fun len =>
        if len = 0 then .ok (.kStringIllegalChar, textLength, count)
        else i32 (count + len) >>= fun count => measureString n (t.drop len) (textLength + len) count
      else
        escapeMeasure (t.drop 1) >>= fun (textLen, stringLen) =>
        if textLen = 0 then .ok (.kStringIllegalEscape, textLength, count)
        else i32 (count + stringLen) >>= fun count => measureString n (t.drop (1 + textLen)) (textLength + 1 + textLen) count

/-- `ReadStringLiteral` with destination, C4Json.cpp:735-803; `count` is the number of bytes stored. -/
def writeString : Nat → Bytes → Nat → Bytes → Out (Status × Nat × Bytes)
  | 0, _, _, _ => .fuel
  | n + 1, t, textLength, out =>
      rd t 0 >>= fun c =>
      if c = 0 then .ok (.kPrematureNullTerminator, textLength, out)
      else if c = 34 then i32 textLength >>= fun textLength => .ok (.kOk, textLength, out)
      else if c.toNat < 32 ∨ c = 127 then .ok (.kStringIllegalChar, textLength, out)
      else if c ≠ 92 then
        validateUnicodeChar t >>= fun len =>
        if len = 0 then .ok (.kStringIllegalChar, textLength, out)
        else if t.length < len then .ub
        else i32 (out.length + len) >>= fun _ => writeString n (t.drop len) (textLength + len) (out ++ t.take len)
      else
        escapeWrite (t.drop 1) >>= fun (textLen, bs) =>
        if textLen = 0 then .ok (.kStringIllegalEscape, textLength, out)
        else i32 (out.length + bs.length) >>= fun _ =>
          writeString n (t.drop (1 + textLen)) (textLength + 1 + textLen) (out ++ bs)

/-- `GetPhysicalSize`, TSString.cpp:16-19, for `uint32`. -/
def getPhysicalSize (size : Nat) : Nat := (size + 67) % 2 ^ 32 / 64 * 64

/-- Whether a string can get a block for `size` bytes: `physicalSize = GetPhysicalSize(size)` (TSString.cpp:620, 307 and 43) is an
`int32`, which is negative from 2^31 on, and then `new char[physicalSize]` throws. Up to 16 bytes are local. -/
def room (size : Nat) : Bool := decide (size ≤ 16 ∨ getPhysicalSize size < 2 ^ 31)

/-- `SetStringLength(length)` of an empty string, TSString.cpp:599-655: `int32 size = length + 1`; `false` if it throws. -/
def setStringLength (length : Nat) : Out Bool :=
  if length > 0 then i32 (length + 1) >>= fun size => .ok (room size) else .ok true

/-- `StringValue::Parse`, C4Json.cpp:1091-1136. -/
def parseString (t : Bytes) : Out (PRes Bytes) :=
  rd t 0 >>= fun c =>
  if c ≠ 34 then .ok (.err .kExpectedBeginingDoubleQuotes t)
  else
    let t1 := t.drop 1
    measureString (t1.length + 1) t1 0 0 >>= fun (status, textLength, stringLength) =>
    if status ≠ .kOk then .ok (.err status t1)
    else
      setStringLength stringLength >>= fun fits =>
      if fits then
        writeString (t1.length + 1) t1 0 [] >>= fun (status, textLength', out) =>
        if out.length ≠ stringLength then .ub
        else
          let t2 := t1.drop (if status = .kOk then textLength' else textLength)
          rd t2 0 >>= fun c =>
          if c ≠ 34 then .ok (.err .kExpectedEndingDoubleQuotes t2)
          else .ok (.ok (t2.drop 1) out)
      else .ok (.err .kException t1)

/-- `ParseSign`, C4Json.cpp:992-1010. -/
def parseSign (t : Bytes) : Out (Bool × Bytes) :=
  rd t 0 >>= fun c =>
  if c = 45 then skipWs (t.drop 1) >>= fun t => .ok (true, t)
  else if c = 43 then skipWs (t.drop 1) >>= fun t => .ok (false, t)
  else .ok (false, t)

/-- `ReadDoubleLiteral`, system branch, C4Json.cpp:807-841: the length of the run (623-634) is converted to `int32`. -/
def readDoubleLiteral {D : Type} (N : NumOps D) (t : Bytes) : Out (Status ⊕ (D × Bytes)) :=
  spanFloat t >>= fun (run, rest) =>
  i32 run.length >>= fun length =>
  if length = 0 then .ok (.inl .kFloatInvalid)
  else
    leadingZero t length >>= fun lz =>
    if lz then .ok (.inl .kNumbersCannotHaveLeadingZeros)
    else
      match strtod N run with
      | none => .ok (.inl .kFloatInvalid)
      | some v => .ok (.inr (v, rest))

/-- `NumberValue::Parse`, C4Json.cpp:1165-1193. -/
def parseNumber {D : Type} (N : NumOps D) (t : Bytes) : Out (PRes D) :=
  parseSign t >>= fun (negative, t) =>
  readDoubleLiteral N t >>= fun r =>
  match r with
  | .inl status => .ok (.err status t)
  | .inr (v, rest) =>
      skipWs rest >>= fun rest => .ok (.ok rest (if negative then N.neg v else v))

/-- `SetReservedCount(count)`, TSArray.h:788-791: the new `reservedCount`. -/
def setReservedCount (reserved count : Nat) : Out Nat :=
  i32 (reserved / 2 + 3) >>= fun half =>
  i32 (reserved + max (half / 4 * 4) 4) >>= fun grown => .ok (max (max count 4) grown)

/-- `AppendArrayElement(element)`, TSArray.h:889-904, for an array of `count` elements: the new `reservedCount`. -/
def append (count reserved : Nat) : Out Nat :=
  (if count ≥ reserved then i32 (count + 1) >>= fun n => setReservedCount reserved n else .ok reserved) >>= fun reserved =>
  i32 (count + 1) >>= fun _ => .ok reserved

mutual

/-- `ParseAnyValue`, C4Json.cpp:1043-1086 (with `ParseValue`, 1012-1041). -/
def parseAny {D : Type} (N : NumOps D) : Nat → Bytes → Out (PRes (Value D))
  | 0, _ => .fuel
  | n + 1, start =>
      parseString start >>= fun r =>
      match r with
      | .ok rest s => .ok (.ok rest (.str s))
      | .err status pos =>
        if status ≠ .kExpectedBeginingDoubleQuotes then .ok (.err status pos)
        else
          parseNumber N start >>= fun r =>
          match r with
          | .ok rest d => .ok (.ok rest (.num d))
          | .err status pos =>
            if status = .kNumbersCannotHaveLeadingZeros then .ok (.err status pos)
            else
              parseBool start >>= fun r =>
              match r with
              | .ok rest b => .ok (.ok rest (.bool b))
              | .err _ _ =>
                parseNull start >>= fun r =>
                match r with
                | .ok rest _ => .ok (.ok rest .null)
                | .err _ _ =>
                  parseArray N n start >>= fun r =>
                  match r with
                  | .ok rest v => .ok (.ok rest v)
                  | .err status pos =>
                    if status ≠ .kExpectedOpeningSquareBrackets then .ok (.err status pos)
                    else
                      parseObject N n pos >>= fun r =>
                      match r with
                      | .ok rest v => .ok (.ok rest v)
                      | .err status pos =>
                        if status ≠ .kExpectedOpeningCurlyBraces ∨
                            status = .kNumbersCannotHaveLeadingZeros then .ok (.err status pos)
                        else .ok (.err .kExpectedJsonValue pos)

/-- `ArrayValue::Parse`, C4Json.cpp:1357-1364. -/
def parseArray {D : Type} (N : NumOps D) : Nat → Bytes → Out (PRes (Value D))
  | 0, _ => .fuel
  | n + 1, t =>
      rd t 0 >>= fun c =>
      if c ≠ 91 then .ok (.err .kExpectedOpeningSquareBrackets t) else arrayLoop N n t [] 0

/-- The loop of `ArrayValue::Parse`, C4Json.cpp:1366-1419, with the elements appended so far and
`reservedCount` of the array. -/
def arrayLoop {D : Type} (N : NumOps D) : Nat → Bytes → List (Value D) → Nat → Out (PRes (Value D))
  | 0, _, _, _ => .fuel
  | n + 1, t, acc, reserved =>
      skipWs (t.drop 1) >>= fun t =>
      rd t 0 >>= fun c =>
      if c = 93 then
        if ¬ acc.isEmpty then .ok (.err .kExpectedJsonValue t) else .ok (.ok (t.drop 1) (.arr acc))
      else
        parseAny N n t >>= fun r =>
        match r with
        | .err status pos => .ok (.err status pos)
        | .ok t v =>
            append acc.length reserved >>= fun reserved =>
            skipWs t >>= fun t =>
            rd t 0 >>= fun c =>
            if c ≠ 44 then
              if c ≠ 93 then .ok (.err .kExpectedClosingSquareBracketsOrComma t)
              else .ok (.ok (t.drop 1) (.arr (acc ++ [v])))
            else arrayLoop N n t (acc ++ [v]) reserved

/-- `ObjectValue::Parse`, C4Json.cpp:1479-1486. -/
def parseObject {D : Type} (N : NumOps D) : Nat → Bytes → Out (PRes (Value D))
  | 0, _ => .fuel
  | n + 1, t =>
      rd t 0 >>= fun c =>
      if c ≠ 123 then .ok (.err .kExpectedOpeningCurlyBraces t) else objectLoop N n t .nil [] 0

/-- The loop of `ObjectValue::Parse`, C4Json.cpp:1488-1561, with the map and `insertionOrder` built so
far and the `reservedCount` of `insertionOrder`. The name is copied twice (1533 and 1474). -/
def objectLoop {D : Type} (N : NumOps D) :
    Nat → Bytes → Tree Bytes (Value D) → List Bytes → Nat → Out (PRes (Value D))
  | 0, _, _, _, _ => .fuel
  | n + 1, t, m, order, reserved =>
      skipWs (t.drop 1) >>= fun t =>
      rd t 0 >>= fun c =>
      if c = 125 then
        if ¬ order.isEmpty then .ok (.err .kExpectedJsonValue t)
        else .ok (.ok (t.drop 1) (.obj m order))
      else
        parseString t >>= fun r =>
        match r with
        | .err status pos => .ok (.err status pos)
        | .ok t name =>
            skipWs t >>= fun t =>
            rd t 0 >>= fun c =>
            if c ≠ 58 then .ok (.err .kExpectedColon t)
            else
              skipWs (t.drop 1) >>= fun t =>
              parseAny N n t >>= fun r =>
              match r with
              | .err status pos => .ok (.err status pos)
              | .ok t v =>
                  if room (name.length + 1) then
                    append order.length reserved >>= fun reserved =>
                    insertAccounted m order name v >>= fun (m, order) =>
                    skipWs t >>= fun t =>
                    rd t 0 >>= fun c =>
                    if c ≠ 44 then
                      if c ≠ 125 then .ok (.err .kExpectedClosingCurlyBracesOrComma t)
                      else .ok (.ok (t.drop 1) (.obj m order))
                    else objectLoop N n t m order reserved
                  else .ok (.err .kException t)

end

/-- The backwards scan of `ParseJsonRoot`, C4Json.cpp:1720-1730. -/
def scanBack : Bytes → Nat → Nat → Out (Nat × Nat)
  | [], line, column => .ok (line, column)
  | c :: back, line, column =>
      (if c = 10 then i32 (line + 1) else .ok line) >>= fun line =>
      i32 (column + (if line = 1 then 1 else 0)) >>= fun column => scanBack back line column

/-- `ParseJsonRoot`, C4Json.cpp:1693-1734. -/
def parseRoot {D : Type} (N : NumOps D) (fuel : Nat) (buf : Bytes) : Out (RootResult D) :=
  if buf.length < 3 then .ok ⟨.kTextBufferContentsInvalid, none, 0, 0⟩
  else
    rd buf (buf.length - 1) >>= fun last =>
    if last ≠ 0 then .ok ⟨.kUnterminatedTextBuffer, none, 0, 0⟩
    else
      skipWs buf >>= fun start =>
      parseAny N fuel start >>= fun r =>
      let (status, root, text) : Status × Option (Value D) × Bytes :=
        match r with
        | .ok rest v => (.kOk, some v, rest)
        | .err status pos => (status, none, pos)
      skipWs text >>= fun text =>
      rd text 0 >>= fun c =>
      let status := if status = .kOk ∧ c ≠ 0 then .kExpectedEndOfFile else status
      if status ≠ .kOk then
        scanBack (start.take (start.length - text.length)).reverse 1 1 >>= fun (line, column) =>
        .ok ⟨status, root, line, column⟩
      else .ok ⟨status, root, 0, 0⟩

/-- `StructuredData::Parse(const Array<char>&)`, C4Json.cpp:1786-1808. -/
def parseBuffer {D : Type} (N : NumOps D) (root : Option (Value D)) (buf : Bytes) :
    Out (Doc.ParseResult × Option (Value D)) :=
  if buf.length < 3 then .ok (⟨.kTextBufferContentsInvalid, 0, 0⟩, root)
  else
    rd buf (buf.length - 1) >>= fun last =>
    if last ≠ 0 then .ok (⟨.kUnterminatedTextBuffer, 0, 0⟩, root)
    else
      parseRoot N (parseFuel buf) buf >>= fun r =>
      .ok (⟨r.status, r.errorLine, r.errorColumn⟩, r.root)

end Verif.Parser32
