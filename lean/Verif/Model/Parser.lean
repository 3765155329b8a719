import Verif.Model.Map
import Verif.Model.Number

/-!
# Model of the parser (Code/Json4C4/C4Json.cpp)

`text` pointers are suffixes of the buffer. Allocation failures (`MayThrow`, kException) are not
modelled here. The system number conversion branch is modelled
(`JSON4C4_USE_SYSTEM_DOUBLE_STRING_CONVERSIONS`, defined by default, C4Json.cpp:54-56).
-/

namespace Verif.Parser

open Verif Verif.Text Verif.Map Verif.Number

/-- The value classes: `StringValue`, `NumberValue`, `BoolValue`, `NullValue`, `ArrayValue`
(C4Json.h:471) and `ObjectValue` (C4Json.h:490, a `Map<Value>` keyed by member name together with
`insertionOrder`). The `name` member of a value stored in an object is its key in the tree. -/
inductive Value (D : Type) where
  | str (data : Bytes)
  | num (data : D)
  | bool (data : Bool)
  | null
  | arr (data : List (Value D))
  | obj (map : Tree Bytes (Value D)) (insertionOrder : List Bytes)

/-- Result of a parsing function: success with the new `text` pointer and the result, or a status
with the `text` pointer left behind. -/
inductive PRes (α : Type) where
  | ok (rest : Bytes) (a : α)
  | err (status : Status) (pos : Bytes)
  deriving DecidableEq, Repr

/-- `space`, `tab`, `newLine`, `carriageReturn`, C4Json.cpp:592-595. -/
def isWs (c : Byte) : Bool := c == 0x20 || c == 0x09 || c == 0x0A || c == 0x0D

/-- `text += ComputeWhitespaceLength(text)`, C4Json.cpp:611-621. -/
def skipWs : Bytes → Out Bytes
  | [] => .ub
  | c :: t => if c ≠ 0 ∧ isWs c then skipWs t else .ok (c :: t)

/-- `ComputeFloatLiteralLength(text)`, C4Json.cpp:623-634: the run and the text after it. -/
def spanFloat : Bytes → Out (Bytes × Bytes)
  | [] => .ub
  | c :: t =>
      if c ≠ 0 ∧ isFloatChar c then
        (spanFloat t) >>= fun (run, rest) => .ok (c :: run, rest)
      else .ok ([], c :: t)

/-- `ReadEscapeChar`, C4Json.cpp:636-673: `some value` for length 1, `none` for length 0. -/
def readEscapeChar (c : Byte) : Option Byte :=
  if c = 34 ∨ c = 92 ∨ c = 47 then some c
  else if c = 98 then some 8
  else if c = 102 then some 12
  else if c = 110 then some 10
  else if c = 114 then some 13
  else if c = 116 then some 9
  else none

/-- The table `hexadecimalCharValue`, C4Json.cpp:534-536. -/
def hexadecimalCharValue : List Int :=
  [0, 1, 2, 3, 4, 5, 6, 7, 8, 9, -1, -1, -1, -1, -1, -1, -1, 10, 11,
   12, 13, 14, 15, -1, -1, -1, -1, -1, -1, -1, -1, -1, -1, -1, -1, -1, -1, -1,
   -1, -1, -1, -1, -1, -1, -1, -1, -1, -1, -1, 10, 11, 12, 13, 14, 15]

/-- The loop over the four digits of `\uXXXX`, C4Json.cpp:684-699; `a` is the index of the next
digit. `some code` or `none` (return 0). `c = byte[a] - '0'` is unsigned and wraps below '0'. -/
def hexLoop (t : Bytes) : Nat → Nat → Nat → Out (Option Nat)
  | 0, _, code => .ok (some code)
  | n + 1, a, code =>
      rd t a >>= fun b =>
      if 48 ≤ b.toNat ∧ b.toNat - 48 < 55 then
        match hexadecimalCharValue[b.toNat - 48]? with
        | none => .ub
        | some x => if x < 0 then .ok none else hexLoop t n (a + 1) (code <<< 4 ||| x.toNat)
      else .ok none

/-- `ReadStringEscapeChar` with `string == nullptr`, C4Json.cpp:675-733: (returned text length,
`*stringLength`); text length 0 is failure. -/
def escapeMeasure (t : Bytes) : Out (Nat × Nat) :=
  rd t 0 >>= fun c =>
  if c = 117 then
    hexLoop t 4 1 0 >>= fun code? =>
    match code? with
    | none => .ok (0, 0)
    | some code =>
        if code ≠ 0 then
          .ok (5, 1 + (if code ≥ 0x000080 then 1 else 0) + (if code ≥ 0x000800 then 1 else 0))
        else .ok (0, 0)
  else
    match readEscapeChar c with
    | some _ => .ok (1, 1)
    | none => .ok (0, 0)

/-- `ReadStringEscapeChar` with a destination, C4Json.cpp:675-733: (returned text length, bytes
written to `string`, whose number is `*stringLength`). -/
def escapeWrite (t : Bytes) : Out (Nat × Bytes) :=
  rd t 0 >>= fun c =>
  if c = 117 then
    hexLoop t 4 1 0 >>= fun code? =>
    match code? with
    | none => .ok (0, [])
    | some code => if code ≠ 0 then .ok (5, writeUnicodeChar code) else .ok (0, [])
  else
    match readEscapeChar c with
    | some v => .ok (1, [v])
    | none => .ok (0, [])

/-- `ReadStringLiteral(text, &textLength, &stringLength)` without destination,
C4Json.cpp:735-803: status, consumed length and `count`. The first argument is fuel. -/
def measureString : Nat → Bytes → Nat → Nat → Out (Status × Nat × Nat)
  | 0, _, _, _ => .fuel
  | n + 1, t, textLength, count =>
      rd t 0 >>= fun c =>
      if c = 0 then .ok (.kPrematureNullTerminator, textLength, count)
      else if c = 34 then .ok (.kOk, textLength, count)
      else if c.toNat < 32 ∨ c = 127 then .ok (.kStringIllegalChar, textLength, count)
      else if c ≠ 92 then
        validateUnicodeChar t >>= fun len =>
        if len = 0 then .ok (.kStringIllegalChar, textLength, count)
        else measureString n (t.drop len) (textLength + len) (count + len)
      else
        escapeMeasure (t.drop 1) >>= fun (textLen, stringLen) =>
        if textLen = 0 then .ok (.kStringIllegalEscape, textLength, count)
        else measureString n (t.drop (1 + textLen)) (textLength + 1 + textLen) (count + stringLen)

/-- `ReadStringLiteral(text, &textLength, &stringLength, string)` with destination,
C4Json.cpp:735-803: status, consumed length and the bytes stored so far. The copy of a literal
character (766-774) reads `len` bytes of the text. -/
def writeString : Nat → Bytes → Nat → Bytes → Out (Status × Nat × Bytes)
  | 0, _, _, _ => .fuel
  | n + 1, t, textLength, out =>
      rd t 0 >>= fun c =>
      if c = 0 then .ok (.kPrematureNullTerminator, textLength, out)
      else if c = 34 then .ok (.kOk, textLength, out)
      else if c.toNat < 32 ∨ c = 127 then .ok (.kStringIllegalChar, textLength, out)
      else if c ≠ 92 then
        validateUnicodeChar t >>= fun len =>
        if len = 0 then .ok (.kStringIllegalChar, textLength, out)
        else if t.length < len then .ub
        else writeString n (t.drop len) (textLength + len) (out ++ t.take len)
      else
        escapeWrite (t.drop 1) >>= fun (textLen, bs) =>
        if textLen = 0 then .ok (.kStringIllegalEscape, textLength, out)
        else writeString n (t.drop (1 + textLen)) (textLength + 1 + textLen) (out ++ bs)

/-- `StringValue::Parse`, C4Json.cpp:1091-1136. `SetStringLength` (line 1114) gives the destination
`stringLength` bytes; the second call of `ReadStringLiteral`, whose status is ignored, must fill exactly
these (writing more is out of bounds, writing less leaves indeterminate contents; both are `ub`
here). `textLength` is only assigned when the call succeeds (lines 799-802). -/
def parseString (t : Bytes) : Out (PRes Bytes) :=
  rd t 0 >>= fun c =>
  if c ≠ 34 then .ok (.err .kExpectedBeginingDoubleQuotes t)
  else
    let t1 := t.drop 1
    measureString (t1.length + 1) t1 0 0 >>= fun (status, textLength, stringLength) =>
    if status ≠ .kOk then .ok (.err status t1)
    else
      writeString (t1.length + 1) t1 0 [] >>= fun (status, textLength', out) =>
      if out.length ≠ stringLength then .ub
      else
        let t2 := t1.drop (if status = .kOk then textLength' else textLength)
        rd t2 0 >>= fun c =>
        if c ≠ 34 then .ok (.err .kExpectedEndingDoubleQuotes t2)
        else .ok (.ok (t2.drop 1) out)

/-- `ParseSign`, C4Json.cpp:992-1010. -/
def parseSign (t : Bytes) : Out (Bool × Bytes) :=
  rd t 0 >>= fun c =>
  if c = 45 then skipWs (t.drop 1) >>= fun t => .ok (true, t)
  else if c = 43 then skipWs (t.drop 1) >>= fun t => .ok (false, t)
  else .ok (false, t)

/-- The test for a leading zero, C4Json.cpp:815-821; `length` is `*textLength`. -/
def leadingZero (t : Bytes) (length : Nat) : Out Bool :=
  rd t 0 >>= fun c0 =>
  if c0 = 48 then
    if length > 1 then rd t 1 >>= fun c1 => .ok (decide (c1 ≠ 46)) else .ok false
  else .ok false

/-- `ReadDoubleLiteral`, system branch, C4Json.cpp:807-841: `Sum.inr (value, rest)` or a status. -/
def readDoubleLiteral {D : Type} (N : NumOps D) (t : Bytes) : Out (Status ⊕ (D × Bytes)) :=
  spanFloat t >>= fun (run, rest) =>
  if run.length = 0 then .ok (.inl .kFloatInvalid)
  else
    leadingZero t run.length >>= fun lz =>
    if lz then .ok (.inl .kNumbersCannotHaveLeadingZeros)
    else
      match strtod N run with
      | none => .ok (.inl .kFloatInvalid)
      | some v => .ok (.inr (v, rest))

/-- `NumberValue::Parse`, C4Json.cpp:1165-1193. -/
def parseNumber {D : Type} (N : NumOps D) (t : Bytes) : Out (PRes D) :=
  parseSign t >>= fun (negative, t) =>
  readDoubleLiteral N t >>= fun r =>
  match r with
  | .inl status => .ok (.err status t)
  | .inr (v, rest) =>
      skipWs rest >>= fun rest => .ok (.ok rest (if negative then N.neg v else v))

/-- `text[0] == w0 && text[1] == w1 && ...`, reading from left to right and stopping at the first
difference (C4Json.cpp:1238, 1246, 1294). -/
def matchWord : Bytes → Bytes → Out Bool
  | [], _ => .ok true
  | _ :: _, [] => .ub
  | w :: ws, c :: t => if c = w then matchWord ws t else .ok false

/-- `BoolValue::Parse`, C4Json.cpp:1236-1255. -/
def parseBool (t : Bytes) : Out (PRes Bool) :=
  matchWord [116, 114, 117, 101] t >>= fun m =>
  if m then .ok (.ok (t.drop 4) true)
  else
    matchWord [102, 97, 108, 115, 101] t >>= fun m =>
    if m then .ok (.ok (t.drop 5) false) else .ok (.err .kExpectedTrueOrFalse t)

/-- `NullValue::Parse`, C4Json.cpp:1292-1302. -/
def parseNull (t : Bytes) : Out (PRes Unit) :=
  matchWord [110, 117, 108, 108] t >>= fun m =>
  if m then .ok (.ok (t.drop 4) ()) else .ok (.err .kExpectedNull t)

/-- `ObjectValue::InsertAccountedMapElement`, C4Json.cpp:1472-1477; `ub` stands for a null dereference
in the map. The returned flag (ignored by the parser) is dropped. -/
def insertAccounted {D : Type} (m : Tree Bytes (Value D)) (order : List Bytes) (name : Bytes)
    (v : Value D) : Out (Tree Bytes (Value D) × List Bytes) :=
  match insertMapElement nameLt m name v with
  | none => .ub
  | some (_, m') => .ok (m', order ++ [name])

mutual

/-- `ParseAnyValue`, C4Json.cpp:1043-1086 (with `ParseValue`, 1012-1041). -/
def parseAny {D : Type} (N : NumOps D) : Nat → Bytes → Out (PRes (Value D))
  | 0, _ => .fuel
  | n + 1, start =>
      parseString start >>= fun r =>
      match r with
      | .ok rest s => .ok (.ok rest (.str s))
      | .err status pos =>
        if status ≠ .kExpectedBeginingDoubleQuotes then .ok (.err status pos)
        else
          parseNumber N start >>= fun r =>
          match r with
          | .ok rest d => .ok (.ok rest (.num d))
          | .err status pos =>
            if status = .kNumbersCannotHaveLeadingZeros then .ok (.err status pos)
            else
              parseBool start >>= fun r =>
              match r with
              | .ok rest b => .ok (.ok rest (.bool b))
              | .err _ _ =>
                parseNull start >>= fun r =>
                match r with
                | .ok rest _ => .ok (.ok rest .null)
                | .err _ _ =>
                  parseArray N n start >>= fun r =>
                  match r with
                  | .ok rest v => .ok (.ok rest v)
                  | .err status pos =>
                    if status ≠ .kExpectedOpeningSquareBrackets then .ok (.err status pos)
                    else
                      parseObject N n pos >>= fun r =>
                      match r with
                      | .ok rest v => .ok (.ok rest v)
                      | .err status pos =>
                        if status ≠ .kExpectedOpeningCurlyBraces ∨
                            status = .kNumbersCannotHaveLeadingZeros then .ok (.err status pos)
                        else .ok (.err .kExpectedJsonValue pos)

/-- `ArrayValue::Parse`, C4Json.cpp:1357-1364. -/
def parseArray {D : Type} (N : NumOps D) : Nat → Bytes → Out (PRes (Value D))
  | 0, _ => .fuel
  | n + 1, t =>
      rd t 0 >>= fun c =>
      if c ≠ 91 then .ok (.err .kExpectedOpeningSquareBrackets t) else arrayLoop N n t []

/-- The loop of `ArrayValue::Parse`, C4Json.cpp:1366-1419, with the elements appended so far;
`emptyArray` is `acc = []`. -/
def arrayLoop {D : Type} (N : NumOps D) : Nat → Bytes → List (Value D) → Out (PRes (Value D))
  | 0, _, _ => .fuel
  | n + 1, t, acc =>
      skipWs (t.drop 1) >>= fun t =>
      rd t 0 >>= fun c =>
      if c = 93 then
        if ¬ acc.isEmpty then .ok (.err .kExpectedJsonValue t) else .ok (.ok (t.drop 1) (.arr acc))
      else
        parseAny N n t >>= fun r =>
        match r with
        | .err status pos => .ok (.err status pos)
        | .ok t v =>
            skipWs t >>= fun t =>
            rd t 0 >>= fun c =>
            if c ≠ 44 then
              if c ≠ 93 then .ok (.err .kExpectedClosingSquareBracketsOrComma t)
              else .ok (.ok (t.drop 1) (.arr (acc ++ [v])))
            else arrayLoop N n t (acc ++ [v])

/-- `ObjectValue::Parse`, C4Json.cpp:1479-1486. -/
def parseObject {D : Type} (N : NumOps D) : Nat → Bytes → Out (PRes (Value D))
  | 0, _ => .fuel
  | n + 1, t =>
      rd t 0 >>= fun c =>
      if c ≠ 123 then .ok (.err .kExpectedOpeningCurlyBraces t) else objectLoop N n t .nil []

/-- The loop of `ObjectValue::Parse`, C4Json.cpp:1488-1561, with the map and `insertionOrder` built so
far; `emptyObject` is `order = []`. -/
def objectLoop {D : Type} (N : NumOps D) :
    Nat → Bytes → Tree Bytes (Value D) → List Bytes → Out (PRes (Value D))
  | 0, _, _, _ => .fuel
  | n + 1, t, m, order =>
      skipWs (t.drop 1) >>= fun t =>
      rd t 0 >>= fun c =>
      if c = 125 then
        if ¬ order.isEmpty then .ok (.err .kExpectedJsonValue t)
        else .ok (.ok (t.drop 1) (.obj m order))
      else
        parseString t >>= fun r =>
        match r with
        | .err status pos => .ok (.err status pos)
        | .ok t name =>
            skipWs t >>= fun t =>
            rd t 0 >>= fun c =>
            if c ≠ 58 then .ok (.err .kExpectedColon t)
            else
              skipWs (t.drop 1) >>= fun t =>
              parseAny N n t >>= fun r =>
              match r with
              | .err status pos => .ok (.err status pos)
              | .ok t v =>
                  insertAccounted m order name v >>= fun (m, order) =>
                  skipWs t >>= fun t =>
                  rd t 0 >>= fun c =>
                  if c ≠ 44 then
                    if c ≠ 125 then .ok (.err .kExpectedClosingCurlyBracesOrComma t)
                    else .ok (.ok (t.drop 1) (.obj m order))
                  else objectLoop N n t m order

end

/-- The backwards scan of `ParseJsonRoot`, C4Json.cpp:1720-1730: `back` are the bytes between `start`
and the error position in reverse order. -/
def scanBack : Bytes → Nat → Nat → Nat × Nat
  | [], line, column => (line, column)
  | c :: back, line, column =>
      let line := if c = 10 then line + 1 else line
      scanBack back line (column + (if line = 1 then 1 else 0))

/-- What `ParseJsonRoot` leaves behind. -/
structure RootResult (D : Type) where
  status : Status
  root : Option (Value D)
  errorLine : Nat
  errorColumn : Nat

/-- `ParseJsonRoot`, C4Json.cpp:1693-1734, called with a null `jsonRoot`. `fuel` bounds the recursion;
`errorLine` and `errorColumn` are 0 when not assigned (initial values of `ParseResult`, C4Json.h). -/
def parseRoot {D : Type} (N : NumOps D) (fuel : Nat) (buf : Bytes) : Out (RootResult D) :=
  if buf.length < 3 then .ok ⟨.kTextBufferContentsInvalid, none, 0, 0⟩
  else
    rd buf (buf.length - 1) >>= fun last =>
    if last ≠ 0 then .ok ⟨.kUnterminatedTextBuffer, none, 0, 0⟩
    else
      skipWs buf >>= fun start =>
      parseAny N fuel start >>= fun r =>
      let (status, root, text) : Status × Option (Value D) × Bytes :=
        match r with
        | .ok rest v => (.kOk, some v, rest)
        | .err status pos => (status, none, pos)
      skipWs text >>= fun text =>
      rd text 0 >>= fun c =>
      let status := if status = .kOk ∧ c ≠ 0 then .kExpectedEndOfFile else status
      if status ≠ .kOk then
        let (line, column) := scanBack (start.take (start.length - text.length)).reverse 1 1
        .ok ⟨status, root, line, column⟩
      else .ok ⟨status, root, 0, 0⟩

/-- Fuel that always suffices (theorem C02). -/
def parseFuel (buf : Bytes) : Nat := 3 * buf.length + 3

end Verif.Parser
