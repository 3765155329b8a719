import Verif.Model.Document

/-!
# Model of the parser with its number of steps

The functions of C4Json.cpp once more, each with a count of steps. A step is one execution of the body of a loop or of a
function that has no loop. The loops inside one round of `ReadStringLiteral` (at most five rounds: four digits, or the bytes of one
character) are counted at their maximum. Allocation is one step. `strtod` and `CopyText` are counted as one step for each byte.

Not counted: the destruction of values (each value is destroyed at most once, C51), and the destruction of the document that the object held
before.
-/

namespace Verif.ParserCost

open Verif Verif.Text Verif.Map Verif.Number Verif.Parser

/-- A computation with the number of its steps. -/
structure T (α : Type) where
  run : Out (α × Nat)

instance : Monad T where
  pure a := ⟨.ok (a, 0)⟩
  bind x f := ⟨x.run >>= fun (a, m) => (f a).run >>= fun (b, n) => .ok (b, m + n)⟩

/-- A computation in `n` steps. -/
def T.of {α : Type} (n : Nat) (x : Out α) : T α := ⟨x >>= fun a => .ok (a, n)⟩

/-- Only steps. -/
def steps (n : Nat) : T Unit := T.of n (.ok ())

/-- The result. -/
def T.erase {α : Type} (x : T α) : Out α := x.run >>= fun (a, _) => .ok a

/-- `text += ComputeWhitespaceLength(text)`, C4Json.cpp:611-621. -/
def skipWs : Bytes → T Bytes
  | [] => T.of 0 .ub
  | c :: t => steps 1 >>= fun _ => if c ≠ 0 ∧ isWs c then skipWs t else pure (c :: t)

/-- `ComputeFloatLiteralLength(text)`, C4Json.cpp:623-634. -/
def spanFloat : Bytes → T (Bytes × Bytes)
  | [] => T.of 0 .ub
  | c :: t =>
      steps 1 >>= fun _ =>
      if c ≠ 0 ∧ isFloatChar c then
        (spanFloat t) >>= fun (run, rest) => pure (c :: run, rest)
      else pure ([], c :: t)

/-- `ReadStringLiteral` without destination, C4Json.cpp:735-803. -/
def measureString : Nat → Bytes → Nat → Nat → T (Status × Nat × Nat)
  | 0, _, _, _ => T.of 0 .fuel
  | n + 1, t, textLength, count =>
      steps 6 >>= fun _ =>
      T.of 0 (rd t 0) >>= fun c =>
      if c = 0 then pure (.kPrematureNullTerminator, textLength, count)
      else if c = 34 then pure (.kOk, textLength, count)
      else if c.toNat < 32 ∨ c = 127 then pure (.kStringIllegalChar, textLength, count)
      else if c ≠ 92 then
        T.of 0 (validateUnicodeChar t) >>= fun len =>
        if len = 0 then pure (.kStringIllegalChar, textLength, count)
        else measureString n (t.drop len) (textLength + len) (count + len)
      else
        T.of 0 (escapeMeasure (t.drop 1)) >>= fun (textLen, stringLen) =>
        if textLen = 0 then pure (.kStringIllegalEscape, textLength, count)
        else measureString n (t.drop (1 + textLen)) (textLength + 1 + textLen) (count + stringLen)

/-- `ReadStringLiteral` with destination, C4Json.cpp:735-803. -/
def writeString : Nat → Bytes → Nat → Bytes → T (Status × Nat × Bytes)
  | 0, _, _, _ => T.of 0 .fuel
  | n + 1, t, textLength, out =>
      steps 6 >>= fun _ =>
      T.of 0 (rd t 0) >>= fun c =>
      if c = 0 then pure (.kPrematureNullTerminator, textLength, out)
      else if c = 34 then pure (.kOk, textLength, out)
      else if c.toNat < 32 ∨ c = 127 then pure (.kStringIllegalChar, textLength, out)
      else if c ≠ 92 then
        T.of 0 (validateUnicodeChar t) >>= fun len =>
        if len = 0 then pure (.kStringIllegalChar, textLength, out)
        else if t.length < len then T.of 0 .ub
        else writeString n (t.drop len) (textLength + len) (out ++ t.take len)
      else
        T.of 0 (escapeWrite (t.drop 1)) >>= fun (textLen, bs) =>
        if textLen = 0 then pure (.kStringIllegalEscape, textLength, out)
        else writeString n (t.drop (1 + textLen)) (textLength + 1 + textLen) (out ++ bs)

/-- `StringValue::Parse`, C4Json.cpp:1091-1136; `SetStringLength` is applied to an empty string, so that nothing is copied. -/
def parseString (t : Bytes) : T (PRes Bytes) :=
  steps 1 >>= fun _ =>
  T.of 0 (rd t 0) >>= fun c =>
  if c ≠ 34 then pure (.err .kExpectedBeginingDoubleQuotes t)
  else
    measureString ((t.drop 1).length + 1) (t.drop 1) 0 0 >>= fun (status, textLength, stringLength) =>
    if status ≠ .kOk then pure (.err status (t.drop 1))
    else
      steps 1 >>= fun _ =>
      writeString ((t.drop 1).length + 1) (t.drop 1) 0 [] >>= fun (status, textLength', out) =>
      if out.length ≠ stringLength then T.of 0 .ub
      else
        T.of 0 (rd ((t.drop 1).drop (if status = .kOk then textLength' else textLength)) 0) >>= fun c =>
        if c ≠ 34 then pure (.err .kExpectedEndingDoubleQuotes ((t.drop 1).drop (if status = .kOk then textLength' else textLength)))
        else pure (.ok (((t.drop 1).drop (if status = .kOk then textLength' else textLength)).drop 1) out)

/-- `ParseSign`, C4Json.cpp:992-1010. -/
def parseSign (t : Bytes) : T (Bool × Bytes) :=
  steps 1 >>= fun _ =>
  T.of 0 (rd t 0) >>= fun c =>
  if c = 45 then skipWs (t.drop 1) >>= fun t => pure (true, t)
  else if c = 43 then skipWs (t.drop 1) >>= fun t => pure (false, t)
  else pure (false, t)

/-- `ReadDoubleLiteral`, system branch, C4Json.cpp:807-841: the run is copied and given to `strtod`. -/
def readDoubleLiteral {D : Type} (N : NumOps D) (t : Bytes) : T (Status ⊕ (D × Bytes)) :=
  steps 1 >>= fun _ =>
  spanFloat t >>= fun (run, rest) =>
  if run.length = 0 then pure (.inl .kFloatInvalid)
  else
    T.of 0 (leadingZero t run.length) >>= fun lz =>
    if lz then pure (.inl .kNumbersCannotHaveLeadingZeros)
    else
      steps (2 * run.length + 1) >>= fun _ =>
      match strtod N run with
      | none => pure (.inl .kFloatInvalid)
      | some v => pure (.inr (v, rest))

/-- `NumberValue::Parse`, C4Json.cpp:1165-1193. -/
def parseNumber {D : Type} (N : NumOps D) (t : Bytes) : T (PRes D) :=
  steps 1 >>= fun _ =>
  parseSign t >>= fun (negative, t) =>
  readDoubleLiteral N t >>= fun r =>
  match r with
  | .inl status => pure (.err status t)
  | .inr (v, rest) =>
      skipWs rest >>= fun rest => pure (.ok rest (if negative then N.neg v else v))

/-- `SetReservedCount(count)`, TSArray.h:788-791 (and 480 for `baseCount > 0`): the new `reservedCount`. -/
def newReserved (reserved count : Nat) : Nat := max (max count 4) (reserved + max ((reserved / 2 + 3) / 4 * 4) 4)

/-- `AppendArrayElement(element)`, TSArray.h:889-904, for an array of `count` elements: the new `reservedCount`. If the block is full,
all elements are moved (794-801). -/
def append (count reserved : Nat) : T Nat :=
  steps 1 >>= fun _ =>
  if count ≥ reserved then steps count >>= fun _ => pure (newReserved reserved (count + 1)) else pure reserved

/-- `CompareTextLessThan`, TSText.cpp:760-772, on the contents of strings. -/
def nameLt : Bytes → Bytes → T Bool
  | [], [] => steps 1 >>= fun _ => pure false
  | [], _ :: _ => steps 1 >>= fun _ => pure true
  | _ :: _, [] => steps 1 >>= fun _ => pure false
  | x :: a, y :: b => steps 1 >>= fun _ => if x = y then nameLt a b else pure (decide (x.toNat < y.toNat))

/-- The search loop of `InsertMapElement`, TSMap.h:594-623. -/
def descend {α : Type} (k : Bytes) : Tree Bytes α → Path Bytes α → T (Option (Path Bytes α))
  | .nil, p => pure (some p)
  | .node b l nk nv r, p =>
      steps 1 >>= fun _ =>
      nameLt k nk >>= fun less =>
      if less then descend k l (⟨.L, b, nk, nv, r⟩ :: p)
      else
        nameLt nk k >>= fun more =>
        if more then descend k r (⟨.R, b, nk, nv, l⟩ :: p) else pure none

/-- The number of steps of the climbing loop, TSMap.cpp:413-472 and 492-551 (`insertClimb`). -/
def climbSteps {α : Type} (dir1 : Dir) : Path Bytes α → Tree Bytes α → Nat
  | [], _ => 0
  | f :: p, t =>
      let b : Int := match f.dir with
        | .L => f.balance - 1
        | .R => f.balance + 1
      if b = 0 then 1
      else if b.natAbs = 2 then 1
      else climbSteps f.dir p (plug1 { f with balance := b } t) + 1

/-- `InsertLeftSubnode`, `InsertRightSubnode`, TSMap.cpp:396-552. -/
def insertSubnode {α : Type} (f : Frame Bytes α) (p : Path Bytes α) (k : Bytes) (v : α) : T (Option (Tree Bytes α)) :=
  let b : Int := match f.dir with
    | .L => f.balance - 1
    | .R => f.balance + 1
  let node := plug1 { f with balance := b } (.node 0 .nil k v .nil)
  steps 1 >>= fun _ =>
  if b ≠ 0 then T.of (climbSteps f.dir p node) (.ok (insertClimb f.dir p node)) else pure (some (plug p node))

/-- `InsertMapElement(element)`, TSMap.h:587-631. -/
def insertMapElement {α : Type} (t : Tree Bytes α) (k : Bytes) (v : α) : T (Option (Bool × Tree Bytes α)) :=
  descend k t [] >>= fun p =>
  match p with
  | none => pure (some (false, t))
  | some [] => pure (some (true, .node 0 .nil k v .nil))
  | some (f :: p) => insertSubnode f p k v >>= fun r => pure (r.map fun t' => (true, t'))

/-- `InsertAccountedMapElement`, C4Json.cpp:1472-1477, with the assignment of the name, 1533: the name is copied twice. -/
def insertAccounted {D : Type} (m : Tree Bytes (Value D)) (order : List Bytes) (name : Bytes)
    (v : Value D) : T (Tree Bytes (Value D) × List Bytes) :=
  steps (2 * (name.length + 1)) >>= fun _ =>
  insertMapElement m name v >>= fun r =>
  match r with
  | none => T.of 0 .ub
  | some (_, m') => pure (m', order ++ [name])

mutual

/-- `ParseAnyValue`, C4Json.cpp:1043-1086 (with `ParseValue`, 1012-1041). -/
def parseAny {D : Type} (N : NumOps D) : Nat → Bytes → T (PRes (Value D))
  | 0, _ => T.of 0 .fuel
  | n + 1, start =>
      steps 1 >>= fun _ =>
      parseString start >>= fun r =>
      match r with
      | .ok rest s => pure (.ok rest (.str s))
      | .err status pos =>
        if status ≠ .kExpectedBeginingDoubleQuotes then pure (.err status pos)
        else
          parseNumber N start >>= fun r =>
          match r with
          | .ok rest d => pure (.ok rest (.num d))
          | .err status pos =>
            if status = .kNumbersCannotHaveLeadingZeros then pure (.err status pos)
            else
              T.of 2 (parseBool start) >>= fun r =>
              match r with
              | .ok rest b => pure (.ok rest (.bool b))
              | .err _ _ =>
                T.of 1 (parseNull start) >>= fun r =>
                match r with
                | .ok rest _ => pure (.ok rest .null)
                | .err _ _ =>
                  parseArray N n start >>= fun r =>
                  match r with
                  | .ok rest v => pure (.ok rest v)
                  | .err status pos =>
                    if status ≠ .kExpectedOpeningSquareBrackets then pure (.err status pos)
                    else
                      parseObject N n pos >>= fun r =>
                      match r with
                      | .ok rest v => pure (.ok rest v)
                      | .err status pos =>
                        if status ≠ .kExpectedOpeningCurlyBraces ∨
                            status = .kNumbersCannotHaveLeadingZeros then pure (.err status pos)
                        else pure (.err .kExpectedJsonValue pos)

/-- `ArrayValue::Parse`, C4Json.cpp:1357-1364. -/
def parseArray {D : Type} (N : NumOps D) : Nat → Bytes → T (PRes (Value D))
  | 0, _ => T.of 0 .fuel
  | n + 1, t =>
      steps 1 >>= fun _ =>
      T.of 0 (rd t 0) >>= fun c =>
      if c ≠ 91 then pure (.err .kExpectedOpeningSquareBrackets t) else arrayLoop N n t [] 0

/-- The loop of `ArrayValue::Parse`, C4Json.cpp:1366-1419, with the elements appended so far and
`reservedCount` of the array. -/
def arrayLoop {D : Type} (N : NumOps D) : Nat → Bytes → List (Value D) → Nat → T (PRes (Value D))
  | 0, _, _, _ => T.of 0 .fuel
  | n + 1, t, acc, reserved =>
      steps 1 >>= fun _ =>
      skipWs (t.drop 1) >>= fun t =>
      T.of 0 (rd t 0) >>= fun c =>
      if c = 93 then
        if ¬ acc.isEmpty then pure (.err .kExpectedJsonValue t) else pure (.ok (t.drop 1) (.arr acc))
      else
        parseAny N n t >>= fun r =>
        match r with
        | .err status pos => pure (.err status pos)
        | .ok t v =>
            append acc.length reserved >>= fun reserved =>
            skipWs t >>= fun t =>
            T.of 0 (rd t 0) >>= fun c =>
            if c ≠ 44 then
              if c ≠ 93 then pure (.err .kExpectedClosingSquareBracketsOrComma t)
              else pure (.ok (t.drop 1) (.arr (acc ++ [v])))
            else arrayLoop N n t (acc ++ [v]) reserved

/-- `ObjectValue::Parse`, C4Json.cpp:1479-1486. -/
def parseObject {D : Type} (N : NumOps D) : Nat → Bytes → T (PRes (Value D))
  | 0, _ => T.of 0 .fuel
  | n + 1, t =>
      steps 1 >>= fun _ =>
      T.of 0 (rd t 0) >>= fun c =>
      if c ≠ 123 then pure (.err .kExpectedOpeningCurlyBraces t) else objectLoop N n t .nil [] 0

/-- The loop of `ObjectValue::Parse`, C4Json.cpp:1488-1561, with the map and `insertionOrder` built so
far and the `reservedCount` of `insertionOrder`. -/
def objectLoop {D : Type} (N : NumOps D) :
    Nat → Bytes → Tree Bytes (Value D) → List Bytes → Nat → T (PRes (Value D))
  | 0, _, _, _, _ => T.of 0 .fuel
  | n + 1, t, m, order, reserved =>
      steps 1 >>= fun _ =>
      skipWs (t.drop 1) >>= fun t =>
      T.of 0 (rd t 0) >>= fun c =>
      if c = 125 then
        if ¬ order.isEmpty then pure (.err .kExpectedJsonValue t)
        else pure (.ok (t.drop 1) (.obj m order))
      else
        parseString t >>= fun r =>
        match r with
        | .err status pos => pure (.err status pos)
        | .ok t name =>
            skipWs t >>= fun t =>
            T.of 0 (rd t 0) >>= fun c =>
            if c ≠ 58 then pure (.err .kExpectedColon t)
            else
              skipWs (t.drop 1) >>= fun t =>
              parseAny N n t >>= fun r =>
              match r with
              | .err status pos => pure (.err status pos)
              | .ok t v =>
                  append order.length reserved >>= fun reserved =>
                  insertAccounted m order name v >>= fun (m, order) =>
                  skipWs t >>= fun t =>
                  T.of 0 (rd t 0) >>= fun c =>
                  if c ≠ 44 then
                    if c ≠ 125 then pure (.err .kExpectedClosingCurlyBracesOrComma t)
                    else pure (.ok (t.drop 1) (.obj m order))
                  else objectLoop N n t m order reserved

end

/-- `ParseJsonRoot`, C4Json.cpp:1693-1734; the backwards scan (1720-1730) has one step for each byte. -/
def parseRoot {D : Type} (N : NumOps D) (fuel : Nat) (buf : Bytes) : T (RootResult D) :=
  if buf.length < 3 then pure ⟨.kTextBufferContentsInvalid, none, 0, 0⟩
  else
    T.of 1 (rd buf (buf.length - 1)) >>= fun last =>
    if last ≠ 0 then pure ⟨.kUnterminatedTextBuffer, none, 0, 0⟩
    else
      skipWs buf >>= fun start =>
      parseAny N fuel start >>= fun r =>
      let (status, root, text) : Status × Option (Value D) × Bytes :=
        match r with
        | .ok rest v => (.kOk, some v, rest)
        | .err status pos => (status, none, pos)
      skipWs text >>= fun text =>
      T.of 0 (rd text 0) >>= fun c =>
      let status := if status = .kOk ∧ c ≠ 0 then .kExpectedEndOfFile else status
      if status ≠ .kOk then
        let (line, column) := scanBack (start.take (start.length - text.length)).reverse 1 1
        steps (start.length - text.length) >>= fun _ => pure ⟨status, root, line, column⟩
      else pure ⟨status, root, 0, 0⟩

/-- `StructuredData::Parse(const Array<char>&)`, C4Json.cpp:1786-1808. -/
def parseBuffer {D : Type} (N : NumOps D) (root : Option (Value D)) (buf : Bytes) :
    T (Doc.ParseResult × Option (Value D)) :=
  if buf.length < 3 then T.of 1 (.ok (⟨.kTextBufferContentsInvalid, 0, 0⟩, root))
  else
    T.of 1 (rd buf (buf.length - 1)) >>= fun last =>
    if last ≠ 0 then pure (⟨.kUnterminatedTextBuffer, 0, 0⟩, root)
    else
      parseRoot N (parseFuel buf) buf >>= fun r =>
      pure (⟨r.status, r.errorLine, r.errorColumn⟩, r.root)

end Verif.ParserCost
