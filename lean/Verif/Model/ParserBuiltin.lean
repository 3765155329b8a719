import Verif.Model.Builtin

/-!
# Model of the parser with the built-in number reader

The configuration without `JSON4C4_USE_SYSTEM_DOUBLE_STRING_CONVERSIONS`: `NumberValue::Parse` calls the reader of
`Verif/Model/Builtin.lean`. The recursive functions are those of `Verif/Model/Parser.lean` with `NumberValue::Parse` as a
parameter `R`; that the parser with the C library is an instance is theorem `parseRoot_system` (Verif/Lemmas/ParserBuiltin.lean).
-/

namespace Verif.ParserB

open Verif Verif.Text Verif.Number Verif.Map Verif.Parser

/-- `NumberValue::Parse`, C4Json.cpp:1165-1193, with the `ReadDoubleLiteral` of lines 843-988. `neg` is the negation of a `double`. -/
def parseNumberB {D : Type} (A : Builtin.Arith D) (neg : D → D) (t : Bytes) : Out (PRes D) :=
  parseSign t >>= fun (negative, t) =>
  Builtin.readDouble A t >>= fun r =>
  match r with
  | .inl status => .ok (.err status t)
  | .inr (v, rest) =>
      skipWs rest >>= fun rest => .ok (.ok rest (if negative then neg v else v))

mutual

/-- `ParseAnyValue`, C4Json.cpp:1043-1086 (with `ParseValue`, 1012-1041). -/
def parseAny {D : Type} (R : Bytes → Out (PRes D)) : Nat → Bytes → Out (PRes (Value D))
  | 0, _ => .fuel
  | n + 1, start =>
      parseString start >>= fun r =>
      match r with
      | .ok rest s => .ok (.ok rest (.str s))
      | .err status pos =>
        if status ≠ .kExpectedBeginingDoubleQuotes then .ok (.err status pos)
        else
          R start >>= fun r =>
          match r with
          | .ok rest d => .ok (.ok rest (.num d))
          | .err status pos =>
            if status = .kNumbersCannotHaveLeadingZeros then .ok (.err status pos)
            else
              parseBool start >>= fun r =>
              match r with
              | .ok rest b => .ok (.ok rest (.bool b))
              | .err _ _ =>
                parseNull start >>= fun r =>
                match r with
                | .ok rest _ => .ok (.ok rest .null)
                | .err _ _ =>
                  parseArray R n start >>= fun r =>
                  match r with
                  | .ok rest v => .ok (.ok rest v)
                  | .err status pos =>
                    if status ≠ .kExpectedOpeningSquareBrackets then .ok (.err status pos)
                    else
                      parseObject R n pos >>= fun r =>
                      match r with
                      | .ok rest v => .ok (.ok rest v)
                      | .err status pos =>
                        if status ≠ .kExpectedOpeningCurlyBraces ∨
                            status = .kNumbersCannotHaveLeadingZeros then .ok (.err status pos)
                        else .ok (.err .kExpectedJsonValue pos)

/-- `ArrayValue::Parse`, C4Json.cpp:1357-1364. -/
def parseArray {D : Type} (R : Bytes → Out (PRes D)) : Nat → Bytes → Out (PRes (Value D))
  | 0, _ => .fuel
  | n + 1, t =>
      rd t 0 >>= fun c =>
      if c ≠ 91 then .ok (.err .kExpectedOpeningSquareBrackets t) else arrayLoop R n t []

/-- The loop of `ArrayValue::Parse`, C4Json.cpp:1366-1419, with the elements appended so far;
`emptyArray` is `acc = []`. -/
def arrayLoop {D : Type} (R : Bytes → Out (PRes D)) : Nat → Bytes → List (Value D) → Out (PRes (Value D))
  | 0, _, _ => .fuel
  | n + 1, t, acc =>
      skipWs (t.drop 1) >>= fun t =>
      rd t 0 >>= fun c =>
      if c = 93 then
        if ¬ acc.isEmpty then .ok (.err .kExpectedJsonValue t) else .ok (.ok (t.drop 1) (.arr acc))
      else
        parseAny R n t >>= fun r =>
        match r with
        | .err status pos => .ok (.err status pos)
        | .ok t v =>
            skipWs t >>= fun t =>
            rd t 0 >>= fun c =>
            if c ≠ 44 then
              if c ≠ 93 then .ok (.err .kExpectedClosingSquareBracketsOrComma t)
              else .ok (.ok (t.drop 1) (.arr (acc ++ [v])))
            else arrayLoop R n t (acc ++ [v])

/-- `ObjectValue::Parse`, C4Json.cpp:1479-1486. -/
def parseObject {D : Type} (R : Bytes → Out (PRes D)) : Nat → Bytes → Out (PRes (Value D))
  | 0, _ => .fuel
  | n + 1, t =>
      rd t 0 >>= fun c =>
      if c ≠ 123 then .ok (.err .kExpectedOpeningCurlyBraces t) else objectLoop R n t .nil []

/-- The loop of `ObjectValue::Parse`, C4Json.cpp:1488-1561, with the map and `insertionOrder` built so
far; `emptyObject` is `order = []`. -/
def objectLoop {D : Type} (R : Bytes → Out (PRes D)) :
    Nat → Bytes → Tree Bytes (Value D) → List Bytes → Out (PRes (Value D))
  | 0, _, _, _ => .fuel
  | n + 1, t, m, order =>
      skipWs (t.drop 1) >>= fun t =>
      rd t 0 >>= fun c =>
      if c = 125 then
        if ¬ order.isEmpty then .ok (.err .kExpectedJsonValue t)
        else .ok (.ok (t.drop 1) (.obj m order))
      else
        parseString t >>= fun r =>
        match r with
        | .err status pos => .ok (.err status pos)
        | .ok t name =>
            skipWs t >>= fun t =>
            rd t 0 >>= fun c =>
            if c ≠ 58 then .ok (.err .kExpectedColon t)
            else
              skipWs (t.drop 1) >>= fun t =>
              parseAny R n t >>= fun r =>
              match r with
              | .err status pos => .ok (.err status pos)
              | .ok t v =>
                  insertAccounted m order name v >>= fun (m, order) =>
                  skipWs t >>= fun t =>
                  rd t 0 >>= fun c =>
                  if c ≠ 44 then
                    if c ≠ 125 then .ok (.err .kExpectedClosingCurlyBracesOrComma t)
                    else .ok (.ok (t.drop 1) (.obj m order))
                  else objectLoop R n t m order

end

/-- `ParseJsonRoot`, C4Json.cpp:1693-1734, called with a null `jsonRoot`. `fuel` bounds the recursion;
`errorLine` and `errorColumn` are 0 when not assigned (initial values of `ParseResult`, C4Json.h). -/
def parseRoot {D : Type} (R : Bytes → Out (PRes D)) (fuel : Nat) (buf : Bytes) : Out (RootResult D) :=
  if buf.length < 3 then .ok ⟨.kTextBufferContentsInvalid, none, 0, 0⟩
  else
    rd buf (buf.length - 1) >>= fun last =>
    if last ≠ 0 then .ok ⟨.kUnterminatedTextBuffer, none, 0, 0⟩
    else
      skipWs buf >>= fun start =>
      parseAny R fuel start >>= fun r =>
      let (status, root, text) : Status × Option (Value D) × Bytes :=
        match r with
        | .ok rest v => (.kOk, some v, rest)
        | .err status pos => (status, none, pos)
      skipWs text >>= fun text =>
      rd text 0 >>= fun c =>
      let status := if status = .kOk ∧ c ≠ 0 then .kExpectedEndOfFile else status
      if status ≠ .kOk then
        let (line, column) := scanBack (start.take (start.length - text.length)).reverse 1 1
        .ok ⟨status, root, line, column⟩
      else .ok ⟨status, root, 0, 0⟩

end Verif.ParserB
