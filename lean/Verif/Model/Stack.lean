import Verif.Model.Document
import Verif.Model.File

/-!
# Model of the use of the stack by the parser

The recursive part of `Verif.Model.Parser` once more, with a limit on the number of activations of `ParseAnyValue`
(C4Json.cpp:1043-1086) that may be alive at the same time. `ParseAnyValue` calls itself through `ParseValue`, `ArrayValue::Parse`
or `ObjectValue::Parse`; a further activation when none is left is a stack overflow, which is undefined behaviour.
The first number is the fuel of `Verif.Model.Parser`, the second the activations left.
-/

namespace Verif.Stack

open Verif Verif.Text Verif.Map Verif.Number Verif.Parser Verif.Doc

mutual

/-- `ParseAnyValue`, C4Json.cpp:1043-1086. -/
def parseAny {D : Type} (N : NumOps D) : Nat → Nat → Bytes → Out (PRes (Value D))
  | 0, _, _ => .fuel
  | _ + 1, 0, _ => .ub
  | n + 1, d + 1, start =>
      parseString start >>= fun r =>
      match r with
      | .ok rest s => .ok (.ok rest (.str s))
      | .err status pos =>
        if status ≠ .kExpectedBeginingDoubleQuotes then .ok (.err status pos)
        else
          parseNumber N start >>= fun r =>
          match r with
          | .ok rest d => .ok (.ok rest (.num d))
          | .err status pos =>
            if status = .kNumbersCannotHaveLeadingZeros then .ok (.err status pos)
            else
              parseBool start >>= fun r =>
              match r with
              | .ok rest b => .ok (.ok rest (.bool b))
              | .err _ _ =>
                parseNull start >>= fun r =>
                match r with
                | .ok rest _ => .ok (.ok rest .null)
                | .err _ _ =>
                  parseArray N n d start >>= fun r =>
                  match r with
                  | .ok rest v => .ok (.ok rest v)
                  | .err status pos =>
                    if status ≠ .kExpectedOpeningSquareBrackets then .ok (.err status pos)
                    else
                      parseObject N n d pos >>= fun r =>
                      match r with
                      | .ok rest v => .ok (.ok rest v)
                      | .err status pos =>
                        if status ≠ .kExpectedOpeningCurlyBraces ∨
                            status = .kNumbersCannotHaveLeadingZeros then .ok (.err status pos)
                        else .ok (.err .kExpectedJsonValue pos)
termination_by structural n => n

/-- `ArrayValue::Parse`, C4Json.cpp:1357-1364. -/
def parseArray {D : Type} (N : NumOps D) : Nat → Nat → Bytes → Out (PRes (Value D))
  | 0, _, _ => .fuel
  | n + 1, d, t =>
      rd t 0 >>= fun c =>
      if c ≠ 91 then .ok (.err .kExpectedOpeningSquareBrackets t) else arrayLoop N n d t []
termination_by structural n => n

/-- The loop of `ArrayValue::Parse`, C4Json.cpp:1366-1419. -/
def arrayLoop {D : Type} (N : NumOps D) : Nat → Nat → Bytes → List (Value D) → Out (PRes (Value D))
  | 0, _, _, _ => .fuel
  | n + 1, d, t, acc =>
      skipWs (t.drop 1) >>= fun t =>
      rd t 0 >>= fun c =>
      if c = 93 then
        if ¬ acc.isEmpty then .ok (.err .kExpectedJsonValue t) else .ok (.ok (t.drop 1) (.arr acc))
      else
        parseAny N n d t >>= fun r =>
        match r with
        | .err status pos => .ok (.err status pos)
        | .ok t v =>
            skipWs t >>= fun t =>
            rd t 0 >>= fun c =>
            if c ≠ 44 then
              if c ≠ 93 then .ok (.err .kExpectedClosingSquareBracketsOrComma t)
              else .ok (.ok (t.drop 1) (.arr (acc ++ [v])))
            else arrayLoop N n d t (acc ++ [v])
termination_by structural n => n

/-- `ObjectValue::Parse`, C4Json.cpp:1479-1486. -/
def parseObject {D : Type} (N : NumOps D) : Nat → Nat → Bytes → Out (PRes (Value D))
  | 0, _, _ => .fuel
  | n + 1, d, t =>
      rd t 0 >>= fun c =>
      if c ≠ 123 then .ok (.err .kExpectedOpeningCurlyBraces t) else objectLoop N n d t .nil []
termination_by structural n => n

/-- The loop of `ObjectValue::Parse`, C4Json.cpp:1488-1561. -/
def objectLoop {D : Type} (N : NumOps D) :
    Nat → Nat → Bytes → Tree Bytes (Value D) → List Bytes → Out (PRes (Value D))
  | 0, _, _, _, _ => .fuel
  | n + 1, d, t, m, order =>
      skipWs (t.drop 1) >>= fun t =>
      rd t 0 >>= fun c =>
      if c = 125 then
        if ¬ order.isEmpty then .ok (.err .kExpectedJsonValue t)
        else .ok (.ok (t.drop 1) (.obj m order))
      else
        parseString t >>= fun r =>
        match r with
        | .err status pos => .ok (.err status pos)
        | .ok t name =>
            skipWs t >>= fun t =>
            rd t 0 >>= fun c =>
            if c ≠ 58 then .ok (.err .kExpectedColon t)
            else
              skipWs (t.drop 1) >>= fun t =>
              parseAny N n d t >>= fun r =>
              match r with
              | .err status pos => .ok (.err status pos)
              | .ok t v =>
                  insertAccounted m order name v >>= fun (m, order) =>
                  skipWs t >>= fun t =>
                  rd t 0 >>= fun c =>
                  if c ≠ 44 then
                    if c ≠ 125 then .ok (.err .kExpectedClosingCurlyBracesOrComma t)
                    else .ok (.ok (t.drop 1) (.obj m order))
                  else objectLoop N n d t m order
termination_by structural n => n

end

/-- `ParseJsonRoot`, C4Json.cpp:1693-1734, with room for `d` activations of `ParseAnyValue`. -/
def parseRoot {D : Type} (N : NumOps D) (fuel d : Nat) (buf : Bytes) : Out (RootResult D) :=
  if buf.length < 3 then .ok ⟨.kTextBufferContentsInvalid, none, 0, 0⟩
  else
    rd buf (buf.length - 1) >>= fun last =>
    if last ≠ 0 then .ok ⟨.kUnterminatedTextBuffer, none, 0, 0⟩
    else
      skipWs buf >>= fun start =>
      parseAny N fuel d start >>= fun r =>
      let (status, root, text) : Status × Option (Value D) × Bytes :=
        match r with
        | .ok rest v => (.kOk, some v, rest)
        | .err status pos => (status, none, pos)
      skipWs text >>= fun text =>
      rd text 0 >>= fun c =>
      let status := if status = .kOk ∧ c ≠ 0 then .kExpectedEndOfFile else status
      if status ≠ .kOk then
        let (line, column) := scanBack (start.take (start.length - text.length)).reverse 1 1
        .ok ⟨status, root, line, column⟩
      else .ok ⟨status, root, 0, 0⟩

/-- `StructuredData::Parse(const Array<char>&)`, C4Json.cpp:1786-1808. -/
def parseBuffer {D : Type} (N : NumOps D) (d : Nat) (root : Option (Value D)) (buf : Bytes) :
    Out (ParseResult × Option (Value D)) :=
  if buf.length < 3 then .ok (⟨.kTextBufferContentsInvalid, 0, 0⟩, root)
  else
    rd buf (buf.length - 1) >>= fun last =>
    if last ≠ 0 then .ok (⟨.kUnterminatedTextBuffer, 0, 0⟩, root)
    else
      parseRoot N (parseFuel buf) d buf >>= fun r =>
      .ok (⟨r.status, r.errorLine, r.errorColumn⟩, r.root)

/-- `StructuredData::Parse(const char*)`, C4Json.cpp:1744-1784, see `File.parseFile`. -/
def parseFile {D : Type} (N : NumOps D) (d : Nat) (os : File.Sched) (n : Nat) (root : Option (Value D))
    (file : Option Bytes) (stat : Nat) : Out (ParseResult × Option (Value D)) :=
  match file with
  | none => .ok (⟨.KFileOpenError, 0, 0⟩, root)
  | some content =>
      if stat > File.maxFileSize then .ok (⟨.KFileTooLarge, 0, 0⟩, root)
      else
        File.readFile os content n (List.replicate (stat + 1) 0) stat >>= fun (okay, buffer) =>
        if okay = false then .ok (⟨.KFileReadError, 0, 0⟩, root)
        else parseBuffer N d root buffer

end Verif.Stack
