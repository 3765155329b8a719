import Verif.Model.Document

/-!
# Model of the `Write` functions of the value classes

The emitted data is a list of chunks, one for every call of `File::WriteFile` in the order of the calls.
`indentationCharArray` is passed by reference in the code; here it is an argument and part of the result.
-/

namespace Verif.Write

open Verif Verif.Map Verif.Text Verif.Number Verif.Parser

variable {D : Type}

/-- Result of `Value::Write`: status, the chunks given to the file, and `indentationCharArray`. -/
structure WRes where
  status : Status
  chunks : List Bytes
  indent : Bytes
  deriving DecidableEq, Repr

/-- The bytes `file << text` writes for a `const char*` (C4Json.cpp:485-490): up to the first NUL. -/
def cText : Bytes → Bytes
  | [] => []
  | c :: s => if c = 0 then [] else c :: cText s

/-- The loop of `ArrayValue::Write`, C4Json.cpp:1445-1458. `w` writes one element. -/
def writeElems (w : Bytes → Value D → Out WRes) : List (Value D) → Bytes → Out WRes
  | [], ind => .ok ⟨.kOk, [], ind⟩
  | v :: vs, ind =>
      w ind v >>= fun r =>
      if r.status ≠ .kOk then .ok ⟨r.status, ind :: r.chunks, r.indent⟩
      else
        writeElems w vs r.indent >>= fun r' =>
        .ok ⟨r'.status,
          ind :: (r.chunks ++ (if vs.isEmpty then [] else [0x2C]) :: [0x0A] :: r'.chunks), r'.indent⟩

/-- The loop of `ObjectValue::Write`, C4Json.cpp:1662-1683, over `insertionOrder`. The name written is the
`name` of the element found, which is its key. -/
def writeMembers (w : Bytes → Value D → Out WRes) (map : Tree Bytes (Value D)) :
    List Bytes → Bytes → Out WRes
  | [], ind => .ok ⟨.kOk, [], ind⟩
  | name :: names, ind =>
      match findMapElement nameLt name map with
      | none => .ok ⟨.kMissingObjectElement, [], ind⟩
      | some (key, v) =>
          w ind v >>= fun r =>
          if r.status ≠ .kOk then
            .ok ⟨r.status, ind :: [0x22] :: cText key :: [0x22, 0x20, 0x3A, 0x20] :: r.chunks, r.indent⟩
          else
            writeMembers w map names r.indent >>= fun r' =>
            .ok ⟨r'.status,
              ind :: [0x22] :: cText key :: [0x22, 0x20, 0x3A, 0x20] ::
                (r.chunks ++ (if names.isEmpty then [] else [0x2C]) :: [0x0A] :: r'.chunks), r'.indent⟩

/-- `Write` of the value classes: `StringValue` C4Json.cpp:1154-1159, `NumberValue` 1211-1230,
`BoolValue` 1273-1286, `NullValue` 1320-1326, `ArrayValue` 1440-1466, `ObjectValue` 1656-1691.
The fuel bounds the nesting depth. -/
def writeValue (N : NumOps D) (indentLength : Nat) (indentChar : Byte) :
    Nat → Bytes → Value D → Out WRes
  | 0, _, _ => .fuel
  | n + 1, ind, v =>
      match v with
      | .str s => .ok ⟨.kOk, [[0x22], cText s, [0x22]], ind⟩
      | .num x => .ok ⟨.kOk, [cText (N.fmt x)], ind⟩
      | .bool true => .ok ⟨.kOk, [[0x74, 0x72, 0x75, 0x65]], ind⟩
      | .bool false => .ok ⟨.kOk, [[0x66, 0x61, 0x6C, 0x73, 0x65]], ind⟩
      | .null => .ok ⟨.kOk, [[0x6E, 0x75, 0x6C, 0x6C]], ind⟩
      | .arr data =>
          let ind := ind ++ List.replicate indentLength indentChar
          writeElems (writeValue N indentLength indentChar n) data ind >>= fun r =>
          if r.status ≠ .kOk then .ok ⟨r.status, [0x5B, 0x0A] :: r.chunks, r.indent⟩
          else
            let ind := r.indent.take (r.indent.length - indentLength)
            .ok ⟨.kOk, [0x5B, 0x0A] :: (r.chunks ++ [ind, [0x5D]]), ind⟩
      | .obj map order =>
          let ind := ind ++ List.replicate indentLength indentChar
          writeMembers (writeValue N indentLength indentChar n) map order ind >>= fun r =>
          if r.status ≠ .kOk then .ok ⟨r.status, [0x7B, 0x0A] :: r.chunks, r.indent⟩
          else
            let ind := r.indent.take (r.indent.length - indentLength)
            .ok ⟨.kOk, [0x7B, 0x0A] :: (r.chunks ++ [ind, [0x7D]]), ind⟩

end Verif.Write
