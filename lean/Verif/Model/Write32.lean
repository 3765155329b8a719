import Verif.Model.Write
import Verif.Model.Parser32

/-!
# Model of the `Write` functions with 32-bit integers

The functions of `Verif.Model.Write` once more, with the number of elements and the capacity of `indentationCharArray` as `int32`.
Memory is granted. The other integers are the indices of elements and members, which are below the `int32` number of elements.
-/

namespace Verif.Write32

open Verif Verif.Map Verif.Text Verif.Number Verif.Parser Verif.Write

variable {D : Type}

/-- `indentationCharArray`: its elements and `reservedCount`. -/
structure Ind where
  text : Bytes
  reserved : Nat
  deriving DecidableEq, Repr

/-- `Array<char> indentCharArray`, C4Json.cpp:1818. -/
def Ind.new : Ind := ⟨[], 0⟩

/-- `ExpandArray`, C4Json.cpp:603-609, with `AppendArrayElement`, TSArray.h:889-904. -/
def expand (c : Byte) : Nat → Ind → Out Ind
  | 0, s => .ok s
  | n + 1, s => Parser32.append s.text.length s.reserved >>= fun r => expand c n ⟨s.text ++ [c], r⟩

/-- Result of `Value::Write`: status, the chunks given to the file, and `indentationCharArray`. -/
structure Res where
  status : Status
  chunks : List Bytes
  ind : Ind
  deriving DecidableEq, Repr

/-- The loop of `ArrayValue::Write`, C4Json.cpp:1445-1458. -/
def writeElems (w : Ind → Value D → Out Res) : List (Value D) → Ind → Out Res
  | [], s => .ok ⟨.kOk, [], s⟩
  | v :: vs, s =>
      w s v >>= fun r =>
      if r.status ≠ .kOk then .ok ⟨r.status, s.text :: r.chunks, r.ind⟩
      else
        writeElems w vs r.ind >>= fun r' =>
        .ok ⟨r'.status, s.text :: (r.chunks ++ (if vs.isEmpty then [] else [0x2C]) :: [0x0A] :: r'.chunks), r'.ind⟩

/-- The loop of `ObjectValue::Write`, C4Json.cpp:1662-1683. -/
def writeMembers (w : Ind → Value D → Out Res) (map : Tree Bytes (Value D)) : List Bytes → Ind → Out Res
  | [], s => .ok ⟨.kOk, [], s⟩
  | name :: names, s =>
      match findMapElement nameLt name map with
      | none => .ok ⟨.kMissingObjectElement, [], s⟩
      | some (key, v) =>
          w s v >>= fun r =>
          if r.status ≠ .kOk then
            .ok ⟨r.status, s.text :: [0x22] :: cText key :: [0x22, 0x20, 0x3A, 0x20] :: r.chunks, r.ind⟩
          else
            writeMembers w map names r.ind >>= fun r' =>
            .ok ⟨r'.status, s.text :: [0x22] :: cText key :: [0x22, 0x20, 0x3A, 0x20] ::
              (r.chunks ++ (if names.isEmpty then [] else [0x2C]) :: [0x0A] :: r'.chunks), r'.ind⟩

/-- The end of `ArrayValue::Write` (1460-1465) and `ObjectValue::Write` (1685-1690). -/
def finish (il : Nat) (opening closing : Byte) (r : Res) : Res :=
  if r.status ≠ .kOk then ⟨r.status, [opening, 0x0A] :: r.chunks, r.ind⟩
  else
    let s := { r.ind with text := r.ind.text.take (r.ind.text.length - il) }
    ⟨.kOk, [opening, 0x0A] :: (r.chunks ++ [s.text, [closing]]), s⟩

/-- `Write` of the value classes, C4Json.cpp:1154-1159, 1211-1230, 1273-1286, 1320-1326, 1440-1466, 1656-1691. -/
def writeValue (N : NumOps D) (il : Nat) (ic : Byte) : Nat → Ind → Value D → Out Res
  | 0, _, _ => .fuel
  | n + 1, s, v =>
      match v with
      | .str x => .ok ⟨.kOk, [[0x22], cText x, [0x22]], s⟩
      | .num x => .ok ⟨.kOk, [cText (N.fmt x)], s⟩
      | .bool true => .ok ⟨.kOk, [[0x74, 0x72, 0x75, 0x65]], s⟩
      | .bool false => .ok ⟨.kOk, [[0x66, 0x61, 0x6C, 0x73, 0x65]], s⟩
      | .null => .ok ⟨.kOk, [[0x6E, 0x75, 0x6C, 0x6C]], s⟩
      | .arr data =>
          expand ic il s >>= fun s =>
          writeElems (writeValue N il ic n) data s >>= fun r => .ok (finish il 0x5B 0x5D r)
      | .obj map order =>
          expand ic il s >>= fun s =>
          writeMembers (writeValue N il ic n) map order s >>= fun r => .ok (finish il 0x7B 0x7D r)

end Verif.Write32
