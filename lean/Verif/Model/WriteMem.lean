import Verif.Model.Write
import Verif.Model.Array

/-!
# Model of the `Write` functions with memory that runs out

The functions of `Verif.Model.Write` once more. The only memory they ask for is the storage of `indentationCharArray`, an
`Array<char>` that is local to `StructuredData::Write`. Whether the `k`-th request succeeds is said by `mem`. A failing request
throws `std::bad_alloc`, which no function between `Array::AppendArrayElement` and `StructuredData::Write` catches; the
latter is `noexcept`, so that `std::terminate` is called. This is the result `thrown`, with the chunks written so far.
-/

namespace Verif.WriteMem

open Verif Verif.Map Verif.Text Verif.Number Verif.Parser Verif.Write

variable {D : Type}

/-- `indentationCharArray`: its elements, `reservedCount`, and the number of requests for memory so far. -/
structure Ind where
  text : Bytes
  reserved : Nat
  calls : Nat
  deriving DecidableEq, Repr

/-- `Array<char> indentCharArray`, C4Json.cpp:1818. -/
def Ind.new : Ind := ⟨[], 0, 0⟩

/-- `Array<char>::AppendArrayElement`, TSArray.h:889-902 with `SetReservedCount`, 787-807; `none` if it throws. -/
def append (mem : Nat → Bool) (c : Byte) (s : Ind) : Option Ind :=
  if s.text.length + 1 > s.reserved then
    if mem s.calls then
      some ⟨s.text ++ [c], Arr.newReservedCount 0 s.reserved (s.text.length + 1), s.calls + 1⟩
    else none
  else some { s with text := s.text ++ [c] }

/-- `ExpandArray`, C4Json.cpp:603-609. -/
def expand (mem : Nat → Bool) (c : Byte) : Nat → Ind → Option Ind
  | 0, s => some s
  | n + 1, s => (append mem c s).bind (expand mem c n)

/-- How a call of `Write` ends. -/
inductive MRes where
  | done (status : Status) (chunks : List Bytes) (ind : Ind)
  | thrown (chunks : List Bytes)
  deriving DecidableEq, Repr

/-- The loop of `ArrayValue::Write`, C4Json.cpp:1445-1458. -/
def writeElems (w : Ind → Value D → Out MRes) : List (Value D) → Ind → Out MRes
  | [], s => .ok (.done .kOk [] s)
  | v :: vs, s =>
      w s v >>= fun r =>
      match r with
      | .thrown ch => .ok (.thrown (s.text :: ch))
      | .done status ch s' =>
          if status ≠ .kOk then .ok (.done status (s.text :: ch) s')
          else
            writeElems w vs s' >>= fun r' =>
            let before := s.text :: (ch ++ (if vs.isEmpty then [] else [0x2C]) :: [[0x0A]])
            match r' with
            | .thrown ch' => .ok (.thrown (before ++ ch'))
            | .done status ch' s' => .ok (.done status (before ++ ch') s')

/-- The loop of `ObjectValue::Write`, C4Json.cpp:1662-1683. -/
def writeMembers (w : Ind → Value D → Out MRes) (map : Tree Bytes (Value D)) : List Bytes → Ind → Out MRes
  | [], s => .ok (.done .kOk [] s)
  | name :: names, s =>
      match findMapElement nameLt name map with
      | none => .ok (.done .kMissingObjectElement [] s)
      | some (key, v) =>
          let head := [s.text, [0x22], cText key, [0x22, 0x20, 0x3A, 0x20]]
          w s v >>= fun r =>
          match r with
          | .thrown ch => .ok (.thrown (head ++ ch))
          | .done status ch s' =>
              if status ≠ .kOk then .ok (.done status (head ++ ch) s')
              else
                writeMembers w map names s' >>= fun r' =>
                let before := head ++ (ch ++ (if names.isEmpty then [] else [0x2C]) :: [[0x0A]])
                match r' with
                | .thrown ch' => .ok (.thrown (before ++ ch'))
                | .done status ch' s' => .ok (.done status (before ++ ch') s')

/-- The end of `ArrayValue::Write` (1460-1465) and `ObjectValue::Write` (1685-1690). `SetArrayElementCount` with a smaller number
asks for no memory. -/
def finish (il : Nat) (opening closing : Byte) : MRes → MRes
  | .thrown ch => .thrown ([opening, 0x0A] :: ch)
  | .done status ch s =>
      if status ≠ .kOk then .done status ([opening, 0x0A] :: ch) s
      else
        let s := { s with text := s.text.take (s.text.length - il) }
        .done .kOk ([opening, 0x0A] :: (ch ++ [s.text, [closing]])) s

/-- `Write` of the value classes, C4Json.cpp:1154-1159, 1211-1230, 1273-1286, 1320-1326, 1440-1466, 1656-1691. -/
def writeValue (mem : Nat → Bool) (N : NumOps D) (il : Nat) (ic : Byte) : Nat → Ind → Value D → Out MRes
  | 0, _, _ => .fuel
  | n + 1, s, v =>
      match v with
      | .str x => .ok (.done .kOk [[0x22], cText x, [0x22]] s)
      | .num x => .ok (.done .kOk [cText (N.fmt x)] s)
      | .bool true => .ok (.done .kOk [[0x74, 0x72, 0x75, 0x65]] s)
      | .bool false => .ok (.done .kOk [[0x66, 0x61, 0x6C, 0x73, 0x65]] s)
      | .null => .ok (.done .kOk [[0x6E, 0x75, 0x6C, 0x6C]] s)
      | .arr data =>
          match expand mem ic il s with
          | none => .ok (.thrown [[0x5B, 0x0A]])
          | some s => writeElems (writeValue mem N il ic n) data s >>= fun r => .ok (finish il 0x5B 0x5D r)
      | .obj map order =>
          match expand mem ic il s with
          | none => .ok (.thrown [[0x7B, 0x0A]])
          | some s => writeMembers (writeValue mem N il ic n) map order s >>= fun r => .ok (finish il 0x7B 0x7D r)

end Verif.WriteMem
