import Verif.Model.Write
import Verif.Model.ParserCost

/-!
# Model of the `Write` functions with their number of steps

The functions of `Model/Write` once more, counted as in `Model/ParserCost`. For each call of `WriteFile` there are two steps for every byte, one of
`GetTextLength` (also where the length is known) and one for the copy made by the operating system, and two more. `snprintf` takes one step for each byte.
The indentation has a capacity, which grows as in TSArray.h.
-/

namespace Verif.WriteCost

open Verif Verif.Text Verif.Map Verif.Number Verif.Parser Verif.Write Verif.ParserCost

variable {D : Type}

/-- `WriteFile` and `operator<<`, C4Json.cpp:421-490, for one chunk. -/
def put (chunk : Bytes) : T Unit := steps (2 * chunk.length + 2)

/-- `ExpandArray`, C4Json.cpp:603-609: the indentation and its capacity. -/
def expandArray (c : Byte) : Nat → Bytes → Nat → T (Bytes × Nat)
  | 0, ind, reserved => pure (ind, reserved)
  | n + 1, ind, reserved => append ind.length reserved >>= fun reserved => expandArray c n (ind ++ [c]) reserved

/-- `FindMapElement(key)`, TSMap.h:754-775. -/
def findMapElement {α : Type} (k : Bytes) : Tree Bytes α → T (Option (Bytes × α))
  | .nil => pure none
  | .node _ l nk nv r =>
      steps 1 >>= fun _ =>
      ParserCost.nameLt k nk >>= fun less =>
      if less then findMapElement k l
      else
        ParserCost.nameLt nk k >>= fun more =>
        if more then findMapElement k r else pure (some (nk, nv))

/-- The loop of `ArrayValue::Write`, C4Json.cpp:1445-1458. -/
def writeElems (w : Bytes → Nat → Value D → T (WRes × Nat)) : List (Value D) → Bytes → Nat → T (WRes × Nat)
  | [], ind, reserved => pure (⟨.kOk, [], ind⟩, reserved)
  | v :: vs, ind, reserved =>
      put ind >>= fun _ =>
      w ind reserved v >>= fun (r, reserved) =>
      if r.status ≠ .kOk then pure (⟨r.status, ind :: r.chunks, r.indent⟩, reserved)
      else
        put (if vs.isEmpty then [] else [0x2C]) >>= fun _ =>
        put [0x0A] >>= fun _ =>
        writeElems w vs r.indent reserved >>= fun (r', reserved) =>
        pure (⟨r'.status, ind :: (r.chunks ++ (if vs.isEmpty then [] else [0x2C]) :: [0x0A] :: r'.chunks), r'.indent⟩, reserved)

/-- The loop of `ObjectValue::Write`, C4Json.cpp:1662-1683. -/
def writeMembers (w : Bytes → Nat → Value D → T (WRes × Nat)) (map : Tree Bytes (Value D)) :
    List Bytes → Bytes → Nat → T (WRes × Nat)
  | [], ind, reserved => pure (⟨.kOk, [], ind⟩, reserved)
  | name :: names, ind, reserved =>
      findMapElement name map >>= fun found =>
      match found with
      | none => pure (⟨.kMissingObjectElement, [], ind⟩, reserved)
      | some (key, v) =>
          put ind >>= fun _ =>
          put [0x22] >>= fun _ =>
          put (cText key) >>= fun _ =>
          put [0x22, 0x20, 0x3A, 0x20] >>= fun _ =>
          w ind reserved v >>= fun (r, reserved) =>
          if r.status ≠ .kOk then
            pure (⟨r.status, ind :: [0x22] :: cText key :: [0x22, 0x20, 0x3A, 0x20] :: r.chunks, r.indent⟩, reserved)
          else
            put (if names.isEmpty then [] else [0x2C]) >>= fun _ =>
            put [0x0A] >>= fun _ =>
            writeMembers w map names r.indent reserved >>= fun (r', reserved) =>
            pure (⟨r'.status,
              ind :: [0x22] :: cText key :: [0x22, 0x20, 0x3A, 0x20] ::
                (r.chunks ++ (if names.isEmpty then [] else [0x2C]) :: [0x0A] :: r'.chunks), r'.indent⟩, reserved)

/-- `Write` of the value classes (as in `Model/Write`), with the capacity of the indentation. `SetArrayElementCount` destroys the characters one by
one, TSArray.h:819-844. -/
def writeValue (N : NumOps D) (indentLength : Nat) (indentChar : Byte) : Nat → Bytes → Nat → Value D → T (WRes × Nat)
  | 0, _, _, _ => T.of 0 .fuel
  | n + 1, ind, reserved, v =>
      match v with
      | .str s => put [0x22] >>= fun _ => put (cText s) >>= fun _ => put [0x22] >>= fun _ => pure (⟨.kOk, [[0x22], cText s, [0x22]], ind⟩, reserved)
      | .num x => steps (N.fmt x).length >>= fun _ => put (cText (N.fmt x)) >>= fun _ => pure (⟨.kOk, [cText (N.fmt x)], ind⟩, reserved)
      | .bool true => put [0x74, 0x72, 0x75, 0x65] >>= fun _ => pure (⟨.kOk, [[0x74, 0x72, 0x75, 0x65]], ind⟩, reserved)
      | .bool false => put [0x66, 0x61, 0x6C, 0x73, 0x65] >>= fun _ => pure (⟨.kOk, [[0x66, 0x61, 0x6C, 0x73, 0x65]], ind⟩, reserved)
      | .null => put [0x6E, 0x75, 0x6C, 0x6C] >>= fun _ => pure (⟨.kOk, [[0x6E, 0x75, 0x6C, 0x6C]], ind⟩, reserved)
      | .arr data =>
          put [0x5B, 0x0A] >>= fun _ =>
          expandArray indentChar indentLength ind reserved >>= fun (ind, reserved) =>
          writeElems (writeValue N indentLength indentChar n) data ind reserved >>= fun (r, reserved) =>
          if r.status ≠ .kOk then pure (⟨r.status, [0x5B, 0x0A] :: r.chunks, r.indent⟩, reserved)
          else
            let ind := r.indent.take (r.indent.length - indentLength)
            steps (indentLength + 1) >>= fun _ =>
            put ind >>= fun _ =>
            put [0x5D] >>= fun _ =>
            pure (⟨.kOk, [0x5B, 0x0A] :: (r.chunks ++ [ind, [0x5D]]), ind⟩, reserved)
      | .obj map order =>
          put [0x7B, 0x0A] >>= fun _ =>
          expandArray indentChar indentLength ind reserved >>= fun (ind, reserved) =>
          writeMembers (writeValue N indentLength indentChar n) map order ind reserved >>= fun (r, reserved) =>
          if r.status ≠ .kOk then pure (⟨r.status, [0x7B, 0x0A] :: r.chunks, r.indent⟩, reserved)
          else
            let ind := r.indent.take (r.indent.length - indentLength)
            steps (indentLength + 1) >>= fun _ =>
            put ind >>= fun _ =>
            put [0x7D] >>= fun _ =>
            pure (⟨.kOk, [0x7B, 0x0A] :: (r.chunks ++ [ind, [0x7D]]), ind⟩, reserved)

end Verif.WriteCost
