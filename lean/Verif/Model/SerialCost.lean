import Verif.Model.Serial
import Verif.Model.MapCost
import Verif.Model.WriteCost

/-!
# Model of the `Validate` functions with their number of steps

The functions of `Model/Serial` once more, counted as in `Model/ParserCost`: one step for each call of a function and each
round of a loop. The loop over the members of an object goes from position to position with the steps of `Model/MapCost`, and a name is searched
with the steps of `Model/WriteCost`, which include the comparison of names byte by byte.
-/

namespace Verif.SerialCost

open Verif Verif.Map Verif.Text Verif.Parser Verif.ParserCost Verif.Serial

variable {D : Type}

/-- The loops over the elements of an array, C4Json.h:821-837, 1136-1151. -/
def elements (f : Value D → T Status) : List (Value D) → T Status
  | [] => pure .kOk
  | v :: l =>
      steps 1 >>= fun _ =>
      f v >>= fun status =>
      if status ≠ .kOk then pure status else elements f l

/-- The loops over the members of an object from a position on, C4Json.h:957-972, 1276-1291; `operator++` is `GetNextMapElement`
(TSMap.h:270-300). -/
def members (f : Value D → T Status) : Nat → Option (Pos Bytes (Value D)) → T Status
  | _, none => pure .kOk
  | 0, some _ => T.of 0 .fuel
  | n + 1, some z =>
      f z.val >>= fun status =>
      if status ≠ .kOk then pure status
      else T.of (MapCost.nextPos z).2 (.ok (MapCost.nextPos z).1) >>= fun z' => members f n z'

/-- The whole loop. -/
def allMembers (f : Value D → T Status) (m : Tree Bytes (Value D)) : T Status :=
  T.of (MapCost.firstPos m []).2 (.ok (MapCost.firstPos m []).1) >>= fun z => members f (size m) z

/-- `Validate(value, name, data)`, C4Json.h:643-661. -/
def named (f : Value D → T Status) (v : Value D) (name : Bytes) : T Status :=
  steps 1 >>= fun _ =>
  match v with
  | .obj m _ =>
      WriteCost.findMapElement name m >>= fun found =>
      match found with
      | none => pure .kNameNotPresent
      | some (_, x) => f x
  | _ => pure .kInvalidValueType

mutual
/-- `Validate(value, data)`: scalars C4Json.h:745-751, `Array` 804-841, `ObjectMap` 941-975, `std::string`
C4Json.cpp:1866-1877, `std::vector` C4Json.h:1120-1155, `std::map` 1260-1295, user types 1610-1613. -/
def validate : Ty → Value D → T Status
  | .str, v => steps 1 >>= fun _ => match v with | .str _ => pure .kOk | _ => pure .kInvalidValueType
  | .num, v => steps 1 >>= fun _ => match v with | .num _ => pure .kOk | _ => pure .kInvalidValueType
  | .bool, v => steps 1 >>= fun _ => match v with | .bool _ => pure .kOk | _ => pure .kInvalidValueType
  | .null, v => steps 1 >>= fun _ => match v with | .null => pure .kOk | _ => pure .kInvalidValueType
  | .stdString, v => steps 1 >>= fun _ => match v with | .str _ => pure .kOk | _ => pure .kInvalidValueType
  | .arr t, v => steps 1 >>= fun _ => match v with | .arr l => elements (validate t) l | _ => pure .kInvalidValueType
  | .map t, v =>
      steps 1 >>= fun _ => match v with | .obj m _ => allMembers (validate t) m | _ => pure .kInvalidValueType
  | .vec t, v => steps 1 >>= fun _ => match v with | .arr l => elements (validate t) l | _ => pure .kInvalidValueType
  | .stdMap t, v =>
      steps 1 >>= fun _ => match v with | .obj m _ => allMembers (validate t) m | _ => pure .kInvalidValueType
  | .struct _ fs, v => steps 1 >>= fun _ => validateProto fs v
/-- `ValidateProto`, C4Json.h:1382-1424. -/
def validateProto : Fields → Value D → T Status
  | .nil, _ => steps 1 >>= fun _ => pure .kOk
  | .here t rest, v =>
      steps 1 >>= fun _ =>
      validate t v >>= fun status =>
      if status ≠ .kOk then pure status else validateProto rest v
  | .named opt name t rest, v =>
      steps 1 >>= fun _ =>
      named (validate t) v name >>= fun status =>
      if status ≠ .kOk ∧ (opt = false ∨ status ≠ .kNameNotPresent) then pure status else validateProto rest v
end

end Verif.SerialCost
