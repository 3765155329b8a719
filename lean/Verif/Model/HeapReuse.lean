import Verif.Model.Heap

/-!
# Value objects when data are serialized onto existing values (Code/Json4C4/C4Json.h)

`Verif.Model.Heap` follows the objects of `Parse` and `SerializeFrom`. This file adds the calls `Serialize(value, data)` and
`Serialize(value, name, data)` on a value inside the document.

Simplifications, besides those of `Verif.Model.Heap`: the kinds of scalars are not distinguished, so that a number serialized onto a string
value changes nothing here where the code returns `kInvalidValueType`; `insertionOrder` is not followed.
-/

namespace Verif.Own

open Verif Verif.Text Verif.Number Verif.Parser

variable {D : Type}

/-- The calls on a value: data, a `std::vector`, named data. -/
inductive Onto where
  | data (d : Dat)
  | vector (l : DatL)
  | named (name : Bytes) (d : Dat)

/-- The loop of `Serialize(value, const std::vector<T>&)`, C4Json.h:1223-1254: an element is appended before it is serialized and stays
there. -/
def serVectorH (M : Mem) : DatL → OList D → Heap → Out (Status × OList D × Heap)
  | .nil, acc, h => .ok (.kOk, acc, h)
  | .cons d l, acc, h =>
      match newValue M .value h with
      | (none, h) => .ok (.kException, acc, h)
      | (some b, h) =>
          serialH M d b h >>= fun (st, v, h) =>
          if st ≠ .kOk then .ok (st, acc.snoc v, h) else serVectorH M l (acc.snoc v) h

/-- `SerializeProto` (C4Json.h:1476-1487) over named fields with `Serialize(value, name, data)` on an array, C4Json.h:716-740: the name is
ignored; the element is destroyed if there is no place for it, and stays if it cannot be serialized. -/
def serItemsH (M : Mem) : DatM → OList D → Heap → Out (Status × OList D × Heap)
  | .nil, acc, h => .ok (.kOk, acc, h)
  | .cons _ d l, acc, h =>
      match newValue M .value h with
      | (none, h) => .ok (.kException, acc, h)
      | (some b, h) =>
          match request M .slot h with
          | (false, h) => free b h >>= fun h => .ok (.kException, acc, h)
          | (true, h) =>
              serialH M d b h >>= fun (st, v, h) =>
              if st ≠ .kOk then .ok (st, acc.snoc v, h) else serItemsH M l (acc.snoc v) h

/-- A call on a value: scalars C4Json.h:778-802, `Array` 887-939 with `PurgePointerArray` 459-468, `ObjectMap` 1059-1101 and
`std::map` 1335-1378 with `RemoveAllMapElements`, which forgets the members and does not destroy them, `std::vector` 1207-1258, named
data 683-743. -/
def ontoH (M : Mem) : Onto → OVal D → Heap → Out (Status × OVal D × Heap)
  | .data .plain, .leaf a _, h => .ok (.kOk, .leaf a .null, h)
  | .data .text, .leaf a x, h =>
      match request M .text h with
      | (false, h) => .ok (.kException, .leaf a x, h)
      | (true, h) => .ok (.kOk, .leaf a .null, h)
  | .data (.array l), .arr a old, h =>
      freeAll old.reach h >>= fun h =>
      match request M .slot h with
      | (false, h) => .ok (.kException, .arr a .nil, h)
      | (true, h) => serElemsH M l .nil h >>= fun (st, acc, h) => .ok (st, .arr a acc, h)
  | .vector l, .arr a old, h =>
      freeAll old.reach h >>= fun h =>
      match request M .slot h with
      | (false, h) => .ok (.kException, .arr a .nil, h)
      | (true, h) => serVectorH M l .nil h >>= fun (st, acc, h) => .ok (st, .arr a acc, h)
  | .data (.map m), .obj a _, h => serMapH M m .nil h >>= fun (st, acc, h) => .ok (st, .obj a acc, h)
  | .data (.fields m), .obj a old, h => serFieldsH M m old h >>= fun (st, acc, h) => .ok (st, .obj a acc, h)
  | .data (.fields m), .arr a old, h => serItemsH M m old h >>= fun (st, acc, h) => .ok (st, .arr a acc, h)
  | .named name d, .obj a old, h =>
      serFieldsH M (.cons name d .nil) old h >>= fun (st, acc, h) => .ok (st, .obj a acc, h)
  | .named name d, .arr a old, h =>
      serItemsH M (.cons name d .nil) old h >>= fun (st, acc, h) => .ok (st, .arr a acc, h)
  | _, v, h => .ok (.kInvalidValueType, v, h)

/-- The element at a position. -/
def OList.nth : OList D → Nat → Option (OVal D)
  | .nil, _ => none
  | .cons v _, 0 => some v
  | .cons _ l, i + 1 => l.nth i

/-- The element at a position replaced. -/
def OList.put : OList D → Nat → OVal D → OList D
  | .nil, _, _ => .nil
  | .cons _ l, 0, x => .cons x l
  | .cons v l, i + 1, x => .cons v (l.put i x)

/-- The member that was offered as number `i`, if it is in the map. -/
def OMem.nth : OMem D → Nat → Option (OVal D)
  | .nil, _ => none
  | .cons _ b v _, 0 => if b then some v else none
  | .cons _ _ _ m, i + 1 => m.nth i

/-- That member replaced. -/
def OMem.put : OMem D → Nat → OVal D → OMem D
  | .nil, _, _ => .nil
  | .cons k b _ m, 0, x => .cons k b x m
  | .cons k b v m, i + 1, x => .cons k b v (m.put i x)

/-- A call on the value reached by a path of positions. -/
def ontoAtH (M : Mem) (o : Onto) : List Nat → OVal D → Heap → Out (Status × OVal D × Heap)
  | [], v, h => ontoH M o v h
  | i :: p, .arr a l, h =>
      match l.nth i with
      | none => .ok (.kNameNotPresent, .arr a l, h)
      | some x => ontoAtH M o p x h >>= fun (st, x, h) => .ok (st, .arr a (l.put i x), h)
  | i :: p, .obj a m, h =>
      match m.nth i with
      | none => .ok (.kNameNotPresent, .obj a m, h)
      | some x => ontoAtH M o p x h >>= fun (st, x, h) => .ok (st, .obj a (m.put i x), h)
  | _ :: _, v, h => .ok (.kNameNotPresent, v, h)

/-- The calls of a history: those of `Sd.call`, and `Serialize` on a value inside the document. -/
inductive DocCall where
  | sd (c : SdCall)
  | onto (path : List Nat) (o : Onto)

/-- One call. Without a document there is no value to serialize onto. -/
def Sd.callOn (M : Mem) (N : NumOps D) (s : Sd D) : DocCall → Out (Sd D)
  | .sd c => s.call M N c
  | .onto path o =>
      match s.root with
      | none => .ok s
      | some v => ontoAtH M o path v s.heap >>= fun (_, v, h) => .ok ⟨some v, h⟩

/-- A history. -/
def Sd.runOn (M : Mem) (N : NumOps D) : List DocCall → Sd D → Out (Sd D)
  | [], s => .ok s
  | c :: cs, s => s.callOn M N c >>= fun s => Sd.runOn M N cs s

end Verif.Own
