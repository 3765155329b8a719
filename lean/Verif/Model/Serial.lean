import Verif.Model.Write
import Verif.Lemmas.MapIter

/-!
# Model of the serialization framework (Code/Json4C4/C4Json.h)

`Ty` is the universe of data types the templates accept: scalars, `Array<T>`, `ObjectMap<T>`, `std::vector<T>`,
`std::map<std::string, T>` and user types with a field list (`DEFINE_JSON4C4_FUNCTIONS`,
`DEFINE_JSON4C4_MEMBER_FUNCTIONS`, C4Json.h:1605-1631). The universe is larger than what compiles (for example
`Array<ObjectMap<T>>` does not, because maps cannot be copied).

Simplifications:
* allocation succeeds, so `MayThrow` (C4Json.h:173) returns what its argument returns;
* `ObjectMap<T>` (a `Terathon::Map`) and `std::map` data are represented by the list of their entries in the order of
  the keys; C35 and C39 justify this for `Terathon::Map`. Iterating over an `ObjectValue` visits `toList`
  (`Map.forward_eq`);
* overload resolution is not modelled; user types with member functions take the same path where they compile;
* a default-initialised `T temp;` is a parameter `dflt`.
-/

namespace Verif.Serial

open Verif Verif.Map Verif.Text Verif.Parser Verif.Write

variable {D : Type}

mutual
/-- Data types. `id` distinguishes user types with the same field list. -/
inductive Ty where
  | str
  | num
  | bool
  | null
  | stdString
  | arr (t : Ty)
  | map (t : Ty)
  | vec (t : Ty)
  | stdMap (t : Ty)
  | struct (id : Nat) (fs : Fields)
/-- The arguments of a field list after the value: data handled with the same value (`here`), a name and data, or
`optional`, a name and data. -/
inductive Fields where
  | nil
  | here (t : Ty) (rest : Fields)
  | named (opt : Bool) (name : Bytes) (t : Ty) (rest : Fields)
end

mutual
/-- Data of a type. -/
@[reducible] def Ty.Den (D : Type) : Ty → Type
  | .str => Bytes
  | .num => D
  | .bool => Bool
  | .null => Unit
  | .stdString => Bytes
  | .arr t => List (t.Den D)
  | .map t => List (Bytes × t.Den D)
  | .vec t => List (t.Den D)
  | .stdMap t => List (Bytes × t.Den D)
  | .struct _ fs => fs.Den D
/-- The data referred to by a field list. -/
@[reducible] def Fields.Den (D : Type) : Fields → Type
  | .nil => Unit
  | .here t rest => t.Den D × rest.Den D
  | .named _ _ t rest => t.Den D × rest.Den D
end

/-! ### Data maps -/

/-- Lookup in a map given by its entries. -/
def get {α : Type} (k : Bytes) : List (Bytes × α) → Option α
  | [] => none
  | (k', x) :: l => if k' = k then some x else get k l

/-- Insert or overwrite, keeping the order of keys. -/
def put {α : Type} (k : Bytes) (x : α) : List (Bytes × α) → List (Bytes × α)
  | [] => [(k, x)]
  | (k', y) :: l =>
      if k' = k then (k, x) :: l
      else if nameLt k k' then (k, x) :: (k', y) :: l
      else (k', y) :: put k x l

/-! ### Validate -/

/-- The loops of the `Validate` functions over elements: the first status that is not `kOk`
(C4Json.h:821-837, 957-972, 1136-1151, 1276-1291). -/
def firstBad {α : Type} (f : α → Status) : List α → Status
  | [] => .kOk
  | a :: l => if f a ≠ .kOk then f a else firstBad f l

/-- `Validate(value, name, data)`, C4Json.h:643-661. -/
def validateNamed (f : Value D → Status) (v : Value D) (name : Bytes) : Status :=
  match v with
  | .obj m _ =>
      match findMapElement nameLt name m with
      | none => .kNameNotPresent
      | some (_, x) => f x
  | _ => .kInvalidValueType

mutual
/-- `Validate(value, data)`: scalars C4Json.h:745-751, `Array` 804-841, `ObjectMap` 941-975, `std::string`
C4Json.cpp:1866-1877, `std::vector` C4Json.h:1120-1155, `std::map` 1260-1295, user types 1610-1613. -/
def validate : Ty → Value D → Status
  | .str, v => match v with | .str _ => .kOk | _ => .kInvalidValueType
  | .num, v => match v with | .num _ => .kOk | _ => .kInvalidValueType
  | .bool, v => match v with | .bool _ => .kOk | _ => .kInvalidValueType
  | .null, v => match v with | .null => .kOk | _ => .kInvalidValueType
  | .stdString, v => match v with | .str _ => .kOk | _ => .kInvalidValueType
  | .arr t, v => match v with | .arr l => firstBad (validate t) l | _ => .kInvalidValueType
  | .map t, v =>
      match v with | .obj m _ => firstBad (fun e => validate t e.2) (toList m) | _ => .kInvalidValueType
  | .vec t, v => match v with | .arr l => firstBad (validate t) l | _ => .kInvalidValueType
  | .stdMap t, v =>
      match v with | .obj m _ => firstBad (fun e => validate t e.2) (toList m) | _ => .kInvalidValueType
  | .struct _ fs, v => validateProto fs v
/-- `ValidateProto`, C4Json.h:1382-1424. -/
def validateProto : Fields → Value D → Status
  | .nil, _ => .kOk
  | .here t rest, v =>
      let status := validate t v
      if status ≠ .kOk then status else validateProto rest v
  | .named opt name t rest, v =>
      let status := validateNamed (validate t) v name
      if status ≠ .kOk ∧ (opt = false ∨ status ≠ .kNameNotPresent) then status else validateProto rest v
end

/-! ### Deserialize -/

/-- The loop of `Deserialize(value, Array<T>&)`, C4Json.h:861-881 (and of `std::vector`, 1180-1201); `data` are the elements
appended so far. -/
def desElems {α : Type} (f : Value D → Status × α) : List (Value D) → List α → Status × List α
  | [], data => (.kOk, data)
  | v :: l, data =>
      let r := f v
      if r.1 = .kOk then desElems f l (data ++ [r.2]) else (r.1, data)

/-- The loop of `Deserialize(value, ObjectMap<T>&)`, C4Json.h:994-1053. -/
def desMap {α : Type} (f : Value D → α → Status × α) (dflt : α) :
    List (Bytes × Value D) → List (Bytes × α) → Status × List (Bytes × α)
  | [], data => (.kOk, data)
  | (k, v) :: l, data =>
      match get k data with
      | some old =>
          let r := f v old
          if r.1 ≠ .kOk then (r.1, put k r.2 data) else desMap f dflt l (put k r.2 data)
      | none =>
          let r := f v dflt
          if r.1 ≠ .kOk then (r.1, data) else desMap f dflt l (put k r.2 data)

/-- The loop of `Deserialize(value, std::map<std::string, T>&)`, C4Json.h:1312-1329. The key is converted through
`const char*`. -/
def desStdMap {α : Type} (f : Value D → α → Status × α) (dflt : α) :
    List (Bytes × Value D) → List (Bytes × α) → Status × List (Bytes × α)
  | [], data => (.kOk, data)
  | (k, v) :: l, data =>
      let r := f v ((get (cText k) data).getD dflt)
      if r.1 ≠ .kOk then (r.1, put (cText k) r.2 data) else desStdMap f dflt l (put (cText k) r.2 data)

/-- `Deserialize(value, name, data)`, C4Json.h:663-681. -/
def desNamed {α : Type} (f : Value D → α → Status × α) (v : Value D) (name : Bytes) (old : α) : Status × α :=
  match v with
  | .obj m _ =>
      match findMapElement nameLt name m with
      | none => (.kNameNotPresent, old)
      | some (_, x) => f x old
  | _ => (.kInvalidValueType, old)

mutual
/-- `Deserialize(value, data)`: status and the new contents of `data`, which held `old`. Scalars C4Json.h:753-776, `Array`
843-885, `ObjectMap` 977-1057, `std::string` C4Json.cpp:1879-1896, `std::vector` C4Json.h:1157-1205, `std::map`
1297-1333, user types 1606-1609. -/
def deserialize (dflt : (t : Ty) → t.Den D) : (t : Ty) → Value D → t.Den D → Status × t.Den D
  | .str, v, old => match v with | .str s => (.kOk, s) | _ => (.kInvalidValueType, old)
  | .num, v, old => match v with | .num x => (.kOk, x) | _ => (.kInvalidValueType, old)
  | .bool, v, old => match v with | .bool b => (.kOk, b) | _ => (.kInvalidValueType, old)
  | .null, v, old => match v with | .null => (.kOk, ()) | _ => (.kInvalidValueType, old)
  | .stdString, v, old => match v with | .str s => (.kOk, cText s) | _ => (.kInvalidValueType, old)
  | .arr t, v, old =>
      match v with
      | .arr l => desElems (fun x => deserialize dflt t x (dflt t)) l []
      | _ => (.kInvalidValueType, old)
  | .map t, v, old =>
      match v with
      | .obj m _ => desMap (deserialize dflt t) (dflt t) (toList m) old
      | _ => (.kInvalidValueType, old)
  | .vec t, v, old =>
      match v with
      | .arr l => desElems (fun x => deserialize dflt t x (dflt t)) l []
      | _ => (.kInvalidValueType, old)
  | .stdMap t, v, old =>
      match v with
      | .obj m _ => desStdMap (deserialize dflt t) (dflt t) (toList m) old
      | _ => (.kInvalidValueType, old)
  | .struct _ fs, v, old => desProto dflt fs v old
/-- `DeserializeProto`, C4Json.h:1426-1468. -/
def desProto (dflt : (t : Ty) → t.Den D) : (fs : Fields) → Value D → fs.Den D → Status × fs.Den D
  | .nil, _, old => (.kOk, old)
  | .here t rest, v, old =>
      let r := deserialize dflt t v old.1
      if r.1 ≠ .kOk then (r.1, (r.2, old.2))
      else
        let r' := desProto dflt rest v old.2
        (r'.1, (r.2, r'.2))
  | .named opt name t rest, v, old =>
      let r := desNamed (deserialize dflt t) v name old.1
      if r.1 ≠ .kOk ∧ (opt = false ∨ r.1 ≠ .kNameNotPresent) then (r.1, (r.2, old.2))
      else
        let r' := desProto dflt rest v old.2
        (r'.1, (r.2, r'.2))
end

/-! ### Serialize -/

/-- `Detail::CreateValueFor(data)`, C4Json.h:521-546, C4Json.cpp:1331-1353, 1859-1863. There is no overload for
`std::vector`, so it gets an `ObjectValue`. `init` is the initial contents of a `NumberValue`
(zero, C4Json.cpp:1197); a `BoolValue` begins as `true` (1259). -/
def createValueFor (init : D) : Ty → Value D
  | .str => .str []
  | .num => .num init
  | .bool => .bool true
  | .null => .null
  | .stdString => .str []
  | .arr _ => .arr []
  | .map _ => .obj .nil []
  | .vec _ => .obj .nil []
  | .stdMap _ => .obj .nil []
  | .struct _ _ => .obj .nil []

/-- The loop of `Serialize(value, const Array<T>&)`, C4Json.h:903-935; `acc` are the elements appended so far. -/
def serElems {α : Type} (f : α → Out (Status × Value D)) : List α → List (Value D) → Out (Status × Value D)
  | [], acc => .ok (.kOk, .arr acc)
  | d :: ds, acc =>
      f d >>= fun r =>
      if r.1 ≠ .kOk then .ok (r.1, .arr acc) else serElems f ds (acc ++ [r.2])

/-- The loop of `Serialize(value, const std::vector<T>&)`, C4Json.h:1223-1254. -/
def serVector {α : Type} (f : α → Out (Status × Value D)) : List α → List (Value D) → Out (Status × Value D)
  | [], acc => .ok (.kOk, .arr acc)
  | d :: ds, acc =>
      f d >>= fun r =>
      if r.1 ≠ .kOk then .ok (r.1, .arr (acc ++ [r.2])) else serVector f ds (acc ++ [r.2])

/-- The loops of `Serialize(value, const ObjectMap<T>&)`, C4Json.h:1077-1098, and of `Serialize` for `std::map`,
1353-1374 (where `key` is `c_str()`). `InsertMapElement` is not accounted: `insertionOrder` stays as it was. -/
def serEntries {α : Type} (f : α → Out (Status × Value D)) (key : Bytes → Bytes) (order : List Bytes) :
    List (Bytes × α) → Tree Bytes (Value D) → Out (Status × Value D)
  | [], m => .ok (.kOk, .obj m order)
  | (k, d) :: ds, m =>
      f d >>= fun r =>
      if r.1 ≠ .kOk then .ok (r.1, .obj m order)
      else
        match insertMapElement nameLt m (key k) r.2 with
        | none => .ub
        | some (_, m') => serEntries f key order ds m'

/-- `Serialize(value, name, data)`, C4Json.h:683-743; `f` serializes the data to a fresh value. In the branch for objects
the status of that call is ignored (line 701). -/
def serNamed (f : Out (Status × Value D)) (v : Value D) (name : Bytes) : Out (Status × Value D) :=
  match v with
  | .obj m order =>
      f >>= fun r =>
      insertAccounted m order name r.2 >>= fun p =>
      .ok (.kOk, .obj p.1 p.2)
  | .arr l => f >>= fun r => .ok (r.1, .arr (l ++ [r.2]))
  | _ => .ok (.kInvalidValueType, v)

mutual
/-- `Serialize(value, data)`: status and the new contents of `value`. Scalars C4Json.h:778-802, `Array` 887-939, `ObjectMap`
1059-1101, `std::string` C4Json.cpp:1898-1915, `std::vector` C4Json.h:1207-1258, `std::map` 1335-1378, user types
1614-1617. -/
def serialize (init : D) : (t : Ty) → t.Den D → Value D → Out (Status × Value D)
  | .str, d, v => match v with | .str _ => .ok (.kOk, .str d) | _ => .ok (.kInvalidValueType, v)
  | .num, d, v => match v with | .num _ => .ok (.kOk, .num d) | _ => .ok (.kInvalidValueType, v)
  | .bool, d, v => match v with | .bool _ => .ok (.kOk, .bool d) | _ => .ok (.kInvalidValueType, v)
  | .null, _, v => match v with | .null => .ok (.kOk, .null) | _ => .ok (.kInvalidValueType, v)
  | .stdString, d, v => match v with | .str _ => .ok (.kOk, .str (cText d)) | _ => .ok (.kInvalidValueType, v)
  | .arr t, d, v =>
      match v with
      | .arr _ => serElems (fun x => serialize init t x (createValueFor init t)) d []
      | _ => .ok (.kInvalidValueType, v)
  | .map t, d, v =>
      match v with
      | .obj _ order => serEntries (fun x => serialize init t x (createValueFor init t)) id order d .nil
      | _ => .ok (.kInvalidValueType, v)
  | .vec t, d, v =>
      match v with
      | .arr _ => serVector (fun x => serialize init t x (createValueFor init t)) d []
      | _ => .ok (.kInvalidValueType, v)
  | .stdMap t, d, v =>
      match v with
      | .obj _ order => serEntries (fun x => serialize init t x (createValueFor init t)) cText order d .nil
      | _ => .ok (.kInvalidValueType, v)
  | .struct _ fs, d, v => serProto init fs d v
/-- `SerializeProto`, C4Json.h:1470-1512. -/
def serProto (init : D) : (fs : Fields) → fs.Den D → Value D → Out (Status × Value D)
  | .nil, _, v => .ok (.kOk, v)
  | .here t rest, d, v =>
      serialize init t d.1 v >>= fun r =>
      if r.1 ≠ .kOk then .ok r else serProto init rest d.2 r.2
  | .named _ name t rest, d, v =>
      serNamed (serialize init t d.1 (createValueFor init t)) v name >>= fun r =>
      if r.1 ≠ .kOk then .ok r else serProto init rest d.2 r.2
end

/-! ### Entry points -/

/-- `StructuredData::SerializeFrom(data)`, C4Json.h:589-621: status and the new root. -/
def serializeFrom (init : D) (t : Ty) (d : t.Den D) : Out (Status × Value D) :=
  serialize init t d (createValueFor init t)

mutual
/-- Does `Validate`/`Deserialize` for this type dereference its value argument? Only an empty field list does not. -/
def dereferences : Ty → Bool
  | .struct _ fs => dereferencesL fs
  | _ => true
/-- The same for field lists. -/
def dereferencesL : Fields → Bool
  | .nil => false
  | .here t rest => dereferences t || dereferencesL rest
  | .named .. => true
end

/-- `StructuredData::DeserializeTo(data)`, C4Json.h:572-587. The root may be null. -/
def deserializeTo (dflt : (t : Ty) → t.Den D) (root : Option (Value D)) (t : Ty) (old : t.Den D) :
    Out (Status × t.Den D) :=
  match root with
  | some v => .ok (deserialize dflt t v old)
  | none => if dereferences t then .ub else .ok (.kOk, old)

/-- `Validate(structuredData, data)`, C4Json.h:624-639. -/
def validateRoot (root : Option (Value D)) (t : Ty) : Out Status :=
  match root with
  | some v => .ok (validate t v)
  | none => if dereferences t then .ub else .ok .kOk

end Verif.Serial
