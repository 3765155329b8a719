import Verif.Model.Document

/-!
# Model of the ownership of value objects

The parser of `Verif.Model.Parser` once more, now with the value objects it creates and destroys and
with requests for memory that may fail. Value objects have addresses; addresses are never reused, so a
second `delete` of the same object, or a use after it, is visible.

Simplifications: the memory of strings and arrays is not tracked, only whether a request for it
succeeds; where the code makes a request only if the present capacity does not suffice, the model always
makes one (so it admits more failures than the code). The map of an object is represented by its members in
the order of the text with a flag saying whether `InsertMapElement` took the member, which is the case
exactly if the name is new (proved: `OVal.Stands` in `C60_document_partial`).
-/

namespace Verif.Own

open Verif Verif.Text Verif.Number Verif.Parser

/-- Kinds of requests: a value object created by `ParseValue` or by a `Serialize` function, the root object
created by `SerializeFrom`, the contents of a string, and a place in an array or a copy of a name. -/
inductive Req where
  | value
  | root
  | text
  | slot
  deriving DecidableEq, Repr

/-- Which requests succeed, by kind and number of the request. -/
abbrev Mem := Req → Nat → Bool

/-- The value objects alive, the next address, and the number of requests made. `refused` counts the calls of
`InsertMapElement` that returned false. -/
structure Heap where
  live : List Nat
  next : Nat
  tick : Nat
  refused : Nat

/-- The heap before the first call. -/
def Heap.start : Heap := ⟨[], 0, 0, 0⟩

/-- A request. -/
def request (M : Mem) (r : Req) (h : Heap) : Bool × Heap :=
  (M r h.tick, { h with tick := h.tick + 1 })

/-- `new T` inside `MayThrow`; `none` if it throws. -/
def newValue (M : Mem) (r : Req) (h : Heap) : Option Nat × Heap :=
  if M r h.tick then
    (some h.next, { h with live := h.next :: h.live, next := h.next + 1, tick := h.tick + 1 })
  else (none, { h with tick := h.tick + 1 })

/-- Destruction of one object: undefined if it is not alive. -/
def free (a : Nat) (h : Heap) : Out Heap :=
  if a ∈ h.live then .ok { h with live := h.live.filter (· ≠ a) } else .ub

/-- Destruction of several objects. -/
def freeAll : List Nat → Heap → Out Heap
  | [], h => .ok h
  | a :: l, h => free a h >>= fun h => freeAll l h

mutual
/-- A value object with its address. -/
inductive OVal (D : Type) where
  | leaf (a : Nat) (v : Value D)
  | arr (a : Nat) (l : OList D)
  | obj (a : Nat) (m : OMem D)
/-- The elements of an array. -/
inductive OList (D : Type) where
  | nil
  | cons (v : OVal D) (l : OList D)
/-- The members offered to an object, with the result of `InsertMapElement`. -/
inductive OMem (D : Type) where
  | nil
  | cons (name : Bytes) (stored : Bool) (v : OVal D) (m : OMem D)
end

variable {D : Type}

/-- `AppendArrayElement`. -/
def OList.snoc : OList D → OVal D → OList D
  | .nil, v => .cons v .nil
  | .cons x l, v => .cons x (l.snoc v)

/-- A further member. -/
def OMem.snoc : OMem D → Bytes → Bool → OVal D → OMem D
  | .nil, k, b, v => .cons k b v .nil
  | .cons k' b' v' m, k, b, v => .cons k' b' v' (m.snoc k b v)

/-- The names offered so far. -/
def OMem.names : OMem D → List Bytes
  | .nil => []
  | .cons k _ _ m => k :: m.names

/-- No elements yet (`emptyArray`). -/
def OList.isNil : OList D → Bool
  | .nil => true
  | .cons _ _ => false

/-- No members yet (`emptyObject`). -/
def OMem.isNil : OMem D → Bool
  | .nil => true
  | .cons _ _ _ _ => false

mutual
/-- The objects destroyed by `delete` of a value: `ArrayValue::~ArrayValue`, C4Json.cpp:1422-1428, `Map::~Map` with
`PurgeMap` for objects (TSMap.cpp:156-159). -/
def OVal.reach : OVal D → List Nat
  | .leaf a _ => [a]
  | .arr a l => a :: l.reach
  | .obj a m => a :: m.reach
/-- Elements. -/
def OList.reach : OList D → List Nat
  | .nil => []
  | .cons v l => v.reach ++ l.reach
/-- Members in the map. -/
def OMem.reach : OMem D → List Nat
  | .nil => []
  | .cons _ b v m => (if b then v.reach else []) ++ m.reach
end

/-- `delete value`. -/
def delete (v : OVal D) (h : Heap) : Out Heap := freeAll v.reach h

/-- `if (rootJsonValue) delete rootJsonValue;`. -/
def deleteRoot : Option (OVal D) → Heap → Out Heap
  | none, h => .ok h
  | some v, h => delete v h

/-- Outcome of a loop over elements or members: the container is left behind in either case. -/
inductive LRes (α : Type) where
  | ok (rest : Bytes) (a : α)
  | err (status : Status) (pos : Bytes) (a : α)

/-- `ParseValue<T>` for a class without elements, C4Json.cpp:1012-1041: create the object, parse, destroy it on
failure. `needs` tells whether a request for the contents follows a successful first pass
(`SetStringLength`, line 1114, which leaves `text` behind the opening quote if it throws). -/
def parseLeaf {α : Type} (M : Mem) (needs : Bool) (parse : Bytes → Out (PRes α)) (mk : α → Value D)
    (start : Bytes) (h : Heap) : Out (PRes (OVal D) × Heap) :=
  match newValue M .value h with
  | (none, h) => .ok (.err .kException start, h)
  | (some a, h) =>
      parse start >>= fun r =>
      match r with
      | .err status pos => free a h >>= fun h => .ok (.err status pos, h)
      | .ok rest x =>
          if needs then
            match request M .text h with
            | (false, h) => free a h >>= fun h => .ok (.err .kException (start.drop 1), h)
            | (true, h) => .ok (.ok rest (.leaf a (mk x)), h)
          else .ok (.ok rest (.leaf a (mk x)), h)

mutual

/-- `ParseAnyValue`, C4Json.cpp:1043-1086. Only the string, array and object alternatives pass on
`kException`. -/
def parseAnyH (M : Mem) (N : NumOps D) : Nat → Bytes → Heap → Out (PRes (OVal D) × Heap)
  | 0, _, _ => .fuel
  | n + 1, start, h =>
      parseLeaf M true parseString .str start h >>= fun (r, h) =>
      match r with
      | .ok rest v => .ok (.ok rest v, h)
      | .err status pos =>
        if status ≠ .kExpectedBeginingDoubleQuotes then .ok (.err status pos, h)
        else
          parseLeaf M false (parseNumber N) .num start h >>= fun (r, h) =>
          match r with
          | .ok rest v => .ok (.ok rest v, h)
          | .err status pos =>
            if status = .kNumbersCannotHaveLeadingZeros then .ok (.err status pos, h)
            else
              parseLeaf M false parseBool .bool start h >>= fun (r, h) =>
              match r with
              | .ok rest v => .ok (.ok rest v, h)
              | .err _ _ =>
                parseLeaf M false parseNull (fun _ => .null) start h >>= fun (r, h) =>
                match r with
                | .ok rest v => .ok (.ok rest v, h)
                | .err _ _ =>
                  parseArrayH M N n start h >>= fun (r, h) =>
                  match r with
                  | .ok rest v => .ok (.ok rest v, h)
                  | .err status pos =>
                    if status ≠ .kExpectedOpeningSquareBrackets then .ok (.err status pos, h)
                    else
                      parseObjectH M N n pos h >>= fun (r, h) =>
                      match r with
                      | .ok rest v => .ok (.ok rest v, h)
                      | .err status pos =>
                        if status ≠ .kExpectedOpeningCurlyBraces ∨
                            status = .kNumbersCannotHaveLeadingZeros then .ok (.err status pos, h)
                        else .ok (.err .kExpectedJsonValue pos, h)

/-- `ParseValue<ArrayValue>`, C4Json.cpp:1012-1041, with the beginning of `ArrayValue::Parse`, 1357-1364. -/
def parseArrayH (M : Mem) (N : NumOps D) : Nat → Bytes → Heap → Out (PRes (OVal D) × Heap)
  | 0, _, _ => .fuel
  | n + 1, t, h =>
      match newValue M .value h with
      | (none, h) => .ok (.err .kException t, h)
      | (some a, h) =>
          rd t 0 >>= fun c =>
          if c ≠ 91 then
            delete (.arr a .nil : OVal D) h >>= fun h => .ok (.err .kExpectedOpeningSquareBrackets t, h)
          else
            arrayLoopH M N n t .nil h >>= fun (r, h) =>
            match r with
            | .ok rest l => .ok (.ok rest (.arr a l), h)
            | .err status pos l => delete (.arr a l) h >>= fun h => .ok (.err status pos, h)

/-- The loop of `ArrayValue::Parse`, C4Json.cpp:1366-1419. If `AppendArrayElement` throws (line 1393) the new element is
neither stored nor destroyed. -/
def arrayLoopH (M : Mem) (N : NumOps D) :
    Nat → Bytes → OList D → Heap → Out (LRes (OList D) × Heap)
  | 0, _, _, _ => .fuel
  | n + 1, t, acc, h =>
      skipWs (t.drop 1) >>= fun t =>
      rd t 0 >>= fun c =>
      if c = 93 then
        if ¬ acc.isNil then .ok (.err .kExpectedJsonValue t acc, h) else .ok (.ok (t.drop 1) acc, h)
      else
        parseAnyH M N n t h >>= fun (r, h) =>
        match r with
        | .err status pos => .ok (.err status pos acc, h)
        | .ok t v =>
            match request M .slot h with
            | (false, h) => .ok (.err .kException t acc, h)
            | (true, h) =>
                skipWs t >>= fun t =>
                rd t 0 >>= fun c =>
                if c ≠ 44 then
                  if c ≠ 93 then .ok (.err .kExpectedClosingSquareBracketsOrComma t (acc.snoc v), h)
                  else .ok (.ok (t.drop 1) (acc.snoc v), h)
                else arrayLoopH M N n t (acc.snoc v) h

/-- `ParseValue<ObjectValue>`, C4Json.cpp:1012-1041, with the beginning of `ObjectValue::Parse`, 1479-1486. -/
def parseObjectH (M : Mem) (N : NumOps D) : Nat → Bytes → Heap → Out (PRes (OVal D) × Heap)
  | 0, _, _ => .fuel
  | n + 1, t, h =>
      match newValue M .value h with
      | (none, h) => .ok (.err .kException t, h)
      | (some a, h) =>
          rd t 0 >>= fun c =>
          if c ≠ 123 then
            delete (.obj a .nil : OVal D) h >>= fun h => .ok (.err .kExpectedOpeningCurlyBraces t, h)
          else
            objectLoopH M N n t .nil h >>= fun (r, h) =>
            match r with
            | .ok rest l => .ok (.ok rest (.obj a l), h)
            | .err status pos l => delete (.obj a l) h >>= fun h => .ok (.err status pos, h)

/-- The loop of `ObjectValue::Parse`, C4Json.cpp:1488-1561. The name is a local object (its contents are a request). If
copying the name or recording it in `insertionOrder` throws (lines 1533-1534, one request here), or if
`InsertMapElement` returns false (1476), the new value is neither stored nor destroyed. -/
def objectLoopH (M : Mem) (N : NumOps D) :
    Nat → Bytes → OMem D → Heap → Out (LRes (OMem D) × Heap)
  | 0, _, _, _ => .fuel
  | n + 1, t, acc, h =>
      skipWs (t.drop 1) >>= fun t =>
      rd t 0 >>= fun c =>
      if c = 125 then
        if ¬ acc.isNil then .ok (.err .kExpectedJsonValue t acc, h) else .ok (.ok (t.drop 1) acc, h)
      else
        parseString t >>= fun r =>
        match r with
        | .err status pos => .ok (.err status pos acc, h)
        | .ok t' name =>
          match request M .text h with
          | (false, h) => .ok (.err .kException (t.drop 1) acc, h)
          | (true, h) =>
            skipWs t' >>= fun t =>
            rd t 0 >>= fun c =>
            if c ≠ 58 then .ok (.err .kExpectedColon t acc, h)
            else
              skipWs (t.drop 1) >>= fun t =>
              parseAnyH M N n t h >>= fun (r, h) =>
              match r with
              | .err status pos => .ok (.err status pos acc, h)
              | .ok t v =>
                match request M .slot h with
                | (false, h) => .ok (.err .kException t acc, h)
                | (true, h) =>
                  let stored := decide (name ∉ acc.names)
                  let h := if stored then h else { h with refused := h.refused + 1 }
                  skipWs t >>= fun t =>
                  rd t 0 >>= fun c =>
                  if c ≠ 44 then
                    if c ≠ 125 then
                      .ok (.err .kExpectedClosingCurlyBracesOrComma t (acc.snoc name stored v), h)
                    else .ok (.ok (t.drop 1) (acc.snoc name stored v), h)
                  else objectLoopH M N n t (acc.snoc name stored v) h

end

/-- `StructuredData::Parse(const Array<char>&)`, C4Json.cpp:1786-1808, with `ParseJsonRoot`, 1693-1734, on an object with
the root `root`: the status, the new root and the heap. Lines and columns are those of
`Verif.Parser.parseRoot` and left out. -/
def parseBufferH (M : Mem) (N : NumOps D) (root : Option (OVal D)) (buf : Bytes) (h : Heap) :
    Out (Status × Option (OVal D) × Heap) :=
  if buf.length < 3 then .ok (.kTextBufferContentsInvalid, root, h)
  else
    rd buf (buf.length - 1) >>= fun last =>
    if last ≠ 0 then .ok (.kUnterminatedTextBuffer, root, h)
    else
      deleteRoot root h >>= fun h =>
      skipWs buf >>= fun start =>
      parseAnyH M N (parseFuel buf) start h >>= fun (r, h) =>
      let (status, root, text) : Status × Option (OVal D) × Bytes :=
        match r with
        | .ok rest v => (.kOk, some v, rest)
        | .err status pos => (status, none, pos)
      skipWs text >>= fun text =>
      rd text 0 >>= fun c =>
      .ok (if status = .kOk ∧ c ≠ 0 then .kExpectedEndOfFile else status, root, h)

mutual
/-- Data to be serialised, as far as the creation of objects is concerned: numbers, booleans and `Null`;
strings; types for which `CreateValueFor` makes an object value that `Serialize` refuses (`std::vector`); `Array<T>`; maps
(`ObjectMap<T>`, `std::map`); and types with a list of named fields. -/
inductive Dat where
  | plain
  | text
  | refused
  | array (l : DatL)
  | map (m : DatM)
  | fields (m : DatM)
/-- Elements. -/
inductive DatL where
  | nil
  | cons (d : Dat) (l : DatL)
/-- Named data. -/
inductive DatM where
  | nil
  | cons (name : Bytes) (d : Dat) (m : DatM)
end

/-- `InsertMapElement` on the members offered so far. -/
def OMem.offer (m : OMem D) (name : Bytes) (v : OVal D) (h : Heap) : OMem D × Heap :=
  let stored := decide (name ∉ m.names)
  (m.snoc name stored v, if stored then h else { h with refused := h.refused + 1 })

mutual

/-- `Serialize(value, data)` for the value object at address `a` just made by `CreateValueFor(data)`: the status, the
object afterwards and the heap. Scalars C4Json.h:778-802, `Array` 887-939, `ObjectMap` 1059-1099, `std::map` 1335-1376. -/
def serialH (M : Mem) : Dat → Nat → Heap → Out (Status × OVal D × Heap)
  | .plain, a, h => .ok (.kOk, .leaf a .null, h)
  | .text, a, h =>
      match request M .text h with
      | (false, h) => .ok (.kException, .leaf a .null, h)
      | (true, h) => .ok (.kOk, .leaf a .null, h)
  | .refused, a, h => .ok (.kInvalidValueType, .obj a .nil, h)
  | .array l, a, h =>
      match request M .slot h with
      | (false, h) => .ok (.kException, .arr a .nil, h)
      | (true, h) => serElemsH M l .nil h >>= fun (st, acc, h) => .ok (st, .arr a acc, h)
  | .map m, a, h => serMapH M m .nil h >>= fun (st, acc, h) => .ok (st, .obj a acc, h)
  | .fields m, a, h => serFieldsH M m .nil h >>= fun (st, acc, h) => .ok (st, .obj a acc, h)

/-- The loop of `Serialize(value, Array<T>)`, C4Json.h:902-935; room for the elements has been reserved. -/
def serElemsH (M : Mem) : DatL → OList D → Heap → Out (Status × OList D × Heap)
  | .nil, acc, h => .ok (.kOk, acc, h)
  | .cons d l, acc, h =>
      match newValue M .value h with
      | (none, h) => .ok (.kException, acc, h)
      | (some b, h) =>
          serialH M d b h >>= fun (st, v, h) =>
          if st ≠ .kOk then delete v h >>= fun h => .ok (st, acc, h)
          else serElemsH M l (acc.snoc v) h

/-- The loop of `Serialize(value, ObjectMap<T>)`, C4Json.h:1077-1096: if the copy of the name throws, the new value is
neither stored nor destroyed; the result of `InsertMapElement` is ignored. -/
def serMapH (M : Mem) : DatM → OMem D → Heap → Out (Status × OMem D × Heap)
  | .nil, acc, h => .ok (.kOk, acc, h)
  | .cons name d m, acc, h =>
      match newValue M .value h with
      | (none, h) => .ok (.kException, acc, h)
      | (some b, h) =>
          match request M .slot h with
          | (false, h) => .ok (.kException, acc, h)
          | (true, h) =>
              serialH M d b h >>= fun (st, v, h) =>
              if st ≠ .kOk then delete v h >>= fun h => .ok (st, acc, h)
              else
                let (acc, h) := acc.offer name v h
                serMapH M m acc h

/-- `SerializeProto` (C4Json.h:1476-1487) over named fields with `Serialize(value, name, data)` on an object, C4Json.h:683-714: an exception
before the insertion destroys the new value; the status of the nested `Serialize` (line 698) and the result of
`InsertAccountedMapElement` (line 700) are ignored. -/
def serFieldsH (M : Mem) : DatM → OMem D → Heap → Out (Status × OMem D × Heap)
  | .nil, acc, h => .ok (.kOk, acc, h)
  | .cons name d m, acc, h =>
      match newValue M .value h with
      | (none, h) => .ok (.kException, acc, h)
      | (some b, h) =>
          match request M .text h with
          | (false, h) => free b h >>= fun h => .ok (.kException, acc, h)
          | (true, h) =>
              serialH M d b h >>= fun (_, v, h) =>
              match request M .text h with
              | (false, h) => delete v h >>= fun h => .ok (.kException, acc, h)
              | (true, h) =>
                  let (acc, h) := acc.offer name v h
                  serFieldsH M m acc h

end

/-- `StructuredData::SerializeFrom`, C4Json.h:590-621. The pointer to the old root is not reset, so if `CreateValueFor`
throws (line 600) `rootJsonValue` still points to the destroyed object. -/
def serializeFromH (M : Mem) (root : Option (OVal D)) (d : Dat) (h : Heap) :
    Out (Status × Option (OVal D) × Heap) :=
  deleteRoot root h >>= fun h =>
  match newValue M .root h with
  | (none, h) => .ok (.kException, root, h)
  | (some a, h) => serialH M d a h >>= fun (st, v, h) => .ok (st, some v, h)

/-- The calls of a history. `use` stands for any call that reads the document (`Write`, C4Json.cpp:1810-1833; the use of
`GetRootJsonValue`). -/
inductive SdCall where
  | parse (buf : Bytes)
  | serialize (d : Dat)
  | use

/-- A `StructuredData` object: `rootJsonValue` (C4Json.h:553) and the heap. -/
structure Sd (D : Type) where
  root : Option (OVal D)
  heap : Heap

/-- One call. Reading an object that is not alive is undefined. -/
def Sd.call (M : Mem) (N : NumOps D) (s : Sd D) : SdCall → Out (Sd D)
  | .parse buf => parseBufferH M N s.root buf s.heap >>= fun (_, root, h) => .ok ⟨root, h⟩
  | .serialize d => serializeFromH M s.root d s.heap >>= fun (_, root, h) => .ok ⟨root, h⟩
  | .use =>
      match s.root with
      | none => .ok s
      | some v => if ∀ a ∈ v.reach, a ∈ s.heap.live then .ok s else .ub

/-- A history. -/
def Sd.run (M : Mem) (N : NumOps D) : List SdCall → Sd D → Out (Sd D)
  | [], s => .ok s
  | c :: cs, s => s.call M N c >>= fun s => Sd.run M N cs s

/-- `StructuredData::~StructuredData`, C4Json.cpp:1736-1742. -/
def Sd.destroy (s : Sd D) : Out Heap := deleteRoot s.root s.heap

mutual
/-- The objects form the document of `Verif.Model.Document`: same contents, and every member was offered to the map with
the result recorded here. -/
def OVal.Stands : OVal D → Value D → Prop
  | .leaf _ x, v => v = x
  | .arr _ l, v => ∃ vs, v = .arr vs ∧ l.Stands vs
  | .obj _ m, v => ∃ t, v = .obj t m.names ∧ m.Builds .nil t
/-- Elements. -/
def OList.Stands : OList D → List (Value D) → Prop
  | .nil, vs => vs = []
  | .cons x l, vs => ∃ v vs', vs = v :: vs' ∧ x.Stands v ∧ l.Stands vs'
/-- Offering the members to the map `t` one after the other makes it `t'`. -/
def OMem.Builds : OMem D → Map.Tree Bytes (Value D) → Map.Tree Bytes (Value D) → Prop
  | .nil, t, t' => t' = t
  | .cons k stored x m, t, t' => ∃ v t1, x.Stands v ∧ Map.insertMapElement nameLt t k v = some (stored, t1) ∧
      m.Builds t1 t'
end

end Verif.Own
