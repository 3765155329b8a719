import Verif.Model.Serial

/-!
# Deserialize when memory runs out

`Deserialize` once more, with the requests for memory it makes and the `ObjectMapElement` objects it creates and destroys. `M i` says
that the `i`-th place where memory may be requested is reached with a request that fails; the exception is caught by the nearest
`MayThrow` (C4Json.h:173-191), which returns `kException`.

Simplifications: a place where no request is made (the storage of a string suffices, a default constructor needs none) counts as one
with a request that succeeds; a request for several blocks in a row counts as one. A string whose assignment fails keeps its text here;
what becomes of it is C134. Copies of elements are deep.
-/

namespace Verif.SerialMem

open Verif Verif.Map Verif.Text Verif.Parser Verif.Write Verif.Serial

variable {D : Type}

mutual
/-- The number of `ObjectMapElement` objects (C4Json.h:211-224) in data. -/
def elems : (t : Ty) → t.Den D → Int
  | .arr t, l => (l.map (elems t)).sum
  | .vec t, l => (l.map (elems t)).sum
  | .map t, l => (l.map fun e => 1 + elems t e.2).sum
  | .stdMap t, l => (l.map fun e => elems t e.2).sum
  | .struct _ fs, d => elemsF fs d
  | .str, _ => 0
  | .num, _ => 0
  | .bool, _ => 0
  | .null, _ => 0
  | .stdString, _ => 0
/-- The same for field lists. -/
def elemsF : (fs : Fields) → fs.Den D → Int
  | .nil, _ => 0
  | .here t rest, d => elems t d.1 + elemsF rest d.2
  | .named _ _ t rest, d => elems t d.1 + elemsF rest d.2
end

/-- Requests so far, and objects alive. -/
structure St where
  next : Nat
  live : Int
deriving DecidableEq, Repr

/-- After a request, and after objects are made or destroyed. -/
def St.ask (s : St) : St := { s with next := s.next + 1 }
def St.add (s : St) (n : Int) : St := { s with live := s.live + n }

/-- Status, data and state. -/
structure Res (α : Type) where
  status : Status
  data : α
  st : St

section
variable {α : Type} (M : Nat → Bool) (f : Value D → α → St → Res α) (cnt : α → Int) (dflt : α)

/-- The loop of `Deserialize(value, Array<T>&)`, C4Json.h:861-881: `T temp` may throw, so may the copy made by `AppendArrayElement`, and
`temp` is destroyed in any case. -/
def desElemsM : List (Value D) → List α → St → Res (List α)
  | [], data, s => ⟨.kOk, data, s⟩
  | v :: l, data, s =>
      if M s.next then ⟨.kException, data, s.ask⟩
      else
        let r := f v dflt (s.ask.add (cnt dflt))
        if r.status = .kOk then
          if M r.st.next then ⟨.kException, data, r.st.ask.add (- cnt r.data)⟩
          else desElemsM l (data ++ [r.data]) ((r.st.ask.add (cnt r.data)).add (- cnt r.data))
        else ⟨r.status, data, r.st.add (- cnt r.data)⟩

/-- The loop of `Deserialize(value, std::vector<T>&)`, C4Json.h:1180-1201: `temp` is moved. -/
def desVecM : List (Value D) → List α → St → Res (List α)
  | [], data, s => ⟨.kOk, data, s⟩
  | v :: l, data, s =>
      if M s.next then ⟨.kException, data, s.ask⟩
      else
        let r := f v dflt (s.ask.add (cnt dflt))
        if r.status = .kOk then
          if M r.st.next then ⟨.kException, data, r.st.ask.add (- cnt r.data)⟩
          else desVecM l (data ++ [r.data]) r.st.ask
        else ⟨r.status, data, r.st.add (- cnt r.data)⟩

/-- The loop of `Deserialize(value, ObjectMap<T>&)`, C4Json.h:994-1053. The copy of the name (1016) is outside of the inner `MayThrow`:
if it throws the new element stays. -/
def desMapM : List (Bytes × Value D) → List (Bytes × α) → St → Res (List (Bytes × α))
  | [], data, s => ⟨.kOk, data, s⟩
  | (k, v) :: l, data, s =>
      match get k data with
      | some old =>
          let r := f v old s
          if r.status ≠ .kOk then ⟨r.status, put k r.data data, r.st⟩ else desMapM l (put k r.data data) r.st
      | none =>
          if M s.next then ⟨.kException, data, s.ask⟩
          else
            let s := s.ask.add (1 + cnt dflt)
            if M s.next then ⟨.kException, data, s.ask⟩
            else
              let r := f v dflt s.ask
              if r.status ≠ .kOk then ⟨r.status, data, r.st.add (- (1 + cnt r.data))⟩
              else desMapM l (put k r.data data) r.st

/-- The loop of `Deserialize(value, std::map<std::string, T>&)`, C4Json.h:1312-1329. -/
def desStdMapM : List (Bytes × Value D) → List (Bytes × α) → St → Res (List (Bytes × α))
  | [], data, s => ⟨.kOk, data, s⟩
  | (k, v) :: l, data, s =>
      if M s.next then ⟨.kException, data, s.ask⟩
      else
        let r := match get (cText k) data with
          | some old => f v old s.ask
          | none => f v dflt (s.ask.add (cnt dflt))
        if r.status ≠ .kOk then ⟨r.status, put (cText k) r.data data, r.st⟩
        else desStdMapM l (put (cText k) r.data data) r.st

/-- `Deserialize(value, name, data)`, C4Json.h:663-681. -/
def desNamedM (v : Value D) (name : Bytes) (old : α) (s : St) : Res α :=
  match v with
  | .obj m _ =>
      match findMapElement nameLt name m with
      | none => ⟨.kNameNotPresent, old, s⟩
      | some (_, x) => f x old s
  | _ => ⟨.kInvalidValueType, old, s⟩

end

variable (M : Nat → Bool)

/-- The assignment of a string, which may throw. -/
def assignM {α : Type} (old new : α) (s : St) : Res α :=
  if M s.next then ⟨.kException, old, s.ask⟩ else ⟨.kOk, new, s.ask⟩

mutual
/-- `Deserialize(value, data)`: scalars C4Json.h:753-776, `Array` 843-885 (the array is emptied, then storage requested), `ObjectMap`
977-1057, `std::string` C4Json.cpp:1879-1896, `std::vector` C4Json.h:1157-1205, `std::map` 1297-1333, user types 1606-1609. -/
def desM (dflt : (t : Ty) → t.Den D) : (t : Ty) → Value D → t.Den D → St → Res (t.Den D)
  | .str, v, old, s => match v with | .str x => assignM M old x s | _ => ⟨.kInvalidValueType, old, s⟩
  | .num, v, old, s => match v with | .num x => ⟨.kOk, x, s⟩ | _ => ⟨.kInvalidValueType, old, s⟩
  | .bool, v, old, s => match v with | .bool x => ⟨.kOk, x, s⟩ | _ => ⟨.kInvalidValueType, old, s⟩
  | .null, v, old, s => match v with | .null => ⟨.kOk, (), s⟩ | _ => ⟨.kInvalidValueType, old, s⟩
  | .stdString, v, old, s => match v with | .str x => assignM M old (cText x) s | _ => ⟨.kInvalidValueType, old, s⟩
  | .arr t, v, old, s =>
      match v with
      | .arr l =>
          let s := s.add (- elems (.arr t) old)
          if M s.next then ⟨.kException, [], s.ask⟩ else desElemsM M (desM dflt t) (elems t) (dflt t) l [] s.ask
      | _ => ⟨.kInvalidValueType, old, s⟩
  | .map t, v, old, s =>
      match v with
      | .obj m _ => desMapM M (desM dflt t) (elems t) (dflt t) (toList m) old s
      | _ => ⟨.kInvalidValueType, old, s⟩
  | .vec t, v, old, s =>
      match v with
      | .arr l =>
          let s := s.add (- elems (.vec t) old)
          if M s.next then ⟨.kException, [], s.ask⟩ else desVecM M (desM dflt t) (elems t) (dflt t) l [] s.ask
      | _ => ⟨.kInvalidValueType, old, s⟩
  | .stdMap t, v, old, s =>
      match v with
      | .obj m _ => desStdMapM M (desM dflt t) (elems t) (dflt t) (toList m) old s
      | _ => ⟨.kInvalidValueType, old, s⟩
  | .struct _ fs, v, old, s => desProtoM dflt fs v old s
/-- `DeserializeProto`, C4Json.h:1426-1468. -/
def desProtoM (dflt : (t : Ty) → t.Den D) : (fs : Fields) → Value D → fs.Den D → St → Res (fs.Den D)
  | .nil, _, old, s => ⟨.kOk, old, s⟩
  | .here t rest, v, old, s =>
      let r := desM dflt t v old.1 s
      if r.status ≠ .kOk then ⟨r.status, (r.data, old.2), r.st⟩
      else
        let r' := desProtoM dflt rest v old.2 r.st
        ⟨r'.status, (r.data, r'.data), r'.st⟩
  | .named opt name t rest, v, old, s =>
      let r := desNamedM (desM dflt t) v name old.1 s
      if r.status ≠ .kOk ∧ (opt = false ∨ r.status ≠ .kNameNotPresent) then ⟨r.status, (r.data, old.2), r.st⟩
      else
        let r' := desProtoM dflt rest v old.2 r.st
        ⟨r'.status, (r.data, r'.data), r'.st⟩
end

end Verif.SerialMem
