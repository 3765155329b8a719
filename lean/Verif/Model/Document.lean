import Verif.Model.Parser
import Verif.Spec.Walk

/-!
# Model of value access and of `StructuredData::Parse`
-/

namespace Verif.Doc

open Verif Verif.Map Verif.Text Verif.Number Verif.Parser

variable {D : Type}

/-- `ObjectValue::FindString`, C4Json.cpp:1578-1589. -/
def findString (m : Tree Bytes (Value D)) (name : Bytes) : Option Bytes :=
  match findMapElement nameLt name m with
  | some (_, .str s) => some s
  | _ => none

/-- `ObjectValue::FindNumber`, C4Json.cpp:1591-1602. -/
def findNumber (m : Tree Bytes (Value D)) (name : Bytes) : Option D :=
  match findMapElement nameLt name m with
  | some (_, .num d) => some d
  | _ => none

/-- `ObjectValue::FindBool`, C4Json.cpp:1604-1615. -/
def findBool (m : Tree Bytes (Value D)) (name : Bytes) : Option Bool :=
  match findMapElement nameLt name m with
  | some (_, .bool b) => some b
  | _ => none

/-- `ObjectValue::FindJsonNull`, C4Json.cpp:1617-1628. -/
def findJsonNull (m : Tree Bytes (Value D)) (name : Bytes) : Option Unit :=
  match findMapElement nameLt name m with
  | some (_, .null) => some ()
  | _ => none

/-- `ObjectValue::FindJsonValueArray`, C4Json.cpp:1630-1641. -/
def findJsonValueArray (m : Tree Bytes (Value D)) (name : Bytes) : Option (List (Value D)) :=
  match findMapElement nameLt name m with
  | some (_, .arr l) => some l
  | _ => none

/-- `ObjectValue::FindJsonObjectValue`, C4Json.cpp:1643-1654: the map and insertion order of the
object. -/
def findJsonObjectValue (m : Tree Bytes (Value D)) (name : Bytes) :
    Option (Tree Bytes (Value D) × List Bytes) :=
  match findMapElement nameLt name m with
  | some (_, .obj m' o) => some (m', o)
  | _ => none

/-- One step of a user walking through values: element access in an array (`Array::operator[]` within
the bounds), or `FindMapElement` on an object (C4Json.h:212-231). -/
def step : Value D → Spec.Step → Option (Value D)
  | .arr l, .index i => l[i]?
  | .obj m _, .member k => (findMapElement nameLt k m).map Prod.snd
  | _, _ => none

/-- A walk. -/
def walk : Value D → List Spec.Step → Option (Value D)
  | v, [] => some v
  | v, s :: p => (step v s).bind fun v => walk v p

/-- `ParseResult`, C4Json.h:162-168. -/
structure ParseResult where
  status : Status
  errorLine : Nat
  errorColumn : Nat
  deriving DecidableEq, Repr

/-- `StructuredData::Parse(const Array<char>&)`, C4Json.cpp:1786-1808, on an object holding `root`:
the result and the new `rootJsonValue`. -/
def parseBuffer (N : NumOps D) (root : Option (Value D)) (buf : Bytes) :
    Out (ParseResult × Option (Value D)) :=
  if buf.length < 3 then .ok (⟨.kTextBufferContentsInvalid, 0, 0⟩, root)
  else
    rd buf (buf.length - 1) >>= fun last =>
    if last ≠ 0 then .ok (⟨.kUnterminatedTextBuffer, 0, 0⟩, root)
    else
      parseRoot N (parseFuel buf) buf >>= fun r =>
      .ok (⟨r.status, r.errorLine, r.errorColumn⟩, r.root)

end Verif.Doc
