import Verif.Model.Serial
import Verif.Lemmas.Serial
import Verif.Spec.Reload

/-!
# What becomes of vectors and of NULs

`CreateValueFor` has no overload for `std::vector` (C4Json.h:521-546), and `std::string`s pass through `const char*`. These definitions say,
without referring to trees of values, what comes back when data with vectors and NULs in any place is serialized and deserialized.
-/

namespace Verif.Serial

open Verif Verif.Write

variable {D : Type}

mutual
/-- Types whose field lists have distinct names and use the form without a name for user types only. Vectors are
allowed everywhere. -/
def Ty.Listed : Ty → Prop
  | .arr t => t.Listed
  | .map t => t.Listed
  | .vec _ => True
  | .stdMap t => t.Listed
  | .struct _ fs => fs.Listed ∧ fs.names.Nodup
  | _ => True
/-- The same for field lists. -/
def Fields.Listed : Fields → Prop
  | .nil => True
  | .here (.struct _ fs) rest => fs.Listed ∧ rest.Listed
  | .here _ _ => False
  | .named _ _ t rest => t.Listed ∧ rest.Listed
end

/-- Serializing reports a failure: the data is a vector, or an array or a map with such an element. A user type never
fails, because the status of its fields is ignored. -/
def Ty.fails : (t : Ty) → t.Den D → Bool
  | .vec _, _ => true
  | .arr t, l => l.any t.fails
  | .map t, l => l.any fun e => t.fails e.2
  | .stdMap t, l => l.any fun e => t.fails e.2
  | _, _ => false

/-- All results, if every element has one. -/
def backs {α β : Type} (g : α → Option β) : List α → Option (List β)
  | [] => some []
  | x :: l => (g x).bind fun y => (backs g l).map (y :: ·)

/-- One more entry, unless there is one with this key. -/
def addNew {α : Type} (acc : List (Bytes × α)) (e : Bytes × α) : List (Bytes × α) :=
  if e.1 ∈ acc.map (fun x => x.1) then acc else acc ++ [e]

/-- The entries with their keys cut at the first NUL. If keys become equal, the first entry stays. -/
def cutKeys {α : Type} (l : List (Bytes × α)) : List (Bytes × α) := (l.map fun e => (cText e.1, e.2)).foldl addNew []

mutual
/-- The data that comes back: `none` if loading is refused. Arrays and maps end before their first element that could not
be serialized; `std::string`s end before their first NUL. -/
def Ty.back : (t : Ty) → t.Den D → Option (t.Den D)
  | .vec _, _ => none
  | .arr t, l => backs t.back (l.takeWhile fun x => !t.fails x)
  | .map t, l => backs (fun e => (t.back e.2).map (e.1, ·)) (l.takeWhile fun e => !t.fails e.2)
  | .stdMap t, l => backs (fun e => (t.back e.2).map (e.1, ·)) (cutKeys (l.takeWhile fun e => !t.fails e.2))
  | .struct _ fs, d => fs.back d
  | .str, d => some d
  | .num, d => some d
  | .bool, d => some d
  | .null, d => some d
  | .stdString, d => some (cText d)
/-- The same for field lists: all fields have to be accepted. -/
def Fields.back : (fs : Fields) → fs.Den D → Option (fs.Den D)
  | .nil, d => some d
  | .here t rest, d => (t.back d.1).bind fun x => (rest.back d.2).map (x, ·)
  | .named _ _ t rest, d => (t.back d.1).bind fun x => (rest.back d.2).map (x, ·)
end

mutual
/-- There is a vector (empty or not) somewhere in the data. -/
def Ty.HasVector : (t : Ty) → t.Den D → Prop
  | .vec _, _ => True
  | .arr t, l => ∃ x ∈ l, t.HasVector x
  | .map t, l => ∃ e ∈ l, t.HasVector e.2
  | .stdMap t, l => ∃ e ∈ l, t.HasVector e.2
  | .struct _ fs, d => fs.HasVector d
  | .str, _ => False
  | .num, _ => False
  | .bool, _ => False
  | .null, _ => False
  | .stdString, _ => False
/-- The same for field lists. -/
def Fields.HasVector : (fs : Fields) → fs.Den D → Prop
  | .nil, _ => False
  | .here t rest, d => t.HasVector d.1 ∨ rest.HasVector d.2
  | .named _ _ t rest, d => t.HasVector d.1 ∨ rest.HasVector d.2
end

mutual
/-- There is a NUL in a `std::string` or in a key of a `std::map` somewhere in the data. -/
def Ty.HasNul : (t : Ty) → t.Den D → Prop
  | .vec _, _ => False
  | .arr t, l => ∃ x ∈ l, t.HasNul x
  | .map t, l => ∃ e ∈ l, t.HasNul e.2
  | .stdMap t, l => ∃ e ∈ l, (0 : Byte) ∈ e.1 ∨ t.HasNul e.2
  | .struct _ fs, d => fs.HasNul d
  | .str, _ => False
  | .num, _ => False
  | .bool, _ => False
  | .null, _ => False
  | .stdString, s => (0 : Byte) ∈ s
/-- The same for field lists. -/
def Fields.HasNul : (fs : Fields) → fs.Den D → Prop
  | .nil, _ => False
  | .here t rest, d => t.HasNul d.1 ∨ rest.HasNul d.2
  | .named _ _ t rest, d => t.HasNul d.1 ∨ rest.HasNul d.2
end

end Verif.Serial
