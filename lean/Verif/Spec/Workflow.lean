import Verif.Props.Binary64

/-!
# Data that a program loads, changes and saves
-/

namespace Verif.Serial

open Verif Verif.Map Verif.Text Verif.Parser Verif.Write Verif.Serial Verif.Spec Verif.B64 Verif.Props

mutual
/-- The names of all fields can be written as they are. -/
def Ty.NamesOk : Ty → Prop
  | .arr t => t.NamesOk
  | .map t => t.NamesOk
  | .vec t => t.NamesOk
  | .stdMap t => t.NamesOk
  | .struct _ fs => fs.NamesOk
  | _ => True
/-- The same for field lists. -/
def Fields.NamesOk : Fields → Prop
  | .nil => True
  | .here t rest => t.NamesOk ∧ rest.NamesOk
  | .named _ name t rest => ReadableText name ∧ t.NamesOk ∧ rest.NamesOk
end

mutual
/-- Field lists have distinct names, and fields without a name are user types. -/
def Ty.Tidy : Ty → Prop
  | .arr t => t.Tidy
  | .map t => t.Tidy
  | .vec t => t.Tidy
  | .stdMap t => t.Tidy
  | .struct _ fs => fs.Tidy ∧ fs.names.Nodup
  | _ => True
/-- The same for field lists. -/
def Fields.Tidy : Fields → Prop
  | .nil => True
  | .here (.struct _ fs) rest => fs.Tidy ∧ rest.Tidy
  | .here _ _ => False
  | .named _ _ t rest => t.Tidy ∧ rest.Tidy
end

mutual
/-- Data whose texts can be written as they are, whose numbers are finite and whose maps are sorted. -/
def Ty.Storable : (t : Ty) → t.Den Dbl → Prop
  | .str, s => ReadableText s
  | .num, x => Finite x
  | .bool, _ => True
  | .null, _ => True
  | .stdString, s => ReadableText s
  | .arr t, l => ∀ x ∈ l, t.Storable x
  | .vec t, l => ∀ x ∈ l, t.Storable x
  | .map t, l => Sorted nameLt l ∧ ∀ e ∈ l, ReadableText e.1 ∧ t.Storable e.2
  | .stdMap t, l => Sorted nameLt l ∧ ∀ e ∈ l, ReadableText e.1 ∧ t.Storable e.2
  | .struct _ fs, d => fs.Storable d
/-- The same for field lists. -/
def Fields.Storable : (fs : Fields) → fs.Den Dbl → Prop
  | .nil, _ => True
  | .here t rest, d => t.Storable d.1 ∧ rest.Storable d.2
  | .named _ _ t rest, d => t.Storable d.1 ∧ rest.Storable d.2
end

/-- After the data `d` are saved, the file is loaded: `SerializeFrom`, `Write`, `Parse` and `DeserializeTo` succeed and the data are `d`. -/
def SavedAndLoaded (dflt : (t : Ty) → t.Den Dbl) (t : Ty) (d : t.Den Dbl) (il : Nat) (ic : Byte) : Prop :=
  ∃ w out v, serializeFrom (B64.conv false 0 0) t d = .ok (.kOk, w) ∧ Emits ops il ic w out ∧ Accepts ops (out ++ [0]) v ∧
    validate t v = .kOk ∧ ∀ old, t.Fresh old → deserialize dflt t v old = (.kOk, d)

end Verif.Serial
