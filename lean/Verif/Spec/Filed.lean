import Verif.Spec.Vectors
import Verif.Spec.Kept

/-!
# What a file gives back

These definitions say, without referring to trees of values or to texts, what comes back of data with vectors, maps and NULs in any place
when it is saved in a file and the file is loaded.
-/

namespace Verif.Serial

open Verif Verif.Write Verif.Text Verif.Spec Verif.B64 Verif.Props

variable {D : Type}

mutual
/-- The data that comes back from the file: `none` if loading is refused. Maps are empty, arrays end before their first element that could
not be serialized, `std::string`s end before their first NUL. -/
def Ty.fileBack : (t : Ty) → t.Den D → Option (t.Den D)
  | .vec _, _ => none
  | .arr t, l => backs t.fileBack (l.takeWhile fun x => !t.fails x)
  | .map _, _ => some []
  | .stdMap _, _ => some []
  | .struct _ fs, d => fs.fileBack d
  | .str, d => some d
  | .num, d => some d
  | .bool, d => some d
  | .null, d => some d
  | .stdString, d => some (cText d)
/-- The same for field lists: all fields have to be accepted. -/
def Fields.fileBack : (fs : Fields) → fs.Den D → Option (fs.Den D)
  | .nil, d => some d
  | .here t rest, d => (t.fileBack d.1).bind fun x => (rest.fileBack d.2).map (x, ·)
  | .named _ _ t rest, d => (t.fileBack d.1).bind fun x => (rest.fileBack d.2).map (x, ·)
end

mutual
/-- Data whose texts can be written as they are and whose numbers are finite. Nothing is said of vectors and the entries of maps, which do not
get into the file. -/
def Ty.Writable : (t : Ty) → t.Den Dbl → Prop
  | .str, s => ReadableText s
  | .num, x => Finite x
  | .bool, _ => True
  | .null, _ => True
  | .stdString, s => ReadableText (cText s)
  | .arr t, l => ∀ x ∈ l, t.Writable x
  | .vec _, _ => True
  | .map _, _ => True
  | .stdMap _, _ => True
  | .struct _ fs, d => fs.Writable d
/-- The same for field lists. -/
def Fields.Writable : (fs : Fields) → fs.Den Dbl → Prop
  | .nil, _ => True
  | .here t rest, d => t.Writable d.1 ∧ rest.Writable d.2
  | .named _ _ t rest, d => t.Writable d.1 ∧ rest.Writable d.2
end

mutual
/-- There is a map with entries somewhere in the data. -/
def Ty.HasEntry : (t : Ty) → t.Den D → Prop
  | .vec t, l => ∃ x ∈ l, t.HasEntry x
  | .arr t, l => ∃ x ∈ l, t.HasEntry x
  | .map _, l => l ≠ []
  | .stdMap _, l => l ≠ []
  | .struct _ fs, d => fs.HasEntry d
  | .str, _ => False
  | .num, _ => False
  | .bool, _ => False
  | .null, _ => False
  | .stdString, _ => False
/-- The same for field lists. -/
def Fields.HasEntry : (fs : Fields) → fs.Den D → Prop
  | .nil, _ => False
  | .here t rest, d => t.HasEntry d.1 ∨ rest.HasEntry d.2
  | .named _ _ t rest, d => t.HasEntry d.1 ∨ rest.HasEntry d.2
end

end Verif.Serial
