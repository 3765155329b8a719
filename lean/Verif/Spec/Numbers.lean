import Verif.Spec.Filed

/-!
# The numbers of data that get into a file
-/

namespace Verif.Serial

open Verif Verif.Write Verif.Text Verif.Spec Verif.B64 Verif.Props

variable {D : Type}

mutual
/-- Data whose texts can be written as they are and whose numbers are in `P`. Nothing is said of vectors and the entries of maps, which do not
get into the file. -/
def Ty.Fits (P : D → Prop) : (t : Ty) → t.Den D → Prop
  | .str, s => ReadableText s
  | .num, x => P x
  | .bool, _ => True
  | .null, _ => True
  | .stdString, s => ReadableText (cText s)
  | .arr t, l => ∀ x ∈ l, t.Fits P x
  | .vec _, _ => True
  | .map _, _ => True
  | .stdMap _, _ => True
  | .struct _ fs, d => fs.Fits P d
/-- The same for field lists. -/
def Fields.Fits (P : D → Prop) : (fs : Fields) → fs.Den D → Prop
  | .nil, _ => True
  | .here t rest, d => t.Fits P d.1 ∧ rest.Fits P d.2
  | .named _ _ t rest, d => t.Fits P d.1 ∧ rest.Fits P d.2
end

mutual
/-- There is a number in `Q` in the data, at a place that gets into the file: not in a vector or map, and not in or after an array element that
cannot be serialized. -/
def Ty.HasNum (Q : D → Prop) : (t : Ty) → t.Den D → Prop
  | .num, x => Q x
  | .arr t, l => ∃ x ∈ l.takeWhile fun x => !t.fails x, t.HasNum Q x
  | .struct _ fs, d => fs.HasNum Q d
  | .str, _ => False
  | .bool, _ => False
  | .null, _ => False
  | .stdString, _ => False
  | .vec _, _ => False
  | .map _, _ => False
  | .stdMap _, _ => False
/-- The same for field lists. -/
def Fields.HasNum (Q : D → Prop) : (fs : Fields) → fs.Den D → Prop
  | .nil, _ => False
  | .here t rest, d => t.HasNum Q d.1 ∨ rest.HasNum Q d.2
  | .named _ _ t rest, d => t.HasNum Q d.1 ∨ rest.HasNum Q d.2
end

end Verif.Serial
