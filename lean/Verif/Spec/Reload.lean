import Verif.Model.Serial
import Verif.Lemmas.MapOrder

/-!
# Conditions for reading a document twice
-/

namespace Verif.Serial

open Verif Verif.Map Verif.Text Verif.Parser Verif.Write

variable {D : Type}

mutual
/-- What every variable of these C++ types satisfies: maps are sorted by key and no key occurs twice. -/
def Ty.Ordered : (t : Ty) → t.Den D → Prop
  | .arr t, l => ∀ x ∈ l, t.Ordered x
  | .map t, l => Sorted nameLt l ∧ ∀ e ∈ l, t.Ordered e.2
  | .vec t, l => ∀ x ∈ l, t.Ordered x
  | .stdMap t, l => Sorted nameLt l ∧ ∀ e ∈ l, t.Ordered e.2
  | .struct _ fs, d => fs.Ordered d
  | .str, _ => True
  | .num, _ => True
  | .bool, _ => True
  | .null, _ => True
  | .stdString, _ => True
/-- The same for field lists. -/
def Fields.Ordered : (fs : Fields) → fs.Den D → Prop
  | .nil, _ => True
  | .here t rest, d => t.Ordered d.1 ∧ rest.Ordered d.2
  | .named _ _ t rest, d => t.Ordered d.1 ∧ rest.Ordered d.2
end

mutual
/-- The objects of the document that are read into maps have members with different names, also after the conversion to
`std::string`, which ends at the first NUL. -/
def Apart : Ty → Value D → Prop
  | .arr t, .arr l => ∀ x ∈ l, Apart t x
  | .vec t, .arr l => ∀ x ∈ l, Apart t x
  | .map t, .obj m _ => ((toList m).map fun e => e.1).Nodup ∧ ∀ e ∈ toList m, Apart t e.2
  | .stdMap t, .obj m _ => ((toList m).map fun e => cText e.1).Nodup ∧ ∀ e ∈ toList m, Apart t e.2
  | .struct _ fs, v => ApartF fs v
  | _, _ => True
/-- The same for field lists. -/
def ApartF : Fields → Value D → Prop
  | .nil, _ => True
  | .here t rest, v => Apart t v ∧ ApartF rest v
  | .named _ name t rest, v =>
    (∀ m o k x, v = .obj m o → findMapElement nameLt name m = some (k, x) → Apart t x) ∧ ApartF rest v
end

end Verif.Serial
