import Verif.Spec.Workflow

/-!
# What saving keeps
-/

namespace Verif.Serial

open Verif Verif.Map Verif.Text Verif.Parser Verif.Write Verif.Spec Verif.B64 Verif.Props

variable {D : Type}

mutual
/-- The same data with all maps emptied, at every depth. -/
def Ty.emptied : (t : Ty) → t.Den D → t.Den D
  | .str, d => d
  | .num, d => d
  | .bool, d => d
  | .null, d => d
  | .stdString, d => d
  | .arr t, l => l.map t.emptied
  | .vec t, l => l.map t.emptied
  | .map _, _ => []
  | .stdMap _, _ => []
  | .struct _ fs, d => fs.emptied d
/-- The same for field lists. -/
def Fields.emptied : (fs : Fields) → fs.Den D → fs.Den D
  | .nil, d => d
  | .here t rest, d => (t.emptied d.1, rest.emptied d.2)
  | .named _ _ t rest, d => (t.emptied d.1, rest.emptied d.2)
end

/-- After the data `d` are saved, the file is loaded: `SerializeFrom`, `Write`, `Parse` and `DeserializeTo` succeed and the data are `k`. -/
def SavedAs (dflt : (t : Ty) → t.Den Dbl) (t : Ty) (d k : t.Den Dbl) (il : Nat) (ic : Byte) : Prop :=
  ∃ w out v, serializeFrom (B64.conv false 0 0) t d = .ok (.kOk, w) ∧ Emits ops il ic w out ∧ Accepts ops (out ++ [0]) v ∧
    validate t v = .kOk ∧ ∀ old, t.Fresh old → deserialize dflt t v old = (.kOk, k)

end Verif.Serial
