import Verif.Spec.Layout
import Verif.Lemmas.Walk
import Verif.Model.Serial
import Verif.Spec.Filed

/-!
# Specification: the shape of a document
-/

namespace Verif.Spec

open Verif Verif.Map Verif.Text Verif.Parser Verif.Doc Verif.Serial

variable {D : Type}

/-- The same kinds of values, as many elements and the same members; texts and numbers may differ. -/
inductive SameShape : Value D → Value D → Prop
  | null : SameShape .null .null
  | bool (b) : SameShape (.bool b) (.bool b)
  | num (x y) : SameShape (.num x) (.num y)
  | str (s s') : SameShape (.str s) (.str s')
  | arr {l l' : List (Value D)} : l.length = l'.length → (∀ (i : Nat) a b, l[i]? = some a → l'[i]? = some b → SameShape a b) →
      SameShape (.arr l) (.arr l')
  | obj {m m' : Tree Bytes (Value D)} {o : List Bytes} :
      (∀ k, (findMapElement nameLt k m).isSome = (findMapElement nameLt k m').isSome) →
      (∀ k k1 k2 a b, findMapElement nameLt k m = some (k1, a) → findMapElement nameLt k m' = some (k2, b) → SameShape a b) →
      SameShape (.obj m o) (.obj m' o)

/-- A text that is a number, or one of the texts `inf` and `-inf`. -/
def IsNumber (t : Bytes) : Prop :=
  ((∀ c ∈ t, NumChar c) ∧ ∃ d, DialNum t d) ∨ t = [0x69, 0x6E, 0x66] ∨ t = [0x2D, 0x69, 0x6E, 0x66]

mutual
/-- The texts are without quotation marks and the names are readable. -/
def J.Tame : J → Prop
  | .null => True
  | .bool _ => True
  | .num _ => True
  | .str s => (0x22 : Byte) ∉ s
  | .arr l => l.Tame
  | .obj m => m.Tame
/-- All elements are. -/
def JL.Tame : JL → Prop
  | .nil => True
  | .cons j l => j.Tame ∧ l.Tame
/-- All members are. -/
def JM.Tame : JM → Prop
  | .nil => True
  | .cons k j m => ReadableText k ∧ j.Tame ∧ m.Tame
end

end Verif.Spec
