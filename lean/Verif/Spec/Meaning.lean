import Verif.Props.Parser

/-!
# Texts that mean the same
-/

namespace Verif.Props

open Verif Verif.Text Verif.Number Verif.Spec Verif.Parser Verif.Doc

variable {D : Type}

/-- What two abstract values at the same place have in common if they mean the same: the kind, and the contents of scalars, and the length
of arrays. Numbers are compared after the conversion. -/
def MeanAlike (N : NumOps D) : J → J → Prop
  | .null, .null => True
  | .bool b, .bool b' => b' = b
  | .num d, .num d' => N.conv d'.neg d'.mantissa d'.exponent = N.conv d.neg d.mantissa d.exponent
  | .str s, .str s' => s' = s
  | .arr l, .arr l' => l'.length = l.length
  | .obj _, .obj _ => True
  | _, _ => False

/-- Every path leads nowhere in both or to abstract values that agree. The order of members and members whose name was there before do not
count. -/
def SameMeaning (N : NumOps D) (j j' : J) : Prop :=
  ∀ path : List Step, (j.walk path = none ∧ j'.walk path = none) ∨
    ∃ x x', j.walk path = some x ∧ j'.walk path = some x' ∧ MeanAlike N x x'

/-- The texts in two buffers mean the same. -/
def SameText (N : NumOps D) (buf buf' : Bytes) : Prop :=
  ∃ j j', DialText (cstr buf) j ∧ DialText (cstr buf') j' ∧ SameMeaning N j j'

end Verif.Props
