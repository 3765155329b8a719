import Verif.Spec.Walk

/-!
# Specification: the part of RFC 8259 on which the parser conforms

The token relations below are RFC 8259's with an explicit list of exclusions.
-/

namespace Verif.Spec

open Verif

/-- The integer part 0 directly followed by an exponent (`0e1`, `-0E5`). -/
def ZeroExp (t : Bytes) : Prop :=
  ∃ sg c r, (sg = [] ∨ sg = [0x2D]) ∧ (c = 0x65 ∨ c = 0x45) ∧ t = sg ++ 0x30 :: c :: r

/-- RFC 8259 numbers other than a zero directly followed by an exponent. -/
def SafeNum (t : Bytes) (d : Dec) : Prop := RfcNum t d ∧ ¬ ZeroExp t

/-- RFC 8259 string items other than DEL and `\u0000`. -/
def SafeItem (i : SItem) : Prop :=
  RfcItem i ∧ i ≠ .lit 0x7F ∧ i.uniIn 0 1 = none

/-- RFC 8259 strings made of such items, without escaped high surrogates. -/
def SafeStr (t : Bytes) (s : Bytes) : Prop :=
  ∃ items : List SItem, (∀ i ∈ items, SafeItem i ∧ i.uniIn 0xD800 0xDC00 = none) ∧
    t = 0x22 :: ((items.map SItem.raw).flatten ++ [0x22]) ∧ s = utf8s (rfcCodes items)

/-- RFC 8259 texts made of such tokens. -/
def SafeText : Bytes → J → Prop := JsonText SafeNum SafeStr

mutual
/-- All strings in a value, member names included. -/
def J.strs : J → List Bytes
  | .str s => [s]
  | .arr l => l.strs
  | .obj m => m.strs
  | _ => []
/-- All strings in a list of elements. -/
def JL.strs : JL → List Bytes
  | .nil => []
  | .cons j l => j.strs ++ l.strs
/-- All strings in a list of members. -/
def JM.strs : JM → List Bytes
  | .nil => []
  | .cons k j m => k :: (j.strs ++ m.strs)
end

end Verif.Spec
