import Verif.Spec.Json

/-!
# Specification: the number literals of the built-in reader
-/

namespace Verif.Spec

open Verif

/-- Groups of digits separated by single underscores: the text and its digits. If `single` is set, every group is one digit. -/
def Grouped (single : Bool) (s ds : Bytes) : Prop :=
  ∃ (g : Bytes) (gs : List Bytes), (∀ g' ∈ g :: gs, g' ≠ [] ∧ (∀ d ∈ g', Digit d) ∧ (single = true → g'.length = 1)) ∧
    s = g ++ (gs.map (0x5F :: ·)).flatten ∧ ds = g ++ gs.flatten

/-- The exponent part, if there is one. -/
inductive UnderExp : Bytes → Option Int → Prop
  | none : UnderExp [] none
  | unsigned {c s ds} : c = 0x65 ∨ c = 0x45 → Grouped false s ds → UnderExp (c :: s) (some (decimal ds))
  | plus {c s ds} : c = 0x65 ∨ c = 0x45 → Grouped false s ds → UnderExp (c :: 0x2B :: s) (some (decimal ds))
  | minus {c s ds} : c = 0x65 ∨ c = 0x45 → Grouped false s ds → UnderExp (c :: 0x2D :: s) (some (-(decimal ds : Int)))

/-- The fraction part: the text and its digits. -/
inductive UnderFrac : Bytes → Bytes → Prop
  | none : UnderFrac [] []
  | point : UnderFrac [0x2E] []
  | some {s ds} : Grouped false s ds → UnderFrac (0x2E :: s) ds

/-- The digits before the point. If they begin with 0 then no two digits are adjacent. -/
def UnderInt (s ds : Bytes) : Prop := s = [] ∧ ds = [] ∨ Grouped (s.head? == some 0x30) s ds

/-- Literals of the built-in reader: the text, the digits before and after the point, and the exponent. -/
inductive UnderNum : Bytes → Bytes → Bytes → Option Int → Prop
  | mk {it ip ft fp et e} : UnderInt it ip → UnderFrac ft fp → ip ++ fp ≠ [] → UnderExp et e →
      UnderNum (it ++ (ft ++ et)) ip fp e

end Verif.Spec
