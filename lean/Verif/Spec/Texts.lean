import Verif.Base

/-!
# Specification: texts in memory and decimal numerals

Independent of the code.
-/

namespace Verif.Texts

open Verif

/-- The block of memory `c` holds the text `s` (a C string): the bytes of `s`, none of them
NUL, and then a NUL inside the block. -/
def Holds (c s : Bytes) : Prop := 0 ∉ s ∧ ∃ rest, c = s ++ 0 :: rest

/-- The number denoted by a sequence of decimal digits. -/
def decValue (t : Bytes) : Nat := t.foldl (fun n k => 10 * n + (k.toNat - 48)) 0

/-- `t` is a sequence of digits without superfluous leading zeros. -/
def IsNumeral (t : Bytes) : Prop :=
  t ≠ [] ∧ (∀ k ∈ t, 48 ≤ k.toNat ∧ k.toNat ≤ 57) ∧ (t.head? = some 48 → t = [48])

/-- `t` is the decimal representation of the natural number `n`. -/
def NatText (n : Nat) (t : Bytes) : Prop := IsNumeral t ∧ decValue t = n

/-- `t` is the decimal representation of the integer `n`; negative numbers have a minus sign. -/
def IntText (n : Int) (t : Bytes) : Prop :=
  (0 ≤ n ∧ NatText n.toNat t) ∨ (n < 0 ∧ ∃ u, t = 45 :: u ∧ NatText n.natAbs u)

end Verif.Texts
