import Verif.Spec.Utf8

/-!
# Specification of UTF-16 (RFC 2781) and of reading possibly malformed text
-/

namespace Verif.Spec

/-- UTF-16 units of a code point (RFC 2781, section 2.1), as numbers. -/
def utf16Nat (cp : Nat) : List Nat :=
  if cp < 0x10000 then [cp]
  else [0xD800 + (cp - 0x10000) / 0x400, 0xDC00 + (cp - 0x10000) % 0x400]

/-- UTF-16 units of a code point. -/
def utf16 (cp : Nat) : List UInt16 := (utf16Nat cp).map UInt16.ofNat

/-- UTF-16 text of a sequence of code points. -/
def utf16s (cps : List Nat) : List UInt16 := (cps.map utf16).flatten

/-- First half of a surrogate pair. -/
def High (u : UInt16) : Prop := 0xD800 ≤ u.toNat ∧ u.toNat < 0xDC00

/-- Second half of a surrogate pair. -/
def Low (u : UInt16) : Prop := 0xDC00 ≤ u.toNat ∧ u.toNat < 0xE000

instance (u : UInt16) : Decidable (High u) := by unfold High; infer_instance
instance (u : UInt16) : Decidable (Low u) := by unfold Low; infer_instance

/-- The characters of 16-bit text, in which halves of surrogate pairs without the other half are ignored. -/
def read16 : List UInt16 → List Nat
  | [] => []
  | [u] => if High u ∨ Low u then [] else [u.toNat]
  | u :: v :: t =>
      if High u ∧ Low v then (0x10000 + (u.toNat - 0xD800) * 0x400 + (v.toNat - 0xDC00)) :: read16 t
      else if High u ∨ Low u then read16 (v :: t)
      else u.toNat :: read16 (v :: t)

/-- The characters of a text meant as UTF-8: a byte at which no (generalized) character begins counts as U+FFFD. -/
inductive Reads8 : List UInt8 → List Nat → Prop
  | nil : Reads8 [] []
  | char {cp : Nat} {t : List UInt8} {cps : List Nat} (h : cp < 0x110000) (hr : Reads8 t cps) :
      Reads8 (utf8 cp ++ t) (cp :: cps)
  | bad {b : UInt8} {t : List UInt8} {cps : List Nat} (h : ∀ cp r, cp < 0x110000 → b :: t ≠ utf8 cp ++ r)
      (hr : Reads8 t cps) : Reads8 (b :: t) (0xFFFD :: cps)

/-- Number of one bits at the top of the `k` lowest bits of `n`. -/
def leadingOnes : Nat → Nat → Nat
  | 0, _ => 0
  | k + 1, n => if n / 2 ^ k % 2 = 1 then leadingOnes k n + 1 else 0

/-- The number of bytes announced by the first byte of a character: its leading one bits if there are two to four of them. -/
def announced (c : UInt8) : Nat :=
  if 2 ≤ leadingOnes 8 c.toNat ∧ leadingOnes 8 c.toNat ≤ 4 then leadingOnes 8 c.toNat else 1

end Verif.Spec
