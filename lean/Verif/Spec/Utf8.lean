/-!
# Specification of UTF-8 (RFC 3629)

Written with plain arithmetic, independently of the bit operations of the code.
-/

namespace Verif.Spec

/-- A Unicode scalar value: a code point that is not a surrogate. -/
def IsScalar (cp : Nat) : Prop := cp < 0xD800 ∨ (0xE000 ≤ cp ∧ cp < 0x110000)

instance (cp : Nat) : Decidable (IsScalar cp) := by unfold IsScalar; infer_instance

/-- UTF-8 octets of a code point (RFC 3629, section 3), as numbers. -/
def utf8Nat (cp : Nat) : List Nat :=
  if cp < 0x80 then [cp]
  else if cp < 0x800 then [192 + cp / 64, 128 + cp % 64]
  else if cp < 0x10000 then [224 + cp / 4096, 128 + cp / 64 % 64, 128 + cp % 64]
  else [240 + cp / 262144, 128 + cp / 4096 % 64, 128 + cp / 64 % 64, 128 + cp % 64]

/-- UTF-8 octets of a code point, as bytes. -/
def utf8 (cp : Nat) : List UInt8 := (utf8Nat cp).map UInt8.ofNat

/-- UTF-8 text of a sequence of code points. -/
def utf8s (cps : List Nat) : List UInt8 := (cps.map utf8).flatten

/-- Well-formed UTF-8. -/
def WellFormed (t : List UInt8) : Prop := ∃ cps, (∀ cp ∈ cps, IsScalar cp) ∧ t = utf8s cps

/-- UTF-8 in which surrogate code points are also encoded ("generalized UTF-8"). -/
def Generalized (t : List UInt8) : Prop := ∃ cps, (∀ cp ∈ cps, cp < 0x110000) ∧ t = utf8s cps

end Verif.Spec
