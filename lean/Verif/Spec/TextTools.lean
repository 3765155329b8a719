import Verif.Spec.Lex
import Verif.Spec.Texts

/-!
# Specification of searching, comparing and scanning text

Independent of the code.
-/

namespace Verif.Texts

open Verif

/-- Of the text in the buffer `t`, a function that looks at no more than `m` bytes sees `s`: either `s` has
`m` bytes, or it is followed by the terminator. -/
def Within (m : Nat) (t s : Bytes) : Prop :=
  0 ∉ s ∧ ((s.length = m ∧ ∃ r, t = s ++ r) ∨ (s.length < m ∧ ∃ r, t = s ++ 0 :: r))

/-- The least number below `n` with the property `P`, if there is one. -/
def Least (P : Nat → Prop) (n : Nat) : Option Nat → Prop
  | some i => i < n ∧ P i ∧ ∀ j, j < i → ¬ P j
  | none => ∀ j, j < n → ¬ P j

/-! ## Quotes -/

/-- What may stand between double quotes: characters other than `"` and `\`, and pairs of a backslash and
any character. The second argument is the text without these backslashes. The first one names the quote. -/
inductive Inner (q : Byte) : Bytes → Bytes → Prop
  | nil : Inner q [] []
  | plain {c : Byte} {t s : Bytes} (h1 : c ≠ q) (h2 : c ≠ 92) (h : Inner q t s) : Inner q (c :: t) (c :: s)
  | escape {c : Byte} {t s : Bytes} (h : Inner q t s) : Inner q (92 :: c :: t) (c :: s)

/-- Text after which we are not inside double quotes. -/
inductive Outside : Bytes → Prop
  | nil : Outside []
  | char {p : Bytes} {c : Byte} (hp : Outside p) (h : c ≠ 34) : Outside (p ++ [c])
  | quoted {p t s : Bytes} (hp : Outside p) (h : Inner 34 t s) : Outside (p ++ 34 :: (t ++ [34]))

/-! ## Letters and case -/

/-- The ASCII letters `a` to `z` replaced by capitals. -/
def capital (c : UInt8) : UInt8 := if 97 ≤ c.toNat ∧ c.toNat ≤ 122 then UInt8.ofNat (c.toNat - 32) else c

/-- Texts that differ only in the case of ASCII letters. -/
def SameCaseless (a b : Bytes) : Prop := a.map capital = b.map capital

/-- The order of texts when case is ignored. -/
def LexLtCaseless (a b : Bytes) : Prop := Spec.LexLt (a.map capital) (b.map capital)

/-! ## Texts with numbers -/

/-- A part of a text: a number, or a character that is not a digit. -/
inductive Part where
  | num (n : Nat)
  | chr (c : Nat)
  deriving DecidableEq, Repr

/-- An ASCII digit. -/
def IsDigit (c : Byte) : Prop := 48 ≤ c.toNat ∧ c.toNat ≤ 57

/-- The parts of a text in which all numbers are below `B` and have no superfluous zeros; `f` gives the
value of a character. -/
inductive Parts (B : Nat) (f : Byte → Nat) : Bytes → List Part → Prop
  | nil : Parts B f [] []
  | chr {c : Byte} {t : Bytes} {ps : List Part} (h : ¬ IsDigit c) (ht : Parts B f t ps) :
      Parts B f (c :: t) (.chr (f c) :: ps)
  | num {n : Nat} {d t : Bytes} {ps : List Part} (hd : NatText n d) (hn : n < B) (hs : ∀ c, t.head? = some c → ¬ IsDigit c)
      (ht : Parts B f t ps) : Parts B f (d ++ t) (.num n :: ps)

/-- The order of parts: numbers by value, characters by code, a number stands where the digits are. -/
def Part.lt : Part → Part → Prop
  | .num m, .num n => m < n
  | .chr c, .chr d => c < d
  | .chr c, .num _ => c < 48
  | .num _, .chr d => 57 < d

/-- The lexicographic order of lists over an order of their elements. -/
def LexBy {α : Type} (lt : α → α → Prop) (a b : List α) : Prop :=
  (∃ y s, b = a ++ y :: s) ∨ (∃ p x y s t, a = p ++ x :: s ∧ b = p ++ y :: t ∧ lt x y)

/-! ## Scanning -/

/-- `s` is what there is of an integer at the beginning of `t` within `m` bytes: an optional minus sign and
the digits after it. -/
def IntegerAt (m : Nat) (t s : Bytes) : Prop :=
  ∃ sg ds r, t = s ++ r ∧ s = sg ++ ds ∧ (sg = [] ∨ sg = [45]) ∧ (∀ c ∈ ds, IsDigit c) ∧ s.length ≤ m ∧
    (s.length < m → (∀ c, r.head? = some c → ¬ IsDigit c) ∧ (s = [] → r.head? ≠ some 45))

/-- The character `c` cannot continue a decimal number. -/
def EndsNumber (c : Byte) : Prop := ¬ IsDigit c ∧ c ≠ 46 ∧ c ≠ 69 ∧ c ≠ 101

/-- A word: bytes above the blank, up to a blank, a control character or two slashes, within `m` bytes. -/
def WordAt (m : Nat) (t s : Bytes) : Prop :=
  ∃ r, t = s ++ r ∧ (∀ c ∈ s, 33 ≤ c.toNat) ∧ s.length ≤ m ∧
    (∀ p q, s = p ++ q → q ≠ [] → ¬ ([47, 47] <+: q ++ r)) ∧
    (s.length < m → (∀ c, r.head? = some c → c.toNat < 33) ∨ [47, 47] <+: r)

/-- The number whose base-256 digits are the bytes of `s`. -/
def bigEndian (s : Bytes) : Nat := s.foldl (fun n c => 256 * n + c.toNat) 0

/-! ## Hexadecimal numbers -/

/-- Value of an upper-case hexadecimal digit. -/
def hexDigitValue (c : Byte) : Option Nat :=
  if 48 ≤ c.toNat ∧ c.toNat ≤ 57 then some (c.toNat - 48)
  else if 65 ≤ c.toNat ∧ c.toNat ≤ 70 then some (c.toNat - 55) else none

/-- Value of a sequence of upper-case hexadecimal digits. -/
def hexValue (s : Bytes) : Option Nat :=
  s.foldl (fun n c => n.bind fun n => (hexDigitValue c).map fun d => 16 * n + d) (some 0)

end Verif.Texts
