import Verif.Spec.Json
import Verif.Spec.Position

/-!
# Specification: the first fault of a text

For every kind of fault, what precedes it and what is found instead of what is expected. The relations have the rest of the text at the
fault as their last argument. Independent of the parser.
-/

namespace Verif.Spec

open Verif

/-- The text does not begin with whitespace. -/
def NotBlank (t : Bytes) : Prop := ∀ c r, t = c :: r → ¬ Ws [c]

/-- A number is not continued by the text that follows. -/
def Ends (j : J) (t : Bytes) : Prop := ∀ d, j = .num d → ∀ c r, t = c :: r → ¬ NumChar c

/-- The body of a string (after the opening quote) in which something is wrong: the end of the text, a character that is not allowed, or an
escape that is not allowed, after any number of allowed characters. -/
inductive StrFault : Bytes → Status → Prop
  | nul {r} : StrFault (0 :: r) .kPrematureNullTerminator
  | char {c r} : c ≠ 0 → c ≠ 0x22 → c ≠ 0x5C → (∀ i r', DialItem i → c :: r ≠ i.raw ++ r') → StrFault (c :: r) .kStringIllegalChar
  | escape {r} : (∀ i r', DialItem i → 0x5C :: r ≠ i.raw ++ r') → StrFault (0x5C :: r) .kStringIllegalEscape
  | item {i r st} : DialItem i → StrFault r st → StrFault (i.raw ++ r) st

/-- After an optional sign, a zero that is followed by something else than a decimal point. -/
inductive LeadZero : Bytes → Bytes → Prop
  | plain {c r} : NumChar c → c ≠ 0x2E → LeadZero (0x30 :: c :: r) (0x30 :: c :: r)
  | signed {s w c r} : s = 0x2B ∨ s = 0x2D → Ws w → NumChar c → c ≠ 0x2E → LeadZero (s :: (w ++ 0x30 :: c :: r)) (0x30 :: c :: r)

/-- The text does not begin like any value. -/
def NoValue (t : Bytes) : Prop :=
  (∀ r, t ≠ 0x22 :: r) ∧ (∀ r, t ≠ 0x5B :: r) ∧ (∀ r, t ≠ 0x7B :: r) ∧
  (∀ r, t ≠ [0x74, 0x72, 0x75, 0x65] ++ r) ∧ (∀ r, t ≠ [0x66, 0x61, 0x6C, 0x73, 0x65] ++ r) ∧ (∀ r, t ≠ [0x6E, 0x75, 0x6C, 0x6C] ++ r) ∧
  ∀ tok d r, DialNum tok d → t ≠ tok ++ r

mutual
/-- The first fault of a text that should begin with a value. -/
inductive ErrV : Bytes → Status → Bytes → Prop
  | none {t} : NoValue t → ErrV t .kExpectedJsonValue t
  | zero {t p} : LeadZero t p → ErrV t .kNumbersCannotHaveLeadingZeros p
  | str {s st} : StrFault s st → ErrV (0x22 :: s) st s
  | arr {s st p} : ErrE true s st p → ErrV (0x5B :: s) st p
  | obj {s st p} : ErrM true s st p → ErrV (0x7B :: s) st p
/-- The first fault of a text that should continue an array, after the opening bracket (`true`) or a comma. -/
inductive ErrE : Bool → Bytes → Status → Bytes → Prop
  | close {w r} : Ws w → ErrE false (w ++ 0x5D :: r) .kExpectedJsonValue (0x5D :: r)
  | value {b w t st p} : Ws w → NotBlank t → (∀ r, t ≠ 0x5D :: r) → ErrV t st p → ErrE b (w ++ t) st p
  | sep {b w tok j w' c r} : Ws w → Val DialNum DialStr tok j → Ws w' → Ends j (w' ++ c :: r) → ¬ Ws [c] → c ≠ 0x2C → c ≠ 0x5D →
      ErrE b (w ++ (tok ++ (w' ++ c :: r))) .kExpectedClosingSquareBracketsOrComma (c :: r)
  | next {b w tok j w' s st p} : Ws w → Val DialNum DialStr tok j → Ws w' → ErrE false s st p →
      ErrE b (w ++ (tok ++ (w' ++ 0x2C :: s))) st p
/-- The first fault of a text that should continue an object, after the opening brace (`true`) or a comma. -/
inductive ErrM : Bool → Bytes → Status → Bytes → Prop
  | close {w r} : Ws w → ErrM false (w ++ 0x7D :: r) .kExpectedJsonValue (0x7D :: r)
  | quote {b w c r} : Ws w → ¬ Ws [c] → c ≠ 0x22 → c ≠ 0x7D → ErrM b (w ++ c :: r) .kExpectedBeginingDoubleQuotes (c :: r)
  | name {b w s st} : Ws w → StrFault s st → ErrM b (w ++ 0x22 :: s) st s
  | colon {b w n x w' c r} : Ws w → DialStr n x → Ws w' → ¬ Ws [c] → c ≠ 0x3A →
      ErrM b (w ++ (n ++ (w' ++ c :: r))) .kExpectedColon (c :: r)
  | value {b w n x w1 w2 t st p} : Ws w → DialStr n x → Ws w1 → Ws w2 → NotBlank t → ErrV t st p →
      ErrM b (w ++ (n ++ (w1 ++ 0x3A :: (w2 ++ t)))) st p
  | sep {b w n x w1 w2 tok j w' c r} : Ws w → DialStr n x → Ws w1 → Ws w2 → Val DialNum DialStr tok j → Ws w' → Ends j (w' ++ c :: r) →
      ¬ Ws [c] → c ≠ 0x2C → c ≠ 0x7D →
      ErrM b (w ++ (n ++ (w1 ++ 0x3A :: (w2 ++ (tok ++ (w' ++ c :: r)))))) .kExpectedClosingCurlyBracesOrComma (c :: r)
  | next {b w n x w1 w2 tok j w' s st p} : Ws w → DialStr n x → Ws w1 → Ws w2 → Val DialNum DialStr tok j → Ws w' → ErrM false s st p →
      ErrM b (w ++ (n ++ (w1 ++ 0x3A :: (w2 ++ (tok ++ (w' ++ 0x2C :: s)))))) st p
end

/-- The first fault of a text that follows the whitespace at the beginning of a document; a document ends with a NUL. -/
inductive ErrDoc : Bytes → Status → Bytes → Prop
  | value {t st p} : NotBlank t → ErrV t st p → ErrDoc t st p
  | trailing {tok j w c r} : Val DialNum DialStr tok j → Ws w → Ends j (w ++ c :: r) → ¬ Ws [c] → c ≠ 0 →
      ErrDoc (tok ++ (w ++ c :: r)) .kExpectedEndOfFile (c :: r)

/-- The first fault of a document, and the position that is reported for it: the bytes `q` from the first one that is not whitespace to the
first one at or after the fault that is not whitespace. -/
def Fault (buf : Bytes) (st : Status) (q : Bytes) : Prop :=
  ∃ w w' p r, buf = w ++ (q ++ r) ∧ Ws w ∧ Ws w' ∧ NotBlank r ∧ p = w' ++ r ∧ ErrDoc (q ++ r) st p

end Verif.Spec
