import Verif.Props.Document
import Verif.Lemmas.Faults

/-!
# The status of a rejected document: C137
-/

namespace Verif.Props

open Verif Verif.Text Verif.Number Verif.Map Verif.Spec Verif.Parser Verif.Doc

variable {D : Type}

/-- **C137**: a rejected buffer has a first fault of the kind that the status names, at the reported position. -/
theorem C137_sound (N : NumOps D) (hN : NegLaw N) (buf : Bytes) (root : Option (Value D)) (res : ParseResult) (root' : Option (Value D))
    (h3 : 3 ≤ buf.length) (hl : buf.getLast? = some 0) (h : parseBuffer N root buf = .ok (res, root')) (hs : res.status ≠ .kOk) :
    ∃ q, Fault buf res.status q ∧ res.errorLine = lineOf q ∧ res.errorColumn = colOf q := by
  rw [parseBuffer_root N root h3 hl, Out.bind_eq_ok] at h
  obtain ⟨⟨st, ro, line, col⟩, hp, h⟩ := h
  cases h
  exact (root_fault N hN buf h3 hl).1 st ro line col hs hp

/-- **C137**, the other direction: whatever the first fault of a buffer is, the buffer is rejected with the status for it, at its position. -/
theorem C137_complete (N : NumOps D) (hN : NegLaw N) (buf : Bytes) (root : Option (Value D)) (st : Status) (q : Bytes)
    (h3 : 3 ≤ buf.length) (hl : buf.getLast? = some 0) (h : Fault buf st q) :
    st ≠ .kOk ∧ ∃ root', parseBuffer N root buf = .ok (⟨st, lineOf q, colOf q⟩, root') := by
  obtain ⟨hne, ro, hp⟩ := (root_fault N hN buf h3 hl).2 st q h
  refine ⟨hne, ro, ?_⟩
  rw [parseBuffer_root N root h3 hl, hp]
  rfl

/-- **C137**: a buffer has a fault or is a text of the dialect, never both, and the kind and position of the fault are determined. -/
theorem C137_exclusive (buf : Bytes) (h3 : 3 ≤ buf.length) (hl : buf.getLast? = some 0) :
    ((∃ st q, Fault buf st q) ↔ ¬ ∃ j, DialText (cstr buf) j) ∧
    ∀ st q st' q', Fault buf st q → Fault buf st' q' → st = st' ∧ lineOf q = lineOf q' ∧ colOf q = colOf q' := by
  refine ⟨⟨?_, ?_⟩, ?_⟩
  · rintro ⟨st, q, h⟩ ⟨j, hj⟩
    obtain ⟨hne, ro, hp⟩ := (root_fault decOps decOps_neg buf h3 hl).2 st q h
    rw [root_complete decOps decOps_neg _ buf h3 hl (Nat.le_refl _) hj] at hp
    simp only [Out.ok.injEq, RootResult.mk.injEq] at hp
    exact hne hp.1.symm
  · intro hn
    rcases root_total decOps decOps_neg _ buf h3 hl (Nat.le_refl _) with ⟨j, hj, -⟩ | ⟨⟨st, ro, line, col⟩, hp, hf⟩
    · exact absurd ⟨j, hj⟩ hn
    · obtain ⟨q, h, -⟩ := (root_fault decOps decOps_neg buf h3 hl).1 st ro line col hf.status hp
      exact ⟨st, q, h⟩
  · intro st q st' q' h h'
    obtain ⟨-, ro, hp⟩ := (root_fault decOps decOps_neg buf h3 hl).2 st q h
    obtain ⟨-, ro', hp'⟩ := (root_fault decOps decOps_neg buf h3 hl).2 st' q' h'
    rw [hp] at hp'
    simp only [Out.ok.injEq, RootResult.mk.injEq] at hp'
    exact ⟨hp'.1, hp'.2.2.1, hp'.2.2.2⟩

/-- `{"a":[1,00]}`: the zeros are the first fault, found after `{"a":[1,`. -/
theorem zeros_fault : Fault [0x7B, 0x22, 0x61, 0x22, 0x3A, 0x5B, 0x31, 0x2C, 0x30, 0x30, 0x5D, 0x7D, 0] .kNumbersCannotHaveLeadingZeros
    [0x7B, 0x22, 0x61, 0x22, 0x3A, 0x5B, 0x31, 0x2C] := by
  refine ⟨[], [], [0x30, 0x30, 0x5D, 0x7D, 0], [0x30, 0x30, 0x5D, 0x7D, 0], rfl, Ws.nil, Ws.nil, notBlank_cons (by decide), rfl,
    .value (notBlank_cons (by decide)) (.obj ?_)⟩
  refine ErrM.value (w := []) (n := [0x22, 0x61, 0x22]) (x := [0x61]) (w1 := []) (w2 := []) Ws.nil ?_ Ws.nil Ws.nil
    (notBlank_cons (by decide)) (.arr ?_)
  · exact ⟨[.lit 0x61], by simp [DialItem], rfl, rfl⟩
  · exact ErrE.next (w := []) (tok := [0x31]) (w' := []) Ws.nil (.num dialNum_one) Ws.nil
      (.value (w := []) Ws.nil (notBlank_cons (by decide)) (by simp) (.zero (.plain (by simp [NumChar, Digit]) (by decide))))

example : ∃ root', parseBuffer decOps none [0x7B, 0x22, 0x61, 0x22, 0x3A, 0x5B, 0x31, 0x2C, 0x30, 0x30, 0x5D, 0x7D, 0] =
    .ok (⟨.kNumbersCannotHaveLeadingZeros, 1, 9⟩, root') :=
  (C137_complete decOps decOps_neg _ none _ _ (by decide) rfl zeros_fault).2

/-- `[1 2]`: a comma or the closing bracket is missing at column 4. -/
example : parseBuffer decOps none [0x5B, 0x31, 0x20, 0x32, 0x5D, 0] = .ok (⟨.kExpectedClosingSquareBracketsOrComma, 1, 4⟩, none) := rfl

/-- `{"a" 1}`: a colon is missing. -/
example : parseBuffer decOps none [0x7B, 0x22, 0x61, 0x22, 0x20, 0x31, 0x7D, 0] = .ok (⟨.kExpectedColon, 1, 6⟩, none) := rfl

/-- `"\q"`: an escape that is not allowed. -/
example : parseBuffer decOps none [0x22, 0x5C, 0x71, 0x22, 0] = .ok (⟨.kStringIllegalEscape, 1, 2⟩, none) := rfl

end Verif.Props
