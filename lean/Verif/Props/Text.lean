import Verif.Lemmas.Text
import Verif.Spec.Lex

/-!
# Properties of the text functions: C40, C45, C46
-/

namespace Verif.Props

open Verif Verif.Text Verif.Spec

/-! ## C40 -/

theorem nameLt_iff_lex (a b : Bytes) : nameLt a b = true ↔ LexLt a b := by
  induction a generalizing b with
  | nil =>
    cases b with
    | nil =>
      simp [nameLt, LexLt]
    | cons y b =>
      simp only [nameLt, LexLt, true_iff]
      exact .inl ⟨y, b, rfl⟩
  | cons x a ih =>
    cases b with
    | nil =>
      simp [nameLt, LexLt]
    | cons y b =>
      simp only [nameLt]
      by_cases e : x = y
      · subst e
        rw [if_pos rfl, ih b]
        constructor
        · rintro (⟨z, s, rfl⟩ | ⟨p, u, v, s, t, rfl, rfl, h⟩)
          · exact .inl ⟨z, s, rfl⟩
          · exact .inr ⟨x :: p, u, v, s, t, rfl, rfl, h⟩
        · rintro (⟨z, s, h⟩ | ⟨p, u, v, s, t, h1, h2, h⟩)
          · exact .inl ⟨z, s, by simpa using h⟩
          · cases p with
            | nil =>
              simp only [List.nil_append, List.cons.injEq] at h1 h2
              rw [← h1.1, ← h2.1] at h; omega
            | cons w p =>
              simp only [List.cons_append, List.cons.injEq] at h1 h2
              exact .inr ⟨p, u, v, s, t, h1.2, h2.2, h⟩
      · rw [if_neg e, decide_eq_true_iff]
        constructor
        · intro h
          exact .inr ⟨[], x, y, a, b, rfl, rfl, h⟩
        · rintro (⟨z, s, h⟩ | ⟨p, u, v, s, t, h1, h2, h⟩)
          · simp only [List.cons_append, List.cons.injEq] at h
            exact absurd h.1.symm e
          · cases p with
            | nil =>
              simp only [List.nil_append, List.cons.injEq] at h1 h2
              rw [h1.1, h2.1]; exact h
            | cons w p =>
              simp only [List.cons_append, List.cons.injEq] at h1 h2
              exact absurd (h1.1.trans h2.1.symm) e

theorem lessThan_eq_nameLt (a b x y : Bytes) (ha : (0 : Byte) ∉ a) (hb : (0 : Byte) ∉ b) :
    compareTextLessThan (a ++ 0 :: x) (b ++ 0 :: y) = .ok (nameLt a b) := by
  induction a generalizing b with
  | nil =>
    cases b with
    | nil => simp [compareTextLessThan, nameLt]
    | cons c b =>
      have hc : c ≠ 0 := fun e => hb (by simp [e])
      simp only [List.nil_append, List.cons_append, compareTextLessThan, nameLt, or_true, if_true]
      congr 1
      rw [decide_eq_true_iff]
      have : c.toNat ≠ 0 := fun e => hc (byte_ext e)
      show (0 : Byte).toNat < _
      simp; omega
  | cons d a ih =>
    have hd : d ≠ 0 := fun e => ha (by simp [e])
    have ha' : (0 : Byte) ∉ a := fun h => ha (List.mem_cons_of_mem _ h)
    cases b with
    | nil =>
      simp only [List.nil_append, List.cons_append, compareTextLessThan, nameLt]
      rw [if_pos (.inl hd)]
      congr 1
    | cons c b =>
      have hb' : (0 : Byte) ∉ b := fun h => hb (List.mem_cons_of_mem _ h)
      simp only [List.cons_append, compareTextLessThan, nameLt]
      by_cases e : d = c
      · subst e
        rw [if_neg (by simp [hd]), if_pos rfl, ih b ha' hb']
      · rw [if_pos (.inl e), if_neg e]

theorem compare_eq (a b x y : Bytes) (ha : (0 : Byte) ∉ a) (hb : (0 : Byte) ∉ b) :
    compareText (a ++ 0 :: x) (b ++ 0 :: y) = .ok (decide (a = b)) := by
  induction a generalizing b with
  | nil =>
    cases b with
    | nil => simp [compareText]
    | cons c b =>
      have hc : c ≠ 0 := fun e => hb (by simp [e])
      simp [compareText, Ne.symm hc]
  | cons d a ih =>
    have hd : d ≠ 0 := fun e => ha (by simp [e])
    have ha' : (0 : Byte) ∉ a := fun h => ha (List.mem_cons_of_mem _ h)
    cases b with
    | nil => simp [compareText, hd]
    | cons c b =>
      have hb' : (0 : Byte) ∉ b := fun h => hb (List.mem_cons_of_mem _ h)
      simp only [List.cons_append, compareText]
      by_cases e : d = c
      · subst e
        rw [if_neg (by simp), if_neg hd, ih b ha' hb']
        simp
      · rw [if_pos e]; simp [e]

theorem lessEqual_eq (a b x y : Bytes) (ha : (0 : Byte) ∉ a) (hb : (0 : Byte) ∉ b) :
    compareTextLessEqual (a ++ 0 :: x) (b ++ 0 :: y) = .ok (!nameLt b a) := by
  induction a generalizing b with
  | nil =>
    cases b with
    | nil => simp [compareTextLessEqual, nameLt]
    | cons c b =>
      simp only [List.nil_append, List.cons_append, compareTextLessEqual, nameLt, or_true, if_true]
      congr 1
  | cons d a ih =>
    have hd : d ≠ 0 := fun e => ha (by simp [e])
    have ha' : (0 : Byte) ∉ a := fun h => ha (List.mem_cons_of_mem _ h)
    cases b with
    | nil =>
      simp only [List.nil_append, List.cons_append, compareTextLessEqual, nameLt]
      rw [if_pos (.inl hd)]
      congr 1
      have : d.toNat ≠ 0 := fun e => hd (byte_ext e)
      simp; exact this
    | cons c b =>
      have hb' : (0 : Byte) ∉ b := fun h => hb (List.mem_cons_of_mem _ h)
      simp only [List.cons_append, compareTextLessEqual, nameLt]
      by_cases e : d = c
      · subst e
        rw [if_neg (by simp [hd]), if_pos rfl, ih b ha' hb']
      · rw [if_pos (.inl e), if_neg (Ne.symm e)]
        congr 1
        rw [← decide_not]
        apply decide_eq_decide.2
        omega

/-- **C40.** On C strings (contents `a`, `b` without NUL, followed by a terminator and anything after it)
`CompareTextLessThan` never reads past the terminators and decides the lexicographic order of
unsigned bytes; `CompareTextLessEqual` is the negation of the converse; `CompareText` decides
equality; the order is irreflexive, transitive and total. -/
theorem C40_text_order :
    (∀ a b x y : Bytes, (0 : Byte) ∉ a → (0 : Byte) ∉ b →
      (∃ r, compareTextLessThan (a ++ 0 :: x) (b ++ 0 :: y) = .ok r ∧ (r = true ↔ LexLt a b)) ∧
      (∃ r, compareTextLessEqual (a ++ 0 :: x) (b ++ 0 :: y) = .ok r ∧ (r = true ↔ ¬ LexLt b a)) ∧
      (∃ r, compareText (a ++ 0 :: x) (b ++ 0 :: y) = .ok r ∧ (r = true ↔ a = b))) ∧
    (∀ a, ¬ LexLt a a) ∧
    (∀ a b c, LexLt a b → LexLt b c → LexLt a c) ∧
    (∀ a b, LexLt a b ∨ a = b ∨ LexLt b a) := by
  refine ⟨fun a b x y ha hb => ⟨⟨_, lessThan_eq_nameLt a b x y ha hb, nameLt_iff_lex a b⟩,
    ⟨_, lessEqual_eq a b x y ha hb, ?_⟩, ⟨_, compare_eq a b x y ha hb, by simp⟩⟩, ?_, ?_, ?_⟩
  · rw [← nameLt_iff_lex]; simp
  · intro a h
    rw [← nameLt_iff_lex, nameLt_irrefl] at h; cases h
  · intro a b c h1 h2
    rw [← nameLt_iff_lex] at *
    exact nameLt_trans a b c h1 h2
  · intro a b
    simp only [← nameLt_iff_lex]
    by_cases h1 : nameLt a b = true
    · exact .inl h1
    · by_cases h2 : nameLt b a = true
      · exact .inr (.inr h2)
      · exact .inr (.inl (nameLt_total a b (by simpa using h1) (by simpa using h2)))

/-- "ab" < "é" < ... : bytes above 127 are greater than ASCII. -/
example : compareTextLessThan [97, 98, 0, 7] [0xC3, 0xA9, 0] = .ok true ∧
    compareTextLessThan [97, 98, 0] [97, 0] = .ok false := by decide

/-! ## C45 -/

/-- **C45.** Encoding a code point gives the one to four octets of RFC 3629, as many as
`GetUnicodeCharByteCount` says; decoding them, whatever follows, gives the code point back. -/
theorem C45_utf8_round_trip (cp : Nat) (h : cp < 0x110000) (rest : Bytes) :
    writeUnicodeChar cp = utf8 cp ∧
    (writeUnicodeChar cp).length = getUnicodeCharByteCount cp ∧
    1 ≤ (writeUnicodeChar cp).length ∧ (writeUnicodeChar cp).length ≤ 4 ∧
    readUnicodeChar (writeUnicodeChar cp ++ rest) = .ok ((writeUnicodeChar cp).length, cp) := by
  rw [write_eq_utf8 cp h]
  refine ⟨rfl, ?_, utf8_length_pos cp, utf8_length_le cp, read_utf8 cp h rest⟩
  rw [utf8_length]
  unfold utf8Nat getUnicodeCharByteCount
  (repeat' split) <;> first | rfl | omega

example : writeUnicodeChar 0x1F600 = [0xF0, 0x9F, 0x98, 0x80] ∧
    readUnicodeChar [0xF0, 0x9F, 0x98, 0x80, 0x22] = .ok (4, 0x1F600) := by decide

/-- Above 0x10FFFF nothing is written. -/
theorem C45_out_of_range (cp : Nat) (h : 0x110000 ≤ cp) :
    writeUnicodeChar cp = [] ∧ getUnicodeCharByteCount cp = 0 := by
  unfold writeUnicodeChar getUnicodeCharByteCount
  rw [if_neg (by omega), if_neg (by omega), if_neg (by omega), if_neg (by omega),
    if_neg (by omega), if_neg (by omega), if_neg (by omega), if_neg (by omega)]
  exact ⟨rfl, rfl⟩

/-! ## C46 -/

/-- The full statement of C46: on NUL terminated text the result is the length of the well-formed
character at the beginning, and zero when there is none. -/
def C46_statement : Prop :=
  ∀ t : Bytes, (0 : Byte) ∈ t → ∃ n, validateUnicodeChar t = .ok n ∧
    (∀ cp rest, IsScalar cp → t = utf8 cp ++ rest → n = (utf8 cp).length) ∧
    ((¬ ∃ cp rest, IsScalar cp ∧ t = utf8 cp ++ rest) → n = 0)

/-- UTF-8 encodings are prefix free, so the first character of a text is unique. -/
theorem utf8_prefix_free (cp cp' : Nat) (h : cp < 0x110000) (h' : cp' < 0x110000) (r r' : Bytes)
    (e : utf8 cp ++ r = utf8 cp' ++ r') : cp = cp' := by
  have h1 := read_utf8 cp h r
  have h2 := read_utf8 cp' h' r'
  rw [e, h2] at h1
  simp only [Out.ok.injEq, Prod.mk.injEq] at h1
  exact h1.2.symm

theorem scalar_lt {cp : Nat} (h : IsScalar cp) : cp < 0x110000 := by
  unfold IsScalar at h; omega

/-- **C46 is violated**: the encoding ED A0 80 of the surrogate U+D800 is not well-formed UTF-8 but is
accepted with length 3. -/
theorem C46_violated : ¬ C46_statement := by
  intro H
  obtain ⟨n, hn, -, h0⟩ := H [0xED, 0xA0, 0x80, 0] (by decide)
  have hv : validateUnicodeChar [0xED, 0xA0, 0x80, 0] = .ok 3 := by decide
  rw [hv] at hn
  have : n = 0 := h0 (by
    rintro ⟨cp, rest, hs, e⟩
    have e2 : (utf8 0xD800 ++ [0] : Bytes) = utf8 cp ++ rest := by rw [← e]; decide
    have := utf8_prefix_free 0xD800 cp (by omega) (scalar_lt hs) _ _ e2
    rw [← this] at hs
    revert hs; decide)
  cases hn
  omega

/-- **C46, the part that holds**: every well-formed character is accepted with its length, nothing is read
past the terminator, and what is accepted is the encoding of a code point below 0x110000, shortest
form. Missing: rejection of the encodings of the 2048 surrogates. -/
theorem C46_validate_partial (t : Bytes) (h0 : (0 : Byte) ∈ t) :
    ∃ n, validateUnicodeChar t = .ok n ∧
      (∀ cp rest, cp < 0x110000 → t = utf8 cp ++ rest → n = (utf8 cp).length) ∧
      ((¬ ∃ cp rest, cp < 0x110000 ∧ t = utf8 cp ++ rest) → n = 0) := by
  obtain ⟨n, hn, h⟩ := validate_sound t h0
  refine ⟨n, hn, ?_, ?_⟩
  · intro cp rest hcp e
    have := validate_utf8 cp hcp rest
    rw [← e, hn] at this
    exact Out.ok.inj this
  · intro hno
    rcases h with h | ⟨cp, rest, hcp, e, -⟩
    · exact h
    · exact absurd ⟨cp, rest, hcp, e⟩ hno

example : validateUnicodeChar [0xE2, 0x82, 0xAC, 0] = .ok 3 ∧ utf8 0x20AC = [0xE2, 0x82, 0xAC] ∧
    validateUnicodeChar [0xC0, 0x80, 0] = .ok 0 := by decide

end Verif.Props
