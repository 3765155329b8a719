import Verif.Model.Wide
import Verif.Spec.Utf16
import Verif.Spec.Texts
import Verif.Lemmas.Text
import Verif.Lemmas.DynString

namespace Verif.Wide

open Verif Verif.Spec Verif.Text Verif.Texts Verif.Str

/-! ## Storing into a block at the end of what has been stored -/

/-- `l` stored behind `pre` in the block `pre ++ old`. -/
def lay {α : Type} (pre l old : List α) : Out (List α) :=
  if l.length ≤ old.length then .ok (pre ++ (l ++ old.drop l.length)) else .ub

theorem wr16_lay (pre old : Units) (v : UInt16) : wr16 (pre ++ old) pre.length v = lay pre [v] old := by
  unfold wr16 lay
  cases old with
  | nil => simp
  | cons o old => simp

theorem wr_lay (pre old : Bytes) (v : Byte) : wr (pre ++ old) pre.length v = lay pre [v] old := by
  unfold wr lay
  cases old with
  | nil => simp
  | cons o old => simp

theorem wrAll_lay : ∀ (l pre old : Bytes), Dyn.wrAll l pre.length (pre ++ old) = lay pre l old
  | [], pre, old => by simp [Dyn.wrAll, lay]
  | v :: l, pre, old => by
      rw [Dyn.wrAll, wr_lay]
      cases old with
      | nil => simp [lay]
      | cons o old =>
          have ih := wrAll_lay l (pre ++ [v]) old
          simp only [List.length_append, List.length_singleton, List.append_assoc, List.singleton_append] at ih
          have e : lay pre [v] (o :: old) = .ok (pre ++ v :: old) := by simp [lay]
          rw [e, Out.ok_bind, ih]
          simp [lay]

/-- Storing two pieces one after the other is storing their concatenation. -/
theorem lay_bind {α : Type} (pre l m old : List α) (f : List α → Out (List α))
    (h : l.length ≤ old.length → f (pre ++ (l ++ old.drop l.length)) = lay (pre ++ l) m (old.drop l.length)) :
    (lay pre l old >>= f) = lay pre (l ++ m) old := by
  by_cases hl : l.length ≤ old.length
  · rw [lay, if_pos hl, Out.ok_bind, h hl]
    unfold lay
    simp only [List.length_append, List.length_drop, List.append_assoc, List.drop_drop]
    by_cases hm : m.length ≤ old.length - l.length
    · rw [if_pos hm, if_pos (by omega)]
    · rw [if_neg hm, if_neg (by omega)]
  · rw [lay, if_neg hl]
    unfold lay
    rw [if_neg (by simp; omega)]
    rfl

/-! ## 16-bit text -/

theorem toNat16 {n : Nat} (h : n < 65536) : (UInt16.ofNat n).toNat = n := by
  simp [UInt16.toNat_ofNat']; omega

theorem or10 (a b : Nat) (hb : b < 0x400) : a <<< 10 ||| b = a * 0x400 + b := by
  rw [← Nat.shiftLeft_add_eq_or_of_lt (i := 10) hb, Nat.shiftLeft_eq]

theorem zero16 {u : UInt16} : u.toNat = 0 ↔ u = 0 := by
  rw [← UInt16.toNat_inj]; simp

/-- The head of the loops finds the next character of the text. -/
theorem wideHead_spec (w r : Units) (h0 : 0 ∉ w) :
    (w = [] ∧ wideHead (w ++ 0 :: r) = .ok .stop) ∨
    (∃ w', w'.length < w.length ∧ 0 ∉ w' ∧ read16 w = read16 w' ∧ wideHead (w ++ 0 :: r) = .ok (.skip (w' ++ 0 :: r))) ∨
    (∃ cp w', w'.length < w.length ∧ 0 ∉ w' ∧ cp ≠ 0 ∧ IsScalar cp ∧ read16 w = cp :: read16 w' ∧
      wideHead (w ++ 0 :: r) = .ok (.char cp (w' ++ 0 :: r))) := by
  match w, h0 with
  | [], _ => left; exact ⟨rfl, rfl⟩
  | [u], h0 =>
      right
      have hu : u.toNat ≠ 0 := fun e => h0 (by rw [zero16.1 e]; simp)
      have hN := u.toNat_lt
      simp only [List.cons_append, List.nil_append, wideHead, if_neg hu, read16]
      by_cases hs : 0xD800 ≤ u.toNat ∧ u.toNat < 0xD800 + 0x0800
      · left
        refine ⟨[], by simp, by simp, ?_, ?_⟩
        · rw [if_pos (by unfold High Low; omega)]; rfl
        · rw [if_pos hs]
          split
          · rfl
          · rw [if_neg (by decide)]; rfl
      · right
        refine ⟨u.toNat, [], by simp, by simp, hu, ?_, ?_, ?_⟩
        · unfold IsScalar; omega
        · rw [if_neg (by unfold High Low; omega)]; rfl
        · rw [if_neg hs]; rfl
  | u :: v :: t, h0 =>
      right
      have hu : u.toNat ≠ 0 := fun e => h0 (by rw [zero16.1 e]; simp)
      have hN := u.toNat_lt
      have hvt : 0 ∉ v :: t := fun h => h0 (List.mem_cons_of_mem _ h)
      have ht : 0 ∉ t := fun h => hvt (List.mem_cons_of_mem _ h)
      simp only [List.cons_append, wideHead, if_neg hu, read16]
      by_cases hs : 0xD800 ≤ u.toNat ∧ u.toNat < 0xD800 + 0x0800
      · rw [if_pos hs]
        by_cases hl : 0x0400 ≤ u.toNat - 0xD800
        · left
          rw [if_pos hl]
          refine ⟨v :: t, by simp, hvt, ?_, rfl⟩
          rw [if_neg (by unfold High Low; omega), if_pos (by unfold High Low; omega)]
        · rw [if_neg hl]
          by_cases hv : 0xDC00 ≤ v.toNat ∧ v.toNat < 0xDC00 + 0x0400
          · right
            rw [if_pos hv]
            refine ⟨((u.toNat - 0xD800) <<< 10 ||| (v.toNat - 0xDC00)) + 0x010000, t, by simp; omega, ht, by omega,
              ?_, ?_, rfl⟩
            · rw [or10 _ _ (by omega)]; unfold IsScalar; omega
            · rw [if_pos (by unfold High Low; omega), or10 _ _ (by omega)]
              exact congrArg (· :: read16 t) (by omega)
          · left
            rw [if_neg hv]
            refine ⟨v :: t, by simp, hvt, ?_, rfl⟩
            rw [if_neg (by unfold High Low; omega), if_pos (by unfold High Low; omega)]
      · right
        rw [if_neg hs]
        refine ⟨u.toNat, v :: t, by simp, hvt, hu, ?_, ?_, rfl⟩
        · unfold IsScalar; omega
        · rw [if_neg (by unfold High Low; omega), if_neg (by unfold High Low; omega)]

theorem scalar_lt' {cp : Nat} (h : IsScalar cp) : cp < 0x110000 := by unfold IsScalar at h; omega

theorem byteCount_utf8 (cp : Nat) (h : cp < 0x110000) : getUnicodeCharByteCount cp = (utf8 cp).length := by
  unfold getUnicodeCharByteCount
  rw [utf8_length]; unfold utf8Nat
  by_cases h1 : cp < 0x80
  · rw [if_pos (by omega), if_pos h1]; rfl
  · rw [if_neg (by omega), if_neg h1]
    by_cases h2 : cp < 0x800
    · rw [if_pos (by omega), if_pos h2]; rfl
    · rw [if_neg (by omega), if_neg h2]
      by_cases h3 : cp < 0x10000
      · rw [if_pos (by omega), if_pos h3]; rfl
      · rw [if_neg (by omega), if_neg h3, if_pos (by omega)]; rfl

theorem utf8s_nil : utf8s [] = [] := rfl
theorem utf8s_cons (c : Nat) (l : List Nat) : utf8s (c :: l) = utf8 c ++ utf8s l := by simp [utf8s]
theorem utf16s_nil : utf16s [] = [] := rfl
theorem utf16s_cons (c : Nat) (l : List Nat) : utf16s (c :: l) = utf16 c ++ utf16s l := by simp [utf16s]

/-- All characters read from 16-bit text are scalar values other than NUL. -/
theorem read16_scalar : ∀ (n : Nat) (w : Units), w.length < n → 0 ∉ w → ∀ cp ∈ read16 w, IsScalar cp ∧ cp ≠ 0
  | 0, _, h, _ => absurd h (Nat.not_lt_zero _)
  | n + 1, w, h, h0 => by
      rcases wideHead_spec w [] h0 with ⟨e, _⟩ | ⟨w', hl, h0', e, _⟩ | ⟨cp, w', hl, h0', hz, hs, e, _⟩
      · subst e; simp [read16]
      · rw [e]; exact read16_scalar n w' (by omega) h0'
      · rw [e]
        intro c hc
        rcases List.mem_cons.1 hc with rfl | hc
        · exact ⟨hs, hz⟩
        · exact read16_scalar n w' (by omega) h0' c hc

theorem stringLength_spec (r : Units) : ∀ (n : Nat) (w : Units) (len : Nat), w.length < n → 0 ∉ w →
    getUnicodeStringLength n (w ++ 0 :: r) len = .ok (len + (utf8s (read16 w)).length)
  | 0, _, _, h, _ => absurd h (Nat.not_lt_zero _)
  | n + 1, w, len, h, h0 => by
      rw [getUnicodeStringLength]
      rcases wideHead_spec w r h0 with ⟨e, eh⟩ | ⟨w', hl, h0', e, eh⟩ | ⟨cp, w', hl, h0', hz, hs, e, eh⟩
      · rw [eh]; subst e; rfl
      · rw [eh, Out.ok_bind, e]; exact stringLength_spec r n w' len (by omega) h0'
      · rw [eh, Out.ok_bind, e, utf8s_cons, List.length_append]
        show getUnicodeStringLength n (w' ++ 0 :: r) (len + getUnicodeCharByteCount cp) = _
        rw [stringLength_spec r n w' _ (by omega) h0', byteCount_utf8 cp (scalar_lt' hs), Nat.add_assoc]

/-- The characters from the beginning that fit into `max` bytes. -/
def fit8 : Nat → List Nat → List Nat
  | _, [] => []
  | m, c :: cs => if (utf8 c).length > m then [] else c :: fit8 (m - (utf8 c).length) cs

theorem toString_spec (r : Units) : ∀ (n : Nat) (w : Units) (max : Nat) (pre old : Bytes), w.length < n → 0 ∉ w →
    convertWideTextToString n (w ++ 0 :: r) pre.length max (pre ++ old) =
      lay pre (utf8s (fit8 max (read16 w)) ++ [0]) old
  | 0, _, _, _, _, h, _ => absurd h (Nat.not_lt_zero _)
  | n + 1, w, max, pre, old, h, h0 => by
      rw [convertWideTextToString]
      rcases wideHead_spec w r h0 with ⟨e, eh⟩ | ⟨w', hl, h0', e, eh⟩ | ⟨cp, w', hl, h0', hz, hs, e, eh⟩
      · rw [eh]; subst e; exact wr_lay pre old 0
      · rw [eh, Out.ok_bind, e]; exact toString_spec r n w' max pre old (by omega) h0'
      · rw [eh, Out.ok_bind, e]
        simp only [byteCount_utf8 cp (scalar_lt' hs), write_eq_utf8 cp (scalar_lt' hs), fit8]
        split
        · exact wr_lay pre old 0
        · rw [wrAll_lay, utf8s_cons, List.append_assoc]
          apply lay_bind
          intro _
          have := toString_spec r n w' (max - (utf8 cp).length) (pre ++ utf8 cp) (old.drop (utf8 cp).length) (by omega) h0'
          rwa [List.length_append, List.append_assoc] at this

/-! ## 8-bit text -/

/-- Reading a character: the next character of the text, or U+FFFD for a byte at which none begins. -/
theorem read_sound (t : Bytes) (h : (0 : Byte) ∈ t) :
    (∃ cp rest, cp < 0x110000 ∧ t = utf8 cp ++ rest) ∨ readUnicodeChar t = .ok (1, 0xFFFD) := by
  unfold readUnicodeChar
  match t, h with
  | a :: t, h =>
    have haN := a.toNat_lt
    simp only [rd_cons_zero, rd_cons_succ, Out.ok_bind]
    split
    · rename_i h1
      refine .inl ⟨a.toNat, t, by omega, ?_⟩
      simp [utf8, utf8Nat, h1]
    · rename_i h1
      split
      · rename_i h2
        have ha0 : a ≠ 0 := ne_zero_of_ge (by omega)
        have h : (0 : Byte) ∈ t := by
          rcases List.mem_cons.1 h with e | h
          · exact absurd e.symm ha0
          · exact h
        match t, h with
        | b :: t, h =>
          have hbN := b.toNat_lt
          simp only [rd_cons_zero, rd_cons_succ, Out.ok_bind]
          split
          · rename_i h3
            rw [and_c0 _ hbN] at h3
            have hb0 : b ≠ 0 := ne_zero_of_ge (by omega)
            split
            · rename_i h4
              have e := utf8_two a b ((a.toNat % 32) * 64 + b.toNat % 64) (by omega) (by omega)
                (by omega) (by omega)
              refine .inl ⟨_, t, ?_, by rw [e]; rfl⟩; omega
            · rename_i h4
              have h : (0 : Byte) ∈ t := by
                rcases List.mem_cons.1 h with e | h
                · exact absurd e.symm hb0
                · exact h
              match t, h with
              | c :: t, h =>
                have hcN := c.toNat_lt
                simp only [rd_cons_zero, Out.ok_bind, code3]
                split
                · rename_i h5
                  rw [and_c0 _ hcN] at h5
                  have hc0 : c ≠ 0 := ne_zero_of_ge (by omega)
                  split
                  · rename_i h6
                    split
                    · rename_i h7
                      have e := utf8_three a b c
                        ((a.toNat % 16) * 4096 + (b.toNat % 64) * 64 + c.toNat % 64) (by omega)
                        (by omega) (by omega) (by omega) (by omega)
                      refine .inl ⟨_, t, ?_, by rw [e]; rfl⟩; omega
                    · exact .inr rfl
                  · rename_i h6
                    have h : (0 : Byte) ∈ t := by
                      rcases List.mem_cons.1 h with e | h
                      · exact absurd e.symm hc0
                      · exact h
                    match t, h with
                    | d :: t, h =>
                      have hdN := d.toNat_lt
                      simp only [rd_cons_succ, rd_cons_zero, Out.ok_bind, code4]
                      split
                      · rename_i h7
                        rw [and_c0 _ hdN] at h7
                        split
                        · rename_i h8
                          have e := utf8_four a b c d
                            ((a.toNat % 8) * 262144 + (b.toNat % 64) * 4096 + (c.toNat % 64) * 64 +
                              d.toNat % 64) (by omega)
                            (by omega) (by omega) (by omega) (by omega) (by omega)
                          refine .inl ⟨_, t, ?_, by rw [e]; rfl⟩; omega
                        · exact .inr rfl
                      · exact .inr rfl
                · exact .inr rfl
          · exact .inr rfl
      · exact .inr rfl

/-- If no character begins here within the text, none begins here in the terminated text. -/
theorem no_char_terminated {b : Byte} {t r : Bytes} (h0 : (0 : Byte) ∉ b :: t)
    (h : ∀ cp rest, cp < 0x110000 → b :: t ≠ utf8 cp ++ rest) (cp : Nat) (rest : Bytes) (hcp : cp < 0x110000) :
    b :: t ++ 0 :: r ≠ utf8 cp ++ rest := by
  intro e
  have hz : cp ≠ 0 := by
    rintro rfl
    have : b = 0 := by
      have := congrArg List.head? e
      simpa [utf8, utf8Nat] using this
    exact h0 (by rw [this]; simp)
  have hn := utf8_nul_free cp hcp hz
  by_cases hl : (utf8 cp).length ≤ (b :: t).length
  · have e1 := congrArg (List.take (utf8 cp).length) e
    rw [List.take_append_of_le_length hl, List.take_left'] at e1
    · refine h cp ((b :: t).drop (utf8 cp).length) hcp ?_
      conv => lhs; rw [← List.take_append_drop (utf8 cp).length (b :: t)]
      rw [e1]
    · rfl
  · apply hn
    have e1 := congrArg (fun l => l[(b :: t).length]?) e
    simp only [List.getElem?_append_right (Nat.le_refl _), Nat.sub_self] at e1
    rw [List.getElem?_append_left (by omega)] at e1
    exact List.mem_of_getElem? e1.symm

theorem read_nul (r : Bytes) : readUnicodeChar (0 :: r) = .ok (1, 0) := rfl

theorem utf8_inj {a b : Nat} (ha : a < 0x110000) (hb : b < 0x110000) {r s : Bytes} (h : utf8 a ++ r = utf8 b ++ s) :
    a = b ∧ r = s := by
  have h1 := read_utf8 a ha r
  rw [h, read_utf8 b hb s] at h1
  injection h1 with h1
  injection h1 with h1 h2
  subst h2
  exact ⟨rfl, List.append_cancel_left h⟩

theorem read_bad {b : Byte} {t r : Bytes} (h0 : (0 : Byte) ∉ b :: t)
    (h : ∀ cp rest, cp < 0x110000 → b :: t ≠ utf8 cp ++ rest) :
    readUnicodeChar (b :: t ++ 0 :: r) = .ok (1, 0xFFFD) := by
  rcases read_sound (b :: t ++ 0 :: r) (by simp) with ⟨cp, rest, hcp, e⟩ | e
  · exact absurd e (no_char_terminated h0 h cp rest hcp)
  · exact e

theorem reads8_exists : ∀ (n : Nat) (t : Bytes), t.length < n → ∃ cps, Reads8 t cps
  | 0, _, h => absurd h (Nat.not_lt_zero _)
  | n + 1, [], _ => ⟨[], .nil⟩
  | n + 1, b :: t, h => by
      by_cases hc : ∃ cp r, cp < 0x110000 ∧ b :: t = utf8 cp ++ r
      · obtain ⟨cp, r, hcp, e⟩ := hc
        have hp := utf8_length_pos cp
        have hl := congrArg List.length e
        rw [List.length_append] at hl
        obtain ⟨cps, hr⟩ := reads8_exists n r (by omega)
        exact ⟨cp :: cps, e ▸ .char hcp hr⟩
      · obtain ⟨cps, hr⟩ := reads8_exists n t (by simp at h; omega)
        exact ⟨0xFFFD :: cps, .bad (fun cp r hcp e => hc ⟨cp, r, hcp, e⟩) hr⟩

theorem reads8_unique {t : Bytes} {a b : List Nat} (ha : Reads8 t a) (hb : Reads8 t b) : a = b := by
  induction ha generalizing b with
  | nil =>
      generalize e : ([] : Bytes) = u at hb
      cases hb with
      | nil => rfl
      | @char cp _ _ h hr =>
          have h1 := congrArg List.length e; have h2 := utf8_length_pos cp
          rw [List.length_append, List.length_nil] at h1; omega
      | bad h hr => cases e
  | @char cp t cps h hr ih =>
      generalize e : utf8 cp ++ t = u at hb
      cases hb with
      | nil =>
          have h1 := congrArg List.length e; have h2 := utf8_length_pos cp
          rw [List.length_append, List.length_nil] at h1; omega
      | char h' hr' =>
          obtain ⟨rfl, rfl⟩ := utf8_inj h h' e
          rw [ih hr']
      | bad h' hr' => exact absurd e.symm (h' _ _ h)
  | @bad b' t cps h hr ih =>
      generalize e : b' :: t = u at hb
      cases hb with
      | nil => cases e
      | char h' hr' => exact absurd e (h _ _ h')
      | bad h' hr' => injection e with e1 e2; subst e2; rw [ih hr']

theorem utf16_length (cp : Nat) : (utf16 cp).length = 1 + if 0x010000 ≤ cp then 1 else 0 := by
  unfold utf16 utf16Nat
  by_cases h : cp < 0x10000
  · rw [if_pos h, if_neg (by omega)]; rfl
  · rw [if_neg h, if_pos (by omega)]; rfl

/-- One step of the loops over 8-bit text. -/
theorem reads8_step {s : Bytes} {cps : List Nat} (r : Bytes) (h : Reads8 s cps) (h0 : (0 : Byte) ∉ s) :
    (s = [] ∧ cps = []) ∨ ∃ k cp s' cps', cps = cp :: cps' ∧ cp ≠ 0 ∧ cp < 0x110000 ∧ Reads8 s' cps' ∧ (0 : Byte) ∉ s' ∧
      s'.length < s.length ∧ readUnicodeChar (s ++ 0 :: r) = .ok (k, cp) ∧ (s ++ 0 :: r).drop k = s' ++ 0 :: r := by
  cases h with
  | nil => exact .inl ⟨rfl, rfl⟩
  | @char cp t cps hcp hr =>
      right
      have hp := utf8_length_pos cp
      refine ⟨(utf8 cp).length, cp, t, cps, rfl, ?_, hcp, hr, fun h => h0 (List.mem_append_right _ h), by
        rw [List.length_append]; omega, ?_, ?_⟩
      · rintro rfl; exact h0 (by simp [utf8, utf8Nat])
      · rw [List.append_assoc]; exact read_utf8 cp hcp _
      · rw [List.append_assoc, List.drop_left]
  | @bad b t cps hb hr =>
      right
      exact ⟨1, 0xFFFD, t, cps, rfl, by decide, by decide, hr, fun h => h0 (List.mem_cons_of_mem _ h), by simp,
        read_bad h0 hb, by simp⟩

theorem wideCount_spec (r : Bytes) : ∀ (n : Nat) (s : Bytes) (cps : List Nat) (c : Nat), s.length < n → 0 ∉ s →
    Reads8 s cps → getWideTextCharCount n (s ++ 0 :: r) c = .ok (c + (utf16s cps).length)
  | 0, _, _, _, h, _, _ => absurd h (Nat.not_lt_zero _)
  | n + 1, s, cps, c, h, h0, hr => by
      rw [getWideTextCharCount]
      rcases reads8_step r hr h0 with ⟨rfl, rfl⟩ | ⟨k, cp, s', cps', rfl, hz, hcp, hr', h0', hl, e1, e2⟩
      · rfl
      · rw [e1, Out.ok_bind]
        simp only [if_neg hz, e2]
        rw [wideCount_spec r n s' cps' _ (by omega) h0' hr', utf16s_cons, List.length_append, utf16_length, Nat.add_assoc]

/-- The characters written while units are left: the last one may exceed the limit. -/
def fill16 : Int → List Nat → List Nat
  | _, [] => []
  | m, c :: cs => if m > 0 then c :: fill16 (m - (utf16 c).length) cs else []

theorem utf16_low {cp : Nat} (h : cp < 0x10000) : utf16 cp = [UInt16.ofNat cp] := by
  unfold utf16 utf16Nat; rw [if_pos h]; rfl

theorem utf16_high {cp : Nat} (h : ¬ cp < 0x10000) :
    utf16 cp = [UInt16.ofNat (((cp - 0x010000) >>> 10) + 0xD800), UInt16.ofNat (((cp - 0x010000) &&& 0x03FF) + 0xDC00)] := by
  unfold utf16 utf16Nat
  rw [if_neg h, Nat.shiftRight_eq_div_pow, show (0x03FF : Nat) = 2 ^ 10 - 1 from rfl, Nat.and_two_pow_sub_one_eq_mod,
    Nat.add_comm 0xD800, Nat.add_comm 0xDC00]
  rfl

theorem toWide_spec (r : Bytes) : ∀ (n : Nat) (s : Bytes) (cps : List Nat) (max : Int) (pre old : Units),
    s.length < n → 0 ∉ s → Reads8 s cps →
    convertStringToWideText n (s ++ 0 :: r) pre.length max (pre ++ old) = lay pre (utf16s (fill16 max cps) ++ [0]) old
  | 0, _, _, _, _, _, h, _, _ => absurd h (Nat.not_lt_zero _)
  | n + 1, s, cps, max, pre, old, h, h0, hr => by
      rw [convertStringToWideText]
      by_cases hm : max > 0
      · rw [if_pos hm]
        rcases reads8_step r hr h0 with ⟨rfl, rfl⟩ | ⟨k, cp, s', cps', rfl, hz, hcp, hr', h0', hl, e1, e2⟩
        · exact wr16_lay pre old 0
        · rw [e1, Out.ok_bind]
          simp only [if_neg hz, e2, fill16, if_pos hm, utf16s_cons, List.append_assoc]
          by_cases hc : cp < 0x10000
          · rw [if_pos hc, wr16_lay, utf16_low hc]
            apply lay_bind
            intro _
            have := toWide_spec r n s' cps' (max - 1) (pre ++ [UInt16.ofNat cp]) (old.drop 1) (by omega) h0' hr'
            rwa [List.length_append, List.append_assoc] at this
          · rw [if_neg hc, wr16_lay, utf16_high hc]
            generalize UInt16.ofNat (((cp - 0x010000) >>> 10) + 0xD800) = x
            generalize UInt16.ofNat (((cp - 0x010000) &&& 0x03FF) + 0xDC00) = y
            rw [show [x, y] = [x] ++ [y] from rfl, List.append_assoc]
            apply lay_bind
            intro _
            have h1 := wr16_lay (pre ++ [x]) (old.drop 1) y
            rw [List.length_append, List.append_assoc] at h1
            rw [show pre.length + 1 = pre.length + [x].length from rfl]
            rw [show ([x].length) = 1 from rfl] at h1 ⊢
            rw [h1]
            apply lay_bind
            intro _
            have := toWide_spec r n s' cps' (max - 2) (pre ++ [x] ++ [y]) ((old.drop 1).drop 1) (by omega) h0' hr'
            simpa [List.length_append, List.append_assoc] using this
      · rw [if_neg hm]
        have : fill16 max cps = [] := by cases cps <;> simp [fill16, hm]
        rw [this]
        exact wr16_lay pre old 0

/-! ## Round trip -/

theorem read16_cons_char {u : UInt16} (t : Units) (h : ¬ (High u ∨ Low u)) : read16 (u :: t) = u.toNat :: read16 t := by
  cases t with
  | nil => simp only [read16, if_neg h]
  | cons v t => rw [read16, if_neg (fun hh => h (.inl hh.1)), if_neg h]

theorem read16_utf16 {cp : Nat} (h : IsScalar cp) (t : Units) : read16 (utf16 cp ++ t) = cp :: read16 t := by
  unfold IsScalar at h
  by_cases hc : cp < 0x10000
  · rw [utf16_low hc, List.singleton_append, read16_cons_char, toNat16 hc]
    unfold High Low; rw [toNat16 hc]; omega
  · unfold utf16 utf16Nat
    rw [if_neg hc]
    have h1 : (UInt16.ofNat (0xD800 + (cp - 0x10000) / 0x400)).toNat = 0xD800 + (cp - 0x10000) / 0x400 := toNat16 (by omega)
    have h2 : (UInt16.ofNat (0xDC00 + (cp - 0x10000) % 0x400)).toNat = 0xDC00 + (cp - 0x10000) % 0x400 := toNat16 (by omega)
    simp only [List.map_cons, List.map_nil, List.cons_append, List.nil_append, read16]
    rw [if_pos, h1, h2]
    · exact congrArg (· :: read16 t) (by omega)
    · unfold High Low; rw [h1, h2]; omega

theorem read16_utf16s : ∀ {cps : List Nat}, (∀ cp ∈ cps, IsScalar cp) → read16 (utf16s cps) = cps
  | [], _ => rfl
  | c :: cs, h => by
      rw [utf16s_cons, read16_utf16 (h c (by simp)), read16_utf16s (fun x hx => h x (List.mem_cons_of_mem _ hx))]

theorem utf16_nul_free {cp : Nat} (h : cp < 0x110000) (h0 : cp ≠ 0) : 0 ∉ utf16 cp := by
  unfold utf16 utf16Nat
  split
  · rename_i hc
    simp only [List.map_cons, List.map_nil, List.mem_singleton]
    intro e; have := congrArg UInt16.toNat e; rw [toNat16 hc] at this; simp at this; omega
  · simp only [List.map_cons, List.map_nil, List.mem_cons, List.not_mem_nil, or_false]
    rintro (e | e) <;> have := congrArg UInt16.toNat e <;> rw [toNat16 (by omega)] at this <;> simp at this <;> omega

theorem utf16s_nul_free : ∀ {cps : List Nat}, (∀ cp ∈ cps, cp < 0x110000 ∧ cp ≠ 0) → 0 ∉ utf16s cps
  | [], _ => by simp [utf16s_nil]
  | c :: cs, h => by
      rw [utf16s_cons, List.mem_append]
      rintro (h1 | h1)
      · exact utf16_nul_free (h c (by simp)).1 (h c (by simp)).2 h1
      · exact utf16s_nul_free (fun x hx => h x (List.mem_cons_of_mem _ hx)) h1

theorem utf8s_nul_free : ∀ {cps : List Nat}, (∀ cp ∈ cps, cp < 0x110000 ∧ cp ≠ 0) → 0 ∉ utf8s cps
  | [], _ => by simp [utf8s_nil]
  | c :: cs, h => by
      rw [utf8s_cons, List.mem_append]
      rintro (h1 | h1)
      · exact utf8_nul_free c (h c (by simp)).1 (h c (by simp)).2 h1
      · exact utf8s_nul_free (fun x hx => h x (List.mem_cons_of_mem _ hx)) h1

theorem reads8_utf8s : ∀ {cps : List Nat}, (∀ cp ∈ cps, cp < 0x110000) → Reads8 (utf8s cps) cps
  | [], _ => .nil
  | c :: cs, h => by
      rw [utf8s_cons]
      exact .char (h c (by simp)) (reads8_utf8s (fun x hx => h x (List.mem_cons_of_mem _ hx)))

theorem reads8_range {s : Bytes} {cps : List Nat} (h : Reads8 s cps) (h0 : (0 : Byte) ∉ s) :
    ∀ cp ∈ cps, cp < 0x110000 ∧ cp ≠ 0 := by
  induction h with
  | nil => simp
  | @char c t cs hc hr ih =>
      intro cp hcp
      rcases List.mem_cons.1 hcp with rfl | hcp
      · refine ⟨hc, ?_⟩
        rintro rfl
        exact h0 (by simp [utf8, utf8Nat])
      · exact ih (fun h => h0 (List.mem_append_right _ h)) cp hcp
  | @bad b t cs hb hr ih =>
      intro cp hcp
      rcases List.mem_cons.1 hcp with rfl | hcp
      · exact ⟨by decide, by decide⟩
      · exact ih (fun h => h0 (List.mem_cons_of_mem _ h)) cp hcp

theorem fit8_all : ∀ (cps : List Nat) (m : Nat), (utf8s cps).length ≤ m → fit8 m cps = cps
  | [], _, _ => rfl
  | c :: cs, m, h => by
      rw [utf8s_cons, List.length_append] at h
      rw [fit8, if_neg (by omega), fit8_all cs _ (by omega)]

theorem fit8_prefix : ∀ (cps : List Nat) (m : Nat), ∃ q, cps = fit8 m cps ++ q ∧ (utf8s (fit8 m cps)).length ≤ m ∧
    ∀ c q', q = c :: q' → m < (utf8s (fit8 m cps)).length + (utf8 c).length
  | [], m => ⟨[], rfl, Nat.zero_le _, by simp⟩
  | c :: cs, m => by
      rw [fit8]
      split
      · rename_i h
        refine ⟨c :: cs, rfl, Nat.zero_le _, ?_⟩
        intro c' q' e
        injection e with e1 _
        subst e1; simpa [utf8s_nil] using h
      · obtain ⟨q, h1, h2, h3⟩ := fit8_prefix cs (m - (utf8 c).length)
        refine ⟨q, by rw [List.cons_append, ← h1], by rw [utf8s_cons, List.length_append]; omega, ?_⟩
        intro c' q' e
        have := h3 c' q' e
        rw [utf8s_cons, List.length_append]; omega

theorem utf16_length_pos (cp : Nat) : 0 < (utf16 cp).length := by rw [utf16_length]; omega
theorem utf16_length_le (cp : Nat) : (utf16 cp).length ≤ 2 := by rw [utf16_length]; split <;> omega

theorem fill16_all : ∀ (cps : List Nat) (m : Int), ((utf16s cps).length : Int) ≤ m → fill16 m cps = cps
  | [], _, _ => rfl
  | c :: cs, m, h => by
      rw [utf16s_cons, List.length_append] at h
      have := utf16_length_pos c
      rw [fill16, if_pos (by omega), fill16_all cs _ (by omega)]

theorem fill16_nonpos (cps : List Nat) {m : Int} (h : ¬ m > 0) : fill16 m cps = [] := by
  cases cps with
  | nil => rfl
  | cons c cs => rw [fill16, if_neg h]

theorem fill16_prefix : ∀ (cps : List Nat) (m : Int), 0 ≤ m → ∃ q, cps = fill16 m cps ++ q ∧
    ((utf16s (fill16 m cps)).length : Int) ≤ m + 1 ∧ (q = [] ∨ m ≤ ((utf16s (fill16 m cps)).length : Int))
  | [], m, h => ⟨[], rfl, by simp [fill16, utf16s_nil]; omega, .inl rfl⟩
  | c :: cs, m, h => by
      rw [fill16]
      have hp := utf16_length_pos c
      have hle := utf16_length_le c
      by_cases hm : m > 0
      · rw [if_pos hm, utf16s_cons, List.length_append]
        by_cases h2 : m - (utf16 c).length > 0
        · obtain ⟨q, h1, h3, h4⟩ := fill16_prefix cs (m - (utf16 c).length) (by omega)
          refine ⟨q, by rw [List.cons_append, ← h1], by omega, ?_⟩
          rcases h4 with h4 | h4
          · exact .inl h4
          · right; omega
        · rw [fill16_nonpos cs h2]
          exact ⟨cs, rfl, by simp [utf16s_nil]; omega, .inr (by simp [utf16s_nil]; omega)⟩
      · rw [if_neg hm]
        exact ⟨c :: cs, rfl, by simp [utf16s_nil]; omega, .inr (by simp [utf16s_nil]; omega)⟩

theorem lay_nil_ok {α : Type} {l b : List α} (h : l.length ≤ b.length) : lay [] l b = .ok (l ++ b.drop l.length) := by
  unfold lay; rw [if_pos h]; rfl

/-! ## The constructor from 16-bit text -/

theorem newWide_wf (g : Nat → Byte) (w r : Units) (h0 : 0 ∉ w) :
    ∃ s, newWide g (w ++ 0 :: r) = .ok s ∧ Dyn.WF s (utf8s (read16 w)) := by
  have hf : w.length < fuelFor (w ++ 0 :: r) := by unfold fuelFor; simp; omega
  unfold newWide
  rw [stringLength_spec r _ w 0 hf h0, Out.ok_bind, Nat.zero_add]
  have hn : (0 : Byte) ∉ utf8s (read16 w) := utf8s_nul_free (fun cp hcp =>
    ⟨scalar_lt' (read16_scalar _ w (Nat.lt_succ_self _) h0 cp hcp).1, (read16_scalar _ w (Nat.lt_succ_self _) h0 cp hcp).2⟩)
  split
  · rename_i hl
    obtain ⟨e1, e2, e3, e4⟩ := Dyn.alloc_props g ((utf8s (read16 w)).length + 1)
    have := toString_spec r _ w (utf8s (read16 w)).length [] (Dyn.alloc g ((utf8s (read16 w)).length + 1)).data hf h0
    rw [List.nil_append, List.length_nil, fit8_all _ _ (Nat.le_refl _), lay_nil_ok (by simp; omega)] at this
    simp only [this, Out.ok_bind]
    exact ⟨_, rfl, Dyn.wf_store' e1 e2 e3 (by simp; omega) ⟨hn, _, by rw [List.append_assoc]; rfl⟩⟩
  · rename_i hl
    have e : utf8s (read16 w) = [] := List.length_eq_zero_iff.1 (by omega)
    rw [e]
    exact ⟨_, rfl, rfl, ⟨by simp, _, rfl⟩, rfl, rfl⟩

/-! ## Counting -/

theorem charStep_utf8 (cp : Nat) (h : cp < 0x110000) : ∃ a l, utf8 cp = a :: l ∧ charStep a = (utf8 cp).length := by
  rcases utf8_cases cp h with ⟨h1, a, e, ha⟩ | ⟨h1, h2, a, b, e, ha, hb⟩ |
    ⟨h1, h2, a, b, c, e, ha, hb, hc⟩ | ⟨h1, a, b, c, d, e, ha, hb, hc, hd⟩
  · refine ⟨a, [], e, ?_⟩; rw [e]; unfold charStep; rw [if_pos (by omega)]; rfl
  · refine ⟨a, [b], e, ?_⟩; rw [e]; unfold charStep; rw [if_neg (by omega), if_pos (by omega)]; rfl
  · refine ⟨a, [b, c], e, ?_⟩; rw [e]; unfold charStep; rw [if_neg (by omega), if_neg (by omega), if_pos (by omega)]; rfl
  · refine ⟨a, [b, c, d], e, ?_⟩; rw [e]; unfold charStep
    rw [if_neg (by omega), if_neg (by omega), if_neg (by omega)]; rfl

theorem utf8_head_ne {cp : Nat} {a : Byte} {l : Bytes} (h : cp < 0x110000) (h0 : cp ≠ 0) (e : utf8 cp = a :: l) : a ≠ 0 := by
  intro ea
  exact utf8_nul_free cp h h0 (by rw [e, ea]; simp)

/-- One step of the counting loops over encoded characters. -/
theorem count_step {cp : Nat} (h : cp < 0x110000) (h0 : cp ≠ 0) (t : Bytes) :
    ∃ a, rd (utf8 cp ++ t) 0 = .ok a ∧ a ≠ 0 ∧ charStep a = (utf8 cp).length ∧ (utf8 cp ++ t).drop (charStep a) = t := by
  obtain ⟨a, l, e, hs⟩ := charStep_utf8 cp h
  refine ⟨a, by rw [e]; rfl, utf8_head_ne h h0 e, hs, ?_⟩
  rw [hs, List.drop_left]

theorem charCount_spec (r : Bytes) : ∀ (cps : List Nat) (n c : Nat), cps.length < n → (∀ cp ∈ cps, cp < 0x110000 ∧ cp ≠ 0) →
    getUnicodeCharCount n (utf8s cps ++ 0 :: r) c = .ok (c + cps.length)
  | _, 0, _, h, _ => absurd h (Nat.not_lt_zero _)
  | [], n + 1, c, _, _ => rfl
  | cp :: cps, n + 1, c, h, hv => by
      rw [utf8s_cons, List.append_assoc, getUnicodeCharCount]
      obtain ⟨a, e1, e2, e3, e4⟩ := count_step (hv cp (by simp)).1 (hv cp (by simp)).2 (utf8s cps ++ 0 :: r)
      rw [e1, Out.ok_bind, if_neg e2, e4, charCount_spec r cps n _ (by simp at h; omega) (fun x hx => hv x (List.mem_cons_of_mem _ hx))]
      simp; omega

theorem byteCount_spec (r : Bytes) : ∀ (k : Nat) (cps : List Nat) (c : Nat), (∀ cp ∈ cps, cp < 0x110000 ∧ cp ≠ 0) →
    getUnicodeCharStringByteCount k (utf8s cps ++ 0 :: r) c = .ok (c + (utf8s (cps.take k)).length)
  | 0, _, _, _ => rfl
  | k + 1, [], c, _ => rfl
  | k + 1, cp :: cps, c, hv => by
      rw [utf8s_cons, List.append_assoc, getUnicodeCharStringByteCount]
      obtain ⟨a, e1, e2, e3, e4⟩ := count_step (hv cp (by simp)).1 (hv cp (by simp)).2 (utf8s cps ++ 0 :: r)
      rw [e1, Out.ok_bind, if_neg e2, e4, byteCount_spec r k cps _ (fun x hx => hv x (List.mem_cons_of_mem _ hx)), e3,
        List.take_succ_cons, utf8s_cons, List.length_append, Nat.add_assoc]

theorem charStep_pos (c : Byte) : 1 ≤ charStep c := by
  unfold charStep; split <;> (try split) <;> (try split) <;> omega

theorem charCountMax_spec (r : Bytes) : ∀ (cps : List Nat) (n : Nat) (left : Int) (c : Nat), cps.length < n →
    (∀ cp ∈ cps, cp < 0x110000 ∧ cp ≠ 0) →
    ∃ k, k ≤ cps.length ∧ getUnicodeCharCountMax n (utf8s cps ++ 0 :: r) left c = .ok (c + k) ∧
      (k = cps.length ∨ left ≤ ((utf8s (cps.take k)).length : Int)) ∧
      ∀ i, i < k → ((utf8s (cps.take i)).length : Int) < left
  | _, 0, _, _, h, _ => absurd h (Nat.not_lt_zero _)
  | [], n + 1, left, c, _, _ => by
      refine ⟨0, by simp, ?_, .inl rfl, by simp⟩
      rw [getUnicodeCharCountMax]; split <;> rfl
  | cp :: cps, n + 1, left, c, h, hv => by
      rw [utf8s_cons, List.append_assoc, getUnicodeCharCountMax]
      obtain ⟨a, e1, e2, e3, e4⟩ := count_step (hv cp (by simp)).1 (hv cp (by simp)).2 (utf8s cps ++ 0 :: r)
      split
      · rename_i hl
        rw [e1, Out.ok_bind, if_neg e2, e4]
        obtain ⟨k, h1, h2, h3, h4⟩ := charCountMax_spec r cps n (left - charStep a) (c + 1) (by simp at h; omega)
          (fun x hx => hv x (List.mem_cons_of_mem _ hx))
        refine ⟨k + 1, by simp; omega, by rw [h2]; congr 1; omega, ?_, ?_⟩
        · rcases h3 with h3 | h3
          · left; simp [h3]
          · right; rw [List.take_succ_cons, utf8s_cons, List.length_append]; omega
        · intro i hi
          cases i with
          | zero => simp [utf8s_nil]; exact hl
          | succ i =>
              have := h4 i (by omega)
              rw [List.take_succ_cons, utf8s_cons, List.length_append]; omega
      · rename_i hl
        exact ⟨0, by simp, rfl, .inr (by simp [utf8s_nil]; omega), by simp⟩

/-- With a limit, the count reads only bytes below the limit. -/
theorem charCountMax_safe : ∀ (n : Nat) (t : Bytes) (left : Int) (c : Nat), left ≤ n → left ≤ t.length →
    ∃ k, getUnicodeCharCountMax (n + 1) t left c = .ok (c + k) ∧ (k : Int) ≤ max left 0
  | 0, t, left, c, h, hl => by
      rw [getUnicodeCharCountMax, if_neg (by omega)]
      exact ⟨0, rfl, by omega⟩
  | n + 1, t, left, c, h, hl => by
      rw [getUnicodeCharCountMax]
      split
      · rename_i hp
        cases t with
        | nil => simp at hl; omega
        | cons a t =>
            rw [rd_cons_zero, Out.ok_bind]
            have hs := charStep_pos a
            split
            · exact ⟨0, rfl, by simp; omega⟩
            · obtain ⟨k, h1, h2⟩ := charCountMax_safe n ((a :: t).drop (charStep a)) (left - charStep a) (c + 1)
                (by omega) (by rw [List.length_drop]; omega)
              exact ⟨k + 1, by rw [h1]; congr 1; omega, by omega⟩
      · exact ⟨0, rfl, by omega⟩

end Verif.Wide
