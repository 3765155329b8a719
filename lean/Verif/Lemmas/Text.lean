import Verif.Model.Text
import Verif.Spec.Utf8
import Verif.Spec.FinMap

/-! # Lemmas about the text functions -/

namespace Verif.Text

open Verif Verif.Spec

theorem rd_cons_zero (c : Byte) (t : Bytes) : rd (c :: t) 0 = .ok c := rfl
theorem rd_cons_succ (c : Byte) (t : Bytes) (i : Nat) : rd (c :: t) (i + 1) = rd t i := by
  simp [rd]

theorem rd_append_left {t u : Bytes} {i : Nat} (h : i < t.length) : rd (t ++ u) i = rd t i := by
  simp [rd, List.getElem?_append_left h]

theorem toNat_ofNat {n : Nat} (h : n < 256) : (UInt8.ofNat n).toNat = n := by
  simp [UInt8.toNat_ofNat']; omega

theorem and_c0 (b : Nat) (h : b < 256) : b &&& 0xC0 = 0x80 ↔ 128 ≤ b ∧ b < 192 := by
  have : ∀ b : Fin 256, b.val &&& 0xC0 = 0x80 ↔ 128 ≤ b.val ∧ b.val < 192 := by decide +kernel
  exact this ⟨b, h⟩

theorem and_3f (n : Nat) : n &&& 0x3F = n % 64 := Nat.and_two_pow_sub_one_eq_mod n 6
theorem and_1f (n : Nat) : n &&& 0x1F = n % 32 := Nat.and_two_pow_sub_one_eq_mod n 5
theorem and_0f (n : Nat) : n &&& 0x0F = n % 16 := Nat.and_two_pow_sub_one_eq_mod n 4
theorem and_07 (n : Nat) : n &&& 0x07 = n % 8 := Nat.and_two_pow_sub_one_eq_mod n 3

theorem or_80 (n : Nat) (h : n < 64) : n ||| 0x80 = 128 + n := by
  have : ∀ n : Fin 64, n.val ||| 0x80 = 128 + n.val := by decide +kernel
  exact this ⟨n, h⟩
theorem or_c0 (n : Nat) (h : n < 32) : n ||| 0xC0 = 192 + n := by
  have : ∀ n : Fin 32, n.val ||| 0xC0 = 192 + n.val := by decide +kernel
  exact this ⟨n, h⟩
theorem or_e0 (n : Nat) (h : n < 16) : n ||| 0xE0 = 224 + n := by
  have : ∀ n : Fin 16, n.val ||| 0xE0 = 224 + n.val := by decide +kernel
  exact this ⟨n, h⟩
theorem or_f0 (n : Nat) (h : n < 8) : n ||| 0xF0 = 240 + n := by
  have : ∀ n : Fin 8, n.val ||| 0xF0 = 240 + n.val := by decide +kernel
  exact this ⟨n, h⟩

theorem shl6_7c0 (b : Nat) (h : b < 256) : (b <<< 6) &&& 0x0007C0 = (b % 32) <<< 6 := by
  have : ∀ b : Fin 256, (b.val <<< 6) &&& 0x0007C0 = (b.val % 32) <<< 6 := by decide +kernel
  exact this ⟨b, h⟩
theorem shl6 (b : Nat) (h : b < 256) : (b <<< 6) &&& 0x000FC0 = (b % 64) <<< 6 := by
  have : ∀ b : Fin 256, (b.val <<< 6) &&& 0x000FC0 = (b.val % 64) <<< 6 := by decide +kernel
  exact this ⟨b, h⟩
theorem shl12_f (b : Nat) (h : b < 256) : (b <<< 12) &&& 0x00F000 = (b % 16) <<< 12 := by
  have : ∀ b : Fin 256, (b.val <<< 12) &&& 0x00F000 = (b.val % 16) <<< 12 := by decide +kernel
  exact this ⟨b, h⟩
theorem shl12_3f (b : Nat) (h : b < 256) : (b <<< 12) &&& 0x03F000 = (b % 64) <<< 12 := by
  have : ∀ b : Fin 256, (b.val <<< 12) &&& 0x03F000 = (b.val % 64) <<< 12 := by decide +kernel
  exact this ⟨b, h⟩
theorem shl18 (b : Nat) (h : b < 256) : (b <<< 18) &&& 0x1C0000 = (b % 8) <<< 18 := by
  have : ∀ b : Fin 256, (b.val <<< 18) &&& 0x1C0000 = (b.val % 8) <<< 18 := by decide +kernel
  exact this ⟨b, h⟩

theorem or2 (a b : Nat) (hb : b < 64) : a <<< 6 ||| b = a * 64 + b := by
  rw [← Nat.shiftLeft_add_eq_or_of_lt (i := 6) hb, Nat.shiftLeft_eq]

theorem or3 (a b c : Nat) (hb : b < 64) (hc : c < 64) :
    a <<< 12 ||| b <<< 6 ||| c = a * 4096 + b * 64 + c := by
  rw [Nat.or_assoc, or2 b c hc, ← Nat.shiftLeft_add_eq_or_of_lt (i := 12) (by omega),
    Nat.shiftLeft_eq]; omega

theorem or4 (a b c d : Nat) (hb : b < 64) (hc : c < 64) (hd : d < 64) :
    a <<< 18 ||| b <<< 12 ||| c <<< 6 ||| d = a * 262144 + b * 4096 + c * 64 + d := by
  rw [Nat.or_assoc, Nat.or_assoc, ← Nat.or_assoc (b <<< 12), or3 b c d hc hd,
    ← Nat.shiftLeft_add_eq_or_of_lt (i := 18) (by omega), Nat.shiftLeft_eq]; omega

/-- Code of a three byte character in arithmetic form. -/
theorem code3 (a b c : Byte) :
    (a.toNat <<< 12) &&& 0x00F000 ||| (b.toNat <<< 6) &&& 0x000FC0 ||| c.toNat &&& 0x00003F =
      (a.toNat % 16) * 4096 + (b.toNat % 64) * 64 + c.toNat % 64 := by
  have ha := a.toNat_lt; have hb := b.toNat_lt; have hc := c.toNat_lt
  rw [shl12_f _ ha, shl6 _ hb, and_3f, or3 _ _ _ (by omega) (by omega)]

/-- Code of a four byte character in arithmetic form. -/
theorem code4 (a b c d : Byte) :
    (a.toNat <<< 18) &&& 0x1C0000 ||| (b.toNat <<< 12) &&& 0x03F000 |||
        (c.toNat <<< 6) &&& 0x000FC0 ||| d.toNat &&& 0x00003F =
      (a.toNat % 8) * 262144 + (b.toNat % 64) * 4096 + (c.toNat % 64) * 64 + d.toNat % 64 := by
  have ha := a.toNat_lt; have hb := b.toNat_lt; have hc := c.toNat_lt
  rw [shl18 _ ha, shl12_3f _ hb, shl6 _ hc, and_3f, or4 _ _ _ _ (by omega) (by omega) (by omega)]

theorem code2 (a b : Byte) :
    (a.toNat <<< 6) &&& 0x0007C0 ||| b.toNat &&& 0x00003F =
      (a.toNat % 32) * 64 + b.toNat % 64 := by
  have ha := a.toNat_lt
  rw [shl6_7c0 _ ha, and_3f, or2 _ _ (by omega)]

theorem utf8_length (cp : Nat) : (utf8 cp).length = (utf8Nat cp).length := by simp [utf8]

/-- The four shapes of an encoded character. -/
theorem utf8_cases (cp : Nat) (h : cp < 0x110000) :
    (cp < 0x80 ∧ ∃ a, utf8 cp = [a] ∧ a.toNat = cp) ∨
    (0x80 ≤ cp ∧ cp < 0x800 ∧ ∃ a b, utf8 cp = [a, b] ∧ a.toNat = 192 + cp / 64 ∧
      b.toNat = 128 + cp % 64) ∨
    (0x800 ≤ cp ∧ cp < 0x10000 ∧ ∃ a b c, utf8 cp = [a, b, c] ∧ a.toNat = 224 + cp / 4096 ∧
      b.toNat = 128 + cp / 64 % 64 ∧ c.toNat = 128 + cp % 64) ∨
    (0x10000 ≤ cp ∧ ∃ a b c d, utf8 cp = [a, b, c, d] ∧ a.toNat = 240 + cp / 262144 ∧
      b.toNat = 128 + cp / 4096 % 64 ∧ c.toNat = 128 + cp / 64 % 64 ∧ d.toNat = 128 + cp % 64) := by
  unfold utf8 utf8Nat
  by_cases h1 : cp < 0x80
  · left
    refine ⟨h1, UInt8.ofNat cp, by simp [h1], toNat_ofNat (by omega)⟩
  · right
    by_cases h2 : cp < 0x800
    · left
      refine ⟨by omega, h2, UInt8.ofNat (192 + cp / 64), UInt8.ofNat (128 + cp % 64),
        by simp [h1, h2], ?_, ?_⟩ <;>
        exact toNat_ofNat (by omega)
    · right
      by_cases h3 : cp < 0x10000
      · left
        refine ⟨by omega, h3, UInt8.ofNat (224 + cp / 4096), UInt8.ofNat (128 + cp / 64 % 64),
          UInt8.ofNat (128 + cp % 64), by simp [h1, h2, h3], ?_, ?_, ?_⟩ <;>
          exact toNat_ofNat (by omega)
      · right
        refine ⟨by omega, UInt8.ofNat (240 + cp / 262144), UInt8.ofNat (128 + cp / 4096 % 64),
          UInt8.ofNat (128 + cp / 64 % 64), UInt8.ofNat (128 + cp % 64),
          by simp [h1, h2, h3], ?_, ?_, ?_, ?_⟩ <;>
          exact toNat_ofNat (by omega)

theorem byte_ext {a b : Byte} (h : a.toNat = b.toNat) : a = b := UInt8.toNat_inj.mp h

theorem write_eq_utf8 (cp : Nat) (h : cp < 0x110000) : writeUnicodeChar cp = utf8 cp := by
  unfold writeUnicodeChar utf8 utf8Nat
  by_cases h1 : cp < 0x80
  · rw [if_pos (by omega), if_pos h1]; rfl
  · rw [if_neg (by omega), if_neg h1]
    simp only [and_3f, and_1f, and_0f, and_07, Nat.shiftRight_eq_div_pow]
    by_cases h2 : cp < 0x800
    · rw [if_pos (by omega), if_pos h2, or_80 _ (by omega), or_c0 _ (by omega)]
      simp only [List.map]; congr 3; omega
    · rw [if_neg (by omega), if_neg h2]
      by_cases h3 : cp < 0x10000
      · rw [if_pos (by omega), if_pos h3, or_80 _ (by omega), or_80 _ (by omega), or_e0 _ (by omega)]
        simp only [List.map]; congr 3; omega
      · rw [if_neg (by omega), if_neg h3, if_pos (by omega), or_80 _ (by omega), or_80 _ (by omega),
          or_80 _ (by omega), or_f0 _ (by omega)]
        simp only [List.map]; congr 3; omega

theorem validate_utf8 (cp : Nat) (h : cp < 0x110000) (rest : Bytes) :
    validateUnicodeChar (utf8 cp ++ rest) = .ok (utf8 cp).length := by
  unfold validateUnicodeChar
  rcases utf8_cases cp h with ⟨h1, a, e, ha⟩ | ⟨h1, h2, a, b, e, ha, hb⟩ |
    ⟨h1, h2, a, b, c, e, ha, hb, hc⟩ | ⟨h1, a, b, c, d, e, ha, hb, hc, hd⟩
  · simp only [e, List.cons_append, List.nil_append, rd_cons_zero, Out.ok_bind]
    rw [if_pos (by omega)]; rfl
  · simp only [e, List.cons_append, List.nil_append, rd_cons_zero, rd_cons_succ, Out.ok_bind]
    rw [if_neg (by omega), if_pos (by omega), if_pos ((and_c0 _ b.toNat_lt).2 (by omega)),
      if_pos (by omega)]; rfl
  · simp only [e, List.cons_append, List.nil_append, rd_cons_zero, rd_cons_succ, Out.ok_bind, code3]
    rw [if_neg (by omega), if_pos (by omega), if_pos ((and_c0 _ b.toNat_lt).2 (by omega)),
      if_neg (by omega), if_pos ((and_c0 _ c.toNat_lt).2 (by omega)), if_pos (by omega),
      if_pos (by omega)]; rfl
  · simp only [e, List.cons_append, List.nil_append, rd_cons_zero, rd_cons_succ, Out.ok_bind, code4]
    rw [if_neg (by omega), if_pos (by omega), if_pos ((and_c0 _ b.toNat_lt).2 (by omega)),
      if_neg (by omega), if_pos ((and_c0 _ c.toNat_lt).2 (by omega)), if_neg (by omega),
      if_pos ((and_c0 _ d.toNat_lt).2 (by omega)), if_pos (by omega)]; rfl

theorem read_utf8 (cp : Nat) (h : cp < 0x110000) (rest : Bytes) :
    readUnicodeChar (utf8 cp ++ rest) = .ok ((utf8 cp).length, cp) := by
  unfold readUnicodeChar
  rcases utf8_cases cp h with ⟨h1, a, e, ha⟩ | ⟨h1, h2, a, b, e, ha, hb⟩ |
    ⟨h1, h2, a, b, c, e, ha, hb, hc⟩ | ⟨h1, a, b, c, d, e, ha, hb, hc, hd⟩
  · simp only [e, List.cons_append, List.nil_append, rd_cons_zero, Out.ok_bind]
    rw [if_pos (by omega), ha]; rfl
  · simp only [e, List.cons_append, List.nil_append, rd_cons_zero, rd_cons_succ, Out.ok_bind, code2]
    rw [if_neg (by omega), if_pos (by omega), if_pos ((and_c0 _ b.toNat_lt).2 (by omega)),
      if_pos (by omega)]
    refine congrArg Out.ok (Prod.ext rfl ?_)
    dsimp only; omega
  · simp only [e, List.cons_append, List.nil_append, rd_cons_zero, rd_cons_succ, Out.ok_bind, code3]
    rw [if_neg (by omega), if_pos (by omega), if_pos ((and_c0 _ b.toNat_lt).2 (by omega)),
      if_neg (by omega), if_pos ((and_c0 _ c.toNat_lt).2 (by omega)), if_pos (by omega),
      if_pos (by omega)]
    refine congrArg Out.ok (Prod.ext rfl ?_)
    dsimp only; omega
  · simp only [e, List.cons_append, List.nil_append, rd_cons_zero, rd_cons_succ, Out.ok_bind, code4]
    rw [if_neg (by omega), if_pos (by omega), if_pos ((and_c0 _ b.toNat_lt).2 (by omega)),
      if_neg (by omega), if_pos ((and_c0 _ c.toNat_lt).2 (by omega)), if_neg (by omega),
      if_pos ((and_c0 _ d.toNat_lt).2 (by omega)), if_pos (by omega)]
    refine congrArg Out.ok (Prod.ext rfl ?_)
    dsimp only; omega

/-- Bytes of a character, rebuilt from its parts. -/
theorem utf8_two (a b : Byte) (cp : Nat) (ha : a.toNat = 192 + cp / 64)
    (hb : b.toNat = 128 + cp % 64) (h1 : 0x80 ≤ cp) (h2 : cp < 0x800) : utf8 cp = [a, b] := by
  rcases utf8_cases cp (by omega) with ⟨_, _⟩ | ⟨_, _, a', b', e, ha', hb'⟩ | ⟨_, _, _⟩ | ⟨_, _⟩ <;>
    try omega
  rw [e, byte_ext (ha'.trans ha.symm), byte_ext (hb'.trans hb.symm)]

theorem utf8_three (a b c : Byte) (cp : Nat) (ha : a.toNat = 224 + cp / 4096)
    (hb : b.toNat = 128 + cp / 64 % 64) (hc : c.toNat = 128 + cp % 64)
    (h1 : 0x800 ≤ cp) (h2 : cp < 0x10000) : utf8 cp = [a, b, c] := by
  rcases utf8_cases cp (by omega) with ⟨_, _⟩ | ⟨_, _, _⟩ | ⟨_, _, a', b', c', e, ha', hb', hc'⟩ |
    ⟨_, _⟩ <;> try omega
  rw [e, byte_ext (ha'.trans ha.symm), byte_ext (hb'.trans hb.symm), byte_ext (hc'.trans hc.symm)]

theorem utf8_four (a b c d : Byte) (cp : Nat) (ha : a.toNat = 240 + cp / 262144)
    (hb : b.toNat = 128 + cp / 4096 % 64) (hc : c.toNat = 128 + cp / 64 % 64)
    (hd : d.toNat = 128 + cp % 64)
    (h1 : 0x10000 ≤ cp) (h2 : cp < 0x110000) : utf8 cp = [a, b, c, d] := by
  rcases utf8_cases cp (by omega) with ⟨_, _⟩ | ⟨_, _, _⟩ | ⟨_, _, _⟩ |
    ⟨_, a', b', c', d', e, ha', hb', hc', hd'⟩ <;> try omega
  rw [e, byte_ext (ha'.trans ha.symm), byte_ext (hb'.trans hb.symm), byte_ext (hc'.trans hc.symm),
    byte_ext (hd'.trans hd.symm)]

theorem ne_zero_of_ge {a : Byte} (h : 1 ≤ a.toNat) : a ≠ 0 := by
  intro e; subst e; simp at h

/-- On a NUL terminated text `ValidateUnicodeChar` reads inside the text; a positive result is the
length of an encoded code point, which does not extend over the NUL. -/
theorem validate_sound (t : Bytes) (h : (0 : Byte) ∈ t) :
    ∃ n, validateUnicodeChar t = .ok n ∧
      (n = 0 ∨ ∃ cp rest, cp < 0x110000 ∧ t = utf8 cp ++ rest ∧ n = (utf8 cp).length) := by
  unfold validateUnicodeChar
  match t, h with
  | a :: t, h =>
    have haN := a.toNat_lt
    simp only [rd_cons_zero, rd_cons_succ, Out.ok_bind]
    split
    · rename_i h1
      refine ⟨1, rfl, .inr ⟨a.toNat, t, by omega, ?_, ?_⟩⟩ <;>
        simp [utf8, utf8Nat, h1]
    · rename_i h1
      split
      · rename_i h2
        have ha0 : a ≠ 0 := ne_zero_of_ge (by omega)
        have h : (0 : Byte) ∈ t := by
          rcases List.mem_cons.1 h with e | h
          · exact absurd e.symm ha0
          · exact h
        match t, h with
        | b :: t, h =>
          have hbN := b.toNat_lt
          simp only [rd_cons_zero, rd_cons_succ, Out.ok_bind]
          split
          · rename_i h3
            rw [and_c0 _ hbN] at h3
            have hb0 : b ≠ 0 := ne_zero_of_ge (by omega)
            split
            · rename_i h4
              have e := utf8_two a b ((a.toNat % 32) * 64 + b.toNat % 64) (by omega) (by omega)
                (by omega) (by omega)
              refine ⟨2, rfl, .inr ⟨_, t, ?_, by rw [e]; rfl, by rw [e]; rfl⟩⟩; omega
            · rename_i h4
              have h : (0 : Byte) ∈ t := by
                rcases List.mem_cons.1 h with e | h
                · exact absurd e.symm hb0
                · exact h
              match t, h with
              | c :: t, h =>
                have hcN := c.toNat_lt
                simp only [rd_cons_zero, Out.ok_bind, code3]
                split
                · rename_i h5
                  rw [and_c0 _ hcN] at h5
                  have hc0 : c ≠ 0 := ne_zero_of_ge (by omega)
                  split
                  · rename_i h6
                    split
                    · rename_i h7
                      have e := utf8_three a b c
                        ((a.toNat % 16) * 4096 + (b.toNat % 64) * 64 + c.toNat % 64) (by omega)
                        (by omega) (by omega) (by omega) (by omega)
                      refine ⟨3, rfl, .inr ⟨_, t, ?_, by rw [e]; rfl, by rw [e]; rfl⟩⟩; omega
                    · exact ⟨0, rfl, .inl rfl⟩
                  · rename_i h6
                    have h : (0 : Byte) ∈ t := by
                      rcases List.mem_cons.1 h with e | h
                      · exact absurd e.symm hc0
                      · exact h
                    match t, h with
                    | d :: t, h =>
                      have hdN := d.toNat_lt
                      simp only [rd_cons_succ, rd_cons_zero, Out.ok_bind, code4]
                      split
                      · rename_i h7
                        rw [and_c0 _ hdN] at h7
                        split
                        · rename_i h8
                          have e := utf8_four a b c d
                            ((a.toNat % 8) * 262144 + (b.toNat % 64) * 4096 + (c.toNat % 64) * 64 +
                              d.toNat % 64) (by omega)
                            (by omega) (by omega) (by omega) (by omega) (by omega)
                          refine ⟨4, rfl, .inr ⟨_, t, ?_, by rw [e]; rfl, by rw [e]; rfl⟩⟩; omega
                        · exact ⟨0, rfl, .inl rfl⟩
                      · exact ⟨0, rfl, .inl rfl⟩
                · exact ⟨0, rfl, .inl rfl⟩
          · exact ⟨0, rfl, .inl rfl⟩
      · exact ⟨0, rfl, .inl rfl⟩

theorem utf8_length_pos (cp : Nat) : 0 < (utf8 cp).length := by
  rw [utf8_length]; unfold utf8Nat; split <;> (try split) <;> (try split) <;> simp

theorem utf8_length_le (cp : Nat) : (utf8 cp).length ≤ 4 := by
  rw [utf8_length]; unfold utf8Nat; split <;> (try split) <;> (try split) <;> simp

theorem utf8_nul_free (cp : Nat) (h : cp < 0x110000) (h0 : cp ≠ 0) : (0 : Byte) ∉ utf8 cp := by
  have hz : ∀ a : Byte, 1 ≤ a.toNat → (0 : Byte) ≠ a := fun a h => (ne_zero_of_ge h).symm
  rcases utf8_cases cp h with ⟨h1, a, e, ha⟩ | ⟨h1, h2, a, b, e, ha, hb⟩ |
    ⟨h1, h2, a, b, c, e, ha, hb, hc⟩ | ⟨h1, a, b, c, d, e, ha, hb, hc, hd⟩
  · rw [e]; simp [hz a (by omega)]
  · rw [e]; simp [hz a (by omega), hz b (by omega)]
  · rw [e]; simp [hz a (by omega), hz b (by omega), hz c (by omega)]
  · rw [e]; simp [hz a (by omega), hz b (by omega), hz c (by omega), hz d (by omega)]

/-! ## Comparison -/

theorem nameLt_irrefl (a : Bytes) : nameLt a a = false := by
  induction a with
  | nil => rfl
  | cons x a ih => simp [nameLt, ih]

theorem nameLt_trans (a b c : Bytes) (h1 : nameLt a b = true) (h2 : nameLt b c = true) :
    nameLt a c = true := by
  induction a generalizing b c with
  | nil =>
    cases b with
    | nil => simp [nameLt] at h1
    | cons y b => cases c with
      | nil => simp [nameLt] at h2
      | cons z c => rfl
  | cons x a ih =>
    cases b with
    | nil => simp [nameLt] at h1
    | cons y b =>
      cases c with
      | nil => simp [nameLt] at h2
      | cons z c =>
        simp only [nameLt] at h1 h2 ⊢
        by_cases e1 : x = y
        · subst e1
          rw [if_pos rfl] at h1
          by_cases e2 : x = z
          · subst e2; rw [if_pos rfl] at h2 ⊢; exact ih b c h1 h2
          · rw [if_neg e2] at h2 ⊢; exact h2
        · rw [if_neg e1] at h1
          by_cases e2 : y = z
          · subst e2; rw [if_neg e1]; exact h1
          · rw [if_neg e2] at h2
            have h1' := of_decide_eq_true h1
            have h2' := of_decide_eq_true h2
            have e3 : x ≠ z := by
              intro e; subst e; omega
            rw [if_neg e3]; exact decide_eq_true (by omega)

theorem nameLt_total (a b : Bytes) (h1 : nameLt a b = false) (h2 : nameLt b a = false) :
    a = b := by
  induction a generalizing b with
  | nil =>
    cases b with
    | nil => rfl
    | cons y b => simp [nameLt] at h1
  | cons x a ih =>
    cases b with
    | nil => simp [nameLt] at h2
    | cons y b =>
      simp only [nameLt] at h1 h2
      by_cases e : x = y
      · subst e
        rw [if_pos rfl] at h1 h2
        rw [ih b h1 h2]
      · rw [if_neg e] at h1
        rw [if_neg (Ne.symm e)] at h2
        have h1' := of_decide_eq_false h1
        have h2' := of_decide_eq_false h2
        exact absurd (byte_ext (by omega)) e

theorem nameLt_strict : StrictTotal nameLt :=
  ⟨nameLt_irrefl, nameLt_trans, nameLt_total⟩

end Verif.Text
