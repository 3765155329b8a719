import Verif.Lemmas.ReaderError
import Verif.Lemmas.Rfc
import Verif.Props.Builtin

/-!
# Properties of the built-in number reader with the arithmetic of `double` (C81)
-/

namespace Verif.Props

open Verif Verif.Builtin Verif.Spec Verif.B64

/-- C81: without the C library, every unsigned RFC 8259 number is read as the nearest double. -/
def C81_statement : Prop :=
  ∀ (t : Bytes) (d : Dec) (c : Byte) (r : Bytes), RfcNum t d → d.neg = false → ¬ Digit c → c ∉ [0x5F, 0x2E, 0x65, 0x45] →
    ∃ x, readDouble arith (t ++ c :: r) = .ok (.inr (x, c :: r)) ∧ NearestDouble d x

/-- **C81 is violated**: `0.12` is read as 0.12000000000000001, since the fraction is the rounded sum of 0.1 and 0.02. -/
theorem C81_violated : ¬ C81_statement := by
  intro H
  obtain ⟨x, h1, h2⟩ := H [0x30, 0x2E, 0x31, 0x32] ⟨false, decimal ([0x30] ++ [0x31, 0x32]), 0 - ([0x31, 0x32] : Bytes).length⟩ 0x2C []
    (RfcNum.pos (i := [0x30]) (ft := [0x2E, 0x31, 0x32]) (et := []) .zero (.some (by simp) (by unfold Digit; decide)) .none) rfl
    (by unfold Digit; decide) (by decide)
  have h3 : readDouble arith [0x30, 0x2E, 0x31, 0x32, 0x2C] = .ok (.inr (.fin false 8646911284551353 1018, [0x2C])) := by
    decide +kernel
  rw [show ([0x30, 0x2E, 0x31, 0x32] ++ [0x2C] : Bytes) = [0x30, 0x2E, 0x31, 0x32, 0x2C] from rfl, h3] at h1
  injection h1 with h1
  injection h1 with h1
  injection h1 with h1
  subst h1
  have h4 := (h2.2.2.2 8646911284551352 1018 (by unfold Canonical; decide)).1
  revert h4
  decide +kernel

/-- **C81 is violated** by numbers with an exponent part as well: `3e-1` is read as 0.30000000000000004. -/
theorem C81_violated_exponent : ∃ x, readDouble arith [0x33, 0x65, 0x2D, 0x31, 0x2C] = .ok (.inr (x, [0x2C])) ∧
    ¬ NearestDouble ⟨false, 3, -1⟩ x := by
  refine ⟨.fin false 5404319552844596 1020, by decide +kernel, ?_⟩
  intro h
  have h4 := (h.2.2.2 5404319552844595 1020 (by unfold Canonical; decide)).1
  revert h4
  decide +kernel

/-- **C81, the part that holds exactly**: an integer below 2^53, possibly with an exponent part of at most 22, is read as the
nearest double; only the last multiplication rounds.
Missing: fractions, negative and larger exponents, more digits. -/
theorem C81_exact_partial (i et : Bytes) (e : Int) (c : Byte) (r : Bytes) (hi : RfcInt i) (he : RfcExp et e)
    (hd : decimal i < 2 ^ 53) (h0 : 0 ≤ e) (h22 : e ≤ 22) (h1 : ¬ Digit c) (h2 : c ∉ [0x5F, 0x2E, 0x65, 0x45]) :
    ∃ x, readDouble arith (i ++ et ++ c :: r) = .ok (.inr (x, c :: r)) ∧ NearestDouble ⟨false, decimal i, e⟩ x := by
  simp only [List.mem_cons, List.not_mem_nil, or_false, not_or] at h2
  obtain ⟨e', h3, rfl⟩ := rfc_under hi .none he
  have hc : Final c := ⟨h1, h2.1, h2.2.1, h2.2.2.1, h2.2.2.2⟩
  have h4 := readDouble_ok arith h3 hc r
  rw [B64.valueOf_exact i (Parser.rfcInt_digits hi).1 e' hd h0 h22, List.nil_append] at h4
  exact ⟨_, h4, conv_nearest ⟨false, decimal i, e'.getD 0⟩⟩

/-- **C81, the part that holds approximately**: a number with at most 306 digits before and 305 behind the point, an exponent part
between -306 and 306 and a value that is zero or between 10^(-306) and 10^306 is read as a finite double that differs from the
number by at most two roundings for each digit before the point, one for each digit behind it, and two for the exponent.
Missing: the nearest double. -/
theorem C81_error_partial (i ft fd et : Bytes) (e : Int) (c : Byte) (r : Bytes) (hi : RfcInt i) (hf : RfcFrac ft fd)
    (he : RfcExp et e) (h1 : ¬ Digit c) (h2 : c ∉ [0x5F, 0x2E, 0x65, 0x45]) (hil : i.length ≤ 306) (hfl : fd.length ≤ 305)
    (he1 : -306 ≤ e) (he2 : e ≤ 306) (hd : decimal (i ++ fd) = 0 ∨ 1 / 10 ^ 306 ≤ (decimal (i ++ fd) : Rat) * 10 ^ (e - fd.length) ∧
      (decimal (i ++ fd) : Rat) * 10 ^ (e - fd.length) ≤ 10 ^ 306) :
    ∃ x v, readDouble arith (i ++ (ft ++ et) ++ c :: r) = .ok (.inr (x, c :: r)) ∧ value x = some v ∧
      Roundings (2 * i.length + fd.length + 2) v ((decimal (i ++ fd) : Rat) * 10 ^ (e - fd.length)) := by
  simp only [List.mem_cons, List.not_mem_nil, or_false, not_or] at h2
  obtain ⟨e', h3, rfl⟩ := rfc_under hi hf he
  have hc : Final c := ⟨h1, h2.1, h2.2.1, h2.2.2.1, h2.2.2.2⟩
  have hid := (Parser.rfcInt_digits hi)
  have hne : i ≠ [] := by
    obtain ⟨c, r, e, -⟩ := hid.2
    rw [e]; simp
  have hfd : ∀ c ∈ fd, Digit c := by
    cases hf with
    | none => simp
    | some _ h => exact h
  obtain ⟨v, h4, h5⟩ := approx_get (approx_value hid.1 hfd hne hil hfl he1 he2 (by
    rcases hd with h | h
    · left; rw [h, Nat.cast_zero, zero_mul]
    · right; exact h))
  exact ⟨_, v, readDouble_ok arith h3 hc r, h4, h5⟩

/-- **C81, the bound in figures**: under the same conditions the relative error is at most `(2 a + b + 2) * 2^(-52)` for `a` digits
before and `b` behind the point. -/
theorem C81_bound_partial (i ft fd et : Bytes) (e : Int) (c : Byte) (r : Bytes) (hi : RfcInt i) (hf : RfcFrac ft fd)
    (he : RfcExp et e) (h1 : ¬ Digit c) (h2 : c ∉ [0x5F, 0x2E, 0x65, 0x45]) (hil : i.length ≤ 306) (hfl : fd.length ≤ 305)
    (he1 : -306 ≤ e) (he2 : e ≤ 306) (d : Rat) (hdd : d = (decimal (i ++ fd) : Rat) * 10 ^ (e - fd.length))
    (hd : d = 0 ∨ 1 / 10 ^ 306 ≤ d ∧ d ≤ 10 ^ 306) :
    ∃ x v, readDouble arith (i ++ (ft ++ et) ++ c :: r) = .ok (.inr (x, c :: r)) ∧ value x = some v ∧
      v - d ≤ d * ((2 * i.length + fd.length + 2) / 2 ^ 52) ∧ d - v ≤ d * ((2 * i.length + fd.length + 2) / 2 ^ 52) := by
  have hz : decimal (i ++ fd) = 0 ∨ 1 / 10 ^ 306 ≤ (decimal (i ++ fd) : Rat) * 10 ^ (e - fd.length) ∧
      (decimal (i ++ fd) : Rat) * 10 ^ (e - fd.length) ≤ 10 ^ 306 := by
    rcases hd with h | h
    · left
      rw [hdd] at h
      rcases mul_eq_zero.1 h with h | h
      · exact_mod_cast h
      · exact absurd h (zpow_ne_zero _ (by norm_num))
    · right; rw [← hdd]; exact h
  obtain ⟨x, v, h3, h4, h5⟩ := C81_error_partial i ft fd et e c r hi hf he h1 h2 hil hfl he1 he2 hz
  refine ⟨x, v, h3, h4, ?_⟩
  rw [← hdd, roundings_iff] at h5
  have hw := w_pow (2 * i.length + fd.length + 2) (by omega)
  push_cast at hw
  have hd0 : 0 ≤ d := by rw [hdd]; exact mul_nonneg (Nat.cast_nonneg _) (zpow_nonneg (by norm_num) _)
  have hw1 : (1 : Rat) ≤ w ^ (2 * i.length + fd.length + 2) := one_le_pow₀ w_one
  generalize w ^ (2 * i.length + fd.length + 2) = W at *
  generalize ((2 * i.length + fd.length + 2 : Rat) / 2 ^ 52) = K at *
  have hW : d * W ≤ d * (1 + K) := mul_le_mul_of_nonneg_left hw hd0
  constructor
  · linarith [h5.2]
  · -- d ≤ v W and W ≤ 1 + K: d - v ≤ d - d / W
    have hK : 0 ≤ K := by linarith
    have hv : 0 ≤ v := by
      by_contra hc
      have : v * W < 0 := mul_neg_of_neg_of_pos (not_le.1 hc) (by linarith)
      linarith [h5.1]
    by_cases hvd : v ≤ d
    · have h6 : v * W ≤ v * (1 + K) := mul_le_mul_of_nonneg_left hw hv
      have h7 : v * K ≤ d * K := mul_le_mul_of_nonneg_right hvd hK
      linarith [h5.1]
    · have : 0 ≤ d * K := mul_nonneg hd0 hK
      linarith

/-- A finite double times zero is zero. -/
theorem zero_factor (m q : Nat) : mul (.fin false m q) (ofNat 0) = .fin false 0 0 := by
  obtain ⟨m', q', h1, -, h2⟩ := ofNat_fin 0 (by norm_num)
  rw [h1]
  simp only [mul, ulps]
  rw [h2, Nat.zero_mul, Nat.mul_zero]
  exact round_zero false (Nat.two_pow_pos _)

/-- **What happens beyond**: with an exponent part of 309 or more every number becomes infinite, except that zero becomes NaN,
and with one of -309 or less every number becomes zero. -/
theorem C81_cutoff (i ft fd et : Bytes) (e : Int) (c : Byte) (r : Bytes) (hi : RfcInt i) (hf : RfcFrac ft fd)
    (he : RfcExp et e) (h1 : ¬ Digit c) (h2 : c ∉ [0x5F, 0x2E, 0x65, 0x45]) (hil : i.length ≤ 306) (hfl : fd.length ≤ 305) :
    (309 ≤ e → readDouble arith (i ++ (ft ++ et) ++ c :: r) =
      .ok (.inr (if decimal (i ++ fd) = 0 then .nan else .inf false, c :: r))) ∧
    (e ≤ -309 → readDouble arith (i ++ (ft ++ et) ++ c :: r) = .ok (.inr (.fin false 0 0, c :: r))) := by
  simp only [List.mem_cons, List.not_mem_nil, or_false, not_or] at h2
  obtain ⟨e', h3, rfl⟩ := rfc_under hi hf he
  have hc : Final c := ⟨h1, h2.1, h2.2.1, h2.2.2.1, h2.2.2.2⟩
  have hid := (Parser.rfcInt_digits hi)
  have hne : i ≠ [] := by
    obtain ⟨c, r, e, -⟩ := hid.2
    rw [e]; simp
  have hfd : ∀ c ∈ fd, Digit c := by
    cases hf with
    | none => simp
    | some _ h => exact h
  obtain ⟨m, q, h4, -, h5⟩ := approx_digits hid.1 hfd hne hil hfl
  rw [readDouble_ok arith h3 hc r]
  unfold valueOf
  dsimp only
  rw [h4]
  cases e' with
  | none => constructor <;> intro h <;> simp at h
  | some e =>
    simp only [Option.getD_some, applyExp, power]
    constructor
    · intro h
      rw [if_pos h]
      have hm : m = 0 ↔ decimal (i ++ fd) = 0 := by
        rw [roundings_iff] at h5
        have hp : (0 : Rat) < (10 ^ fd.length : Nat) := by rw [Nat.cast_pow]; positivity
        constructor
        · rintro rfl
          rw [Nat.zero_mul, Nat.cast_zero, zero_div, zero_mul] at h5
          have h6 : ((decimal (i ++ fd) : Nat) : Rat) ≤ 0 := by
            have := (div_le_iff₀ hp).1 h5.1
            rwa [zero_mul] at this
          have : decimal (i ++ fd) ≤ 0 := by exact_mod_cast h6
          omega
        · intro h
          rw [h, Nat.cast_zero, zero_div, zero_mul] at h5
          have h6 := h5.2
          have h7 : ((m * 2 ^ q : Nat) : Rat) ≤ 0 := by
            have := (div_le_iff₀ unit_pos).1 h6
            rwa [zero_mul] at this
          have h8 : m * 2 ^ q ≤ 0 := by exact_mod_cast h7
          rcases Nat.mul_eq_zero.1 (Nat.le_zero.1 h8) with h | h
          · exact h
          · exact absurd h (Nat.two_pow_pos q).ne'
      show Out.ok (Sum.inr (mul (.fin false m q) (.inf false), c :: r)) = _
      by_cases h0 : m = 0
      · rw [if_pos (hm.1 h0)]; simp only [mul, if_pos h0]
      · rw [if_neg fun h => h0 (hm.2 h)]; simp only [mul, if_neg h0]; rfl
    · intro h
      rw [if_neg (by omega), if_pos h]
      have h6 := zero_factor m q
      rw [arith_ofNat, arith_mul, h6]

/-- **C81 (overflow).** A one followed by 320 zeros is read as infinity, in spite of the digits added after the
value has become infinite. -/
theorem C81_overflow : readDouble arith (0x31 :: List.replicate 320 0x30 ++ [0x2C]) = .ok (.inr (.inf false, [0x2C])) := by
  decide +kernel

/-! ## Examples -/

/-- `125e20,` is read as the nearest double, `0.12,` with a relative error of at most 6 * 2^(-52), `0.0e309,` as NaN, `7e-309,` as
zero and `12.5e1,` as 125. -/
example : ∃ x, readDouble arith [0x31, 0x32, 0x35, 0x65, 0x32, 0x30, 0x2C] = .ok (.inr (x, [0x2C])) ∧ NearestDouble ⟨false, 125, 20⟩ x :=
  C81_exact_partial [0x31, 0x32, 0x35] [0x65, 0x32, 0x30] 20 0x2C [] (.pos (by unfold Digit; decide) (by decide)
    (by unfold Digit; decide)) (.unsigned (ds := [0x32, 0x30]) (.inl rfl) (by simp) (by unfold Digit; decide))
    (by decide) (by decide) (by decide) (by unfold Digit; decide) (by decide)
example : ∃ x v, readDouble arith [0x30, 0x2E, 0x31, 0x32, 0x2C] = .ok (.inr (x, [0x2C])) ∧ value x = some v ∧
    v - 12 / 100 ≤ 12 / 100 * (6 / 2 ^ 52) ∧ 12 / 100 - v ≤ 12 / 100 * (6 / 2 ^ 52) := by
  have h := C81_bound_partial [0x30] [0x2E, 0x31, 0x32] [0x31, 0x32] [] 0 0x2C [] .zero (.some (by simp) (by unfold Digit; decide)) .none
    (by unfold Digit; decide) (by decide) (by simp) (by simp) (by decide) (by decide) (12 / 100) (by
      rw [show decimal ([0x30] ++ [0x31, 0x32]) = 12 by decide]; norm_num) (.inr ⟨by
        have h : (1 : Rat) / 10 ^ 306 ≤ 1 / 10 ^ 2 := one_div_le_one_div_of_le (by norm_num) (pow_le_pow_right₀ (by norm_num) (by norm_num))
        exact h.trans (by norm_num), by
        have h : (1 : Rat) ≤ 10 ^ 306 := one_le_pow₀ (by norm_num)
        exact le_trans (by norm_num) h⟩)
  norm_num at h ⊢
  exact h
example : readDouble arith [0x30, 0x2E, 0x30, 0x65, 0x33, 0x30, 0x39, 0x2C] = .ok (.inr (.nan, [0x2C])) := by decide +kernel
example : readDouble arith [0x37, 0x65, 0x2D, 0x33, 0x30, 0x39, 0x2C] = .ok (.inr (.fin false 0 0, [0x2C])) := by decide +kernel
example : readDouble arith [0x31, 0x32, 0x2E, 0x35, 0x65, 0x31, 0x2C] = .ok (.inr (ofNat 125, [0x2C])) := by decide +kernel

end Verif.Props
