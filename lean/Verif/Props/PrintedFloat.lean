import Verif.Lemmas.PrintReal
import Verif.Props.FloatText

/-!
# Printed floats with the actual `Log` and `Exp` (C98)

`Verif.Props.FloatText` has the properties of `FloatToString` for every behaviour of `Log` and `Exp`. Here `elem` is what the
functions of TSMath.cpp compute.
-/

namespace Verif.Props

open Verif Verif.Texts Verif.Str Verif.B32 Verif.MathFns Verif.FloatText Verif.Spec.F32
open Verif.Spec (units FiniteFloat Near RfcNum LooseNum Digit Dec decReal)

/-- **C98**: every finite float is written as an RFC 8259 number, with a relative error of at most `2e-5`. -/
def C98_statement (wrapv : Bool) : Prop :=
  ∀ num c, FiniteFloat num → c.length = 16 → ∃ c' t d, fixedSetFloat elem wrapv 15 num c = .ok c' ∧ Holds c' t ∧ RfcNum t d ∧
    |decReal d - real (ofBits num)| ≤ 2 / 10 ^ 5 * |real (ofBits num)|

theorem near_real {m k b : Nat} (h : Near m k b) :
    |(m : ℝ) / 10 ^ k - (units b : ℝ) / 2 ^ 149| ≤ 10121 / 10 ^ 9 := by
  have h1 : ((Spec.dist (m * 2 ^ 149) (units b * 10 ^ k) : Nat) : ℝ) = |(m : ℝ) * 2 ^ 149 - units b * 10 ^ k| := by
    unfold Spec.dist
    rcases Nat.le_total (m * 2 ^ 149) (units b * 10 ^ k) with h | h
    · have h' : ((m * 2 ^ 149 : Nat) : ℝ) ≤ ((units b * 10 ^ k : Nat) : ℝ) := Nat.cast_le.2 h
      rw [Nat.sub_eq_zero_of_le h, Nat.zero_add, Nat.cast_sub h]
      rw [Nat.cast_mul, Nat.cast_mul, Nat.cast_pow, Nat.cast_pow, Nat.cast_ofNat, Nat.cast_ofNat] at *
      rw [abs_of_nonpos (by linarith)]
      ring
    · have h' : ((units b * 10 ^ k : Nat) : ℝ) ≤ ((m * 2 ^ 149 : Nat) : ℝ) := Nat.cast_le.2 h
      rw [Nat.sub_eq_zero_of_le h, Nat.add_zero, Nat.cast_sub h]
      rw [Nat.cast_mul, Nat.cast_mul, Nat.cast_pow, Nat.cast_pow, Nat.cast_ofNat, Nat.cast_ofNat] at *
      rw [abs_of_nonneg (by linarith)]
  have h2 : ((Spec.dist (m * 2 ^ 149) (units b * 10 ^ k) : Nat) : ℝ) * (10 ^ 5 * 2 ^ 23) < (10 ^ 5 + 2 ^ 23) * (10 ^ k * 2 ^ 149) := by
    have := Nat.cast_lt (α := ℝ).2 h
    rw [Nat.cast_mul, Nat.cast_mul, Nat.cast_mul, Nat.cast_mul, Nat.cast_add, Nat.cast_pow, Nat.cast_pow, Nat.cast_pow, Nat.cast_pow,
      Nat.cast_ofNat, Nat.cast_ofNat] at this
    exact this
  rw [h1] at h2
  have hu : (0 : ℝ) < 2 ^ 149 := by positivity
  have hk : (0 : ℝ) < 10 ^ k := by positivity
  generalize (2 : ℝ) ^ 149 = U at *
  generalize (10 : ℝ) ^ k = K at *
  rw [div_sub_div _ _ hk.ne' hu.ne', abs_div, abs_of_pos (mul_pos hk hu), div_le_iff₀ (mul_pos hk hu), mul_comm K (units b : ℝ)]
  have := mul_pos hk hu
  norm_num at h2 ⊢
  nlinarith

theorem decReal_scaled {d : Dec} {f : Int} (h : d.exponent ≤ f) :
    decReal d = (if d.neg then -1 else 1) * ((d.mantissa : ℝ) / 10 ^ (f - d.exponent).toNat * 10 ^ f) := by
  have e : (10 : ℝ) ^ d.exponent = 10 ^ f / 10 ^ (f - d.exponent).toNat := by
    rw [eq_div_iff (by positivity), ← zpow_natCast, ← zpow_add₀ (by norm_num)]
    congr 1
    omega
  unfold decReal
  rw [e]
  ring

theorem sign_abs {s : Bool} (a b : ℝ) : |(if s = true then -1 else 1) * a - (if s = true then -1 else 1) * b| = |a - b| := by
  cases s
  · simp
  · simp only [if_true]
    rw [← abs_neg]
    ring_nf

theorem abs_bits {num : Nat} (h0 : num / 2 ^ 23 % 256 ≠ 0) (hf : FiniteFloat num) :
    |real (ofBits num)| = real (ofBits (num % 2 ^ 31)) := by
  have hp : 0 < real (ofBits (num % 2 ^ 31)) := normal_pos (by omega) (by have := hf.2; omega)
  rw [real_abs_bits hf, abs_mul, abs_of_pos hp]
  split <;> simp

/-- **C98** from 1e5 on and below 1e-4, unless the exponent is found to be -38. -/
theorem C98_scaled_partial (wrapv : Bool) (num : Nat) (c : Bytes) (hf : FiniteFloat num) (hc : c.length = 16)
    (h0 : num / 2 ^ 23 % 256 ≠ 0) (h1 : num % 2 ^ 31 < 0x38D1B717 ∨ 0x47C35000 ≤ num % 2 ^ 31)
    (h2 : elem.lg (num % 2 ^ 31) ≠ -38) :
    ∃ c' t d, fixedSetFloat elem wrapv 15 num c = .ok c' ∧ Holds c' t ∧ RfcNum t d ∧
      |decReal d - real (ofBits num)| ≤ 2 / 10 ^ 5 * |real (ofBits num)| := by
  have b1 : 2 ^ 23 ≤ num % 2 ^ 31 := by omega
  have b2 : num % 2 ^ 31 < 255 * 2 ^ 23 := by have := hf.2; omega
  obtain ⟨r1, r2⟩ := decade_range b1 b2
  obtain ⟨a1, -⟩ := decade_ratio b1 b2
  obtain ⟨q, q1, q2, q3, q4⟩ := quot_spec b1 b2 h2
  obtain ⟨c', t, d, p1, p2, p3, p4, p5, p6⟩ := C79_scaled_partial elem wrapv num c (elem.lg (num % 2 ^ 31)) q hc h0 hf.2 h1 rfl
    (by omega) (by omega) q1 q2 q3
  refine ⟨c', t, d, p1, p2, p3, ?_⟩
  have n := near_real p6
  rw [decReal_scaled p5, abs_bits h0 hf, real_abs_bits hf, p4, sign_abs]
  generalize elem.lg (num % 2 ^ 31) = f at *
  generalize (d.mantissa : ℝ) / 10 ^ (f - d.exponent).toNat = M at *
  generalize (units q : ℝ) / 2 ^ 149 = Q at *
  generalize real (ofBits (num % 2 ^ 31)) = x at *
  have hT : (0 : ℝ) < 10 ^ f := by positivity
  generalize (10 : ℝ) ^ f = T at *
  obtain ⟨R, rfl⟩ : ∃ R, x = R * T := ⟨x / T, by field_simp⟩
  rw [mul_div_assoc, div_self hT.ne', mul_one] at *
  rw [← sub_mul, abs_mul, abs_of_pos hT, ← mul_assoc]
  refine mul_le_mul_of_nonneg_right ?_ hT.le
  have := abs_sub_le M Q R
  norm_num at n q4 a1 ⊢
  linarith

/-- **C98** from 1 to 1e5 (to 512 if the compiler does not define the overflowing shift). -/
theorem C98_mid_partial (wrapv : Bool) (num : Nat) (c : Bytes) (hf : FiniteFloat num) (hc : c.length = 16)
    (h1 : 0x3F800000 ≤ num % 2 ^ 31) (h2 : num % 2 ^ 31 < 0x47C35000) (hw : wrapv = true ∨ num % 2 ^ 31 < 0x44000000) :
    ∃ c' t d, fixedSetFloat elem wrapv 15 num c = .ok c' ∧ Holds c' t ∧ RfcNum t d ∧
      |decReal d - real (ofBits num)| ≤ 2 / 10 ^ 5 * |real (ofBits num)| := by
  obtain ⟨c', t, d, p1, p2, p3, p4, p5, p6, -⟩ := C79_near_partial elem wrapv num c hf.1 hc (by omega) h2 hw
  refine ⟨c', t, d, p1, p2, p3, ?_⟩
  have n := near_real p6
  have e : (-d.exponent).toNat = (0 - d.exponent).toNat := by rw [Int.zero_sub]
  rw [e] at n
  have hu : real (ofBits (num % 2 ^ 31)) = (units num : ℝ) / 2 ^ 149 := by
    have hn : decide (2 ^ 31 ≤ num % 2 ^ 31) = false := by rw [decide_eq_false_iff_not]; omega
    have hf' : FiniteFloat (num % 2 ^ 31) := ⟨by omega, by have := hf.2; omega⟩
    rw [real_ofBits hf', hn, units_mod]
    simp only [Bool.false_eq_true, if_false, one_mul]
  have x1 : 1 ≤ real (ofBits (num % 2 ^ 31)) := by
    rw [normal_real (by omega) (by have := hf.2; omega)]
    have : (1 : ℝ) ≤ 2 ^ (((num % 2 ^ 31 / 2 ^ 23 : Nat) : Int) - 127) := one_le_zpow₀ (by norm_num) (by omega)
    have m0 : (0 : ℝ) ≤ ((num % 2 ^ 31 % 2 ^ 23 : Nat) : ℝ) / 2 ^ 23 := by positivity
    nlinarith
  rw [decReal_scaled p5, abs_bits (by omega) hf, real_abs_bits hf, p4, sign_abs, zpow_zero, mul_one]
  rw [← hu] at n
  generalize (d.mantissa : ℝ) / 10 ^ (0 - d.exponent).toNat = M at *
  generalize real (ofBits (num % 2 ^ 31)) = x at *
  norm_num at n ⊢
  linarith

/-- From 1e-4 to 1 there is only an absolute error of `10^(-5) + 2^(-23)`. -/
theorem C98_absolute_partial (wrapv : Bool) (num : Nat) (c : Bytes) (hf : FiniteFloat num) (hc : c.length = 16)
    (h1 : 0x38D1B717 ≤ num % 2 ^ 31) (h2 : num % 2 ^ 31 < 0x3F800000) :
    ∃ c' t d, fixedSetFloat elem wrapv 15 num c = .ok c' ∧ Holds c' t ∧ RfcNum t d ∧
      |decReal d - real (ofBits num)| ≤ 10121 / 10 ^ 9 := by
  obtain ⟨c', t, d, p1, p2, p3, p4, p5, p6, -⟩ := C79_near_partial elem wrapv num c hf.1 hc (by omega) (by omega) (.inr (by omega))
  refine ⟨c', t, d, p1, p2, p3, ?_⟩
  have n := near_real p6
  have e : (-d.exponent).toNat = (0 - d.exponent).toNat := by rw [Int.zero_sub]
  rw [e] at n
  rw [decReal_scaled p5, real_ofBits hf, p4, sign_abs, zpow_zero, mul_one]
  exact n

/-- **C98 is violated**: the float nearest to 0.000105 is written as `0.0001`. -/
theorem C98_violated (wrapv : Bool) : ¬ C98_statement wrapv := by
  intro h
  obtain ⟨c', t, d, h1, h2, h3, h4⟩ := h 0x38DC3372 (List.replicate 16 0) ⟨by decide, by decide⟩ (by decide)
  have e1 : fixedSetFloat elem wrapv 15 0x38DC3372 (List.replicate 16 0) =
      .ok ([48, 46, 48, 48, 48, 49] ++ 0 :: List.replicate 9 0) := by
    rw [fixed_mid (by decide) (by decide)]
    cases wrapv <;> decide +kernel
  rw [e1] at h1
  cases h1
  obtain rfl : [48, 46, 48, 48, 48, 49] = t := holds_unique ⟨by decide, _, rfl⟩ h2
  have h5 : RfcNum [48, 46, 48, 48, 48, 49] ⟨false, 1, -4⟩ :=
    RfcNum.pos (i := [48]) (ft := [46, 48, 48, 48, 49]) (et := []) .zero (.some (by decide) (by simp [Digit])) .none
  obtain rfl := Verif.Parser.loose_det (rfc_loose h3) (rfc_loose h5)
  have hx : real (ofBits 0x38DC3372) = 14431090 / 2 ^ 37 := by
    have : ofBits 0x38DC3372 = .fin false 14431090 112 := by decide
    rw [this, real_fin, Nat.cast_mul, Nat.cast_pow, Nat.cast_ofNat, Nat.cast_ofNat]
    norm_num
  have hd : decReal ⟨false, 1, -4⟩ = 1 / 10 ^ 4 := by
    unfold decReal
    norm_num
  rw [hx, hd, abs_of_pos (by norm_num : (0 : ℝ) < 14431090 / 2 ^ 37), abs_le] at h4
  norm_num at h4

/-- Normal floats whose absolute value is not greater than `0.9999e-37` are not written at all: the shift count is out of
range. -/
theorem C98_undefined (wrapv : Bool) (num : Nat) (c : Bytes) (hf : FiniteFloat num) (hc : c.length = 16)
    (h0 : num / 2 ^ 23 % 256 ≠ 0) (h : |real (ofBits num)| ≤ 9999 / 10 ^ 41) : fixedSetFloat elem wrapv 15 num c = .ub := by
  have b1 : 2 ^ 23 ≤ num % 2 ^ 31 := by omega
  have b2 : num % 2 ^ 31 < 255 * 2 ^ 23 := by have := hf.2; omega
  obtain ⟨r1, r2⟩ := decade_range b1 b2
  obtain ⟨n, n0, n1, n2⟩ := decade_spec b1 b2
  rw [abs_bits h0 hf] at h
  have hp := normal_pos b1 b2
  have hlt : num % 2 ^ 31 < 0x38D1B717 := by
    by_contra hge
    have : (2 : ℝ) ^ (-14 : Int) ≤ real (ofBits (num % 2 ^ 31)) := by
      rw [normal_real b1 b2]
      have h1 : (2 : ℝ) ^ (-14 : Int) ≤ 2 ^ (((num % 2 ^ 31 / 2 ^ 23 : Nat) : Int) - 127) := zpow_le_zpow_right₀ (by norm_num) (by omega)
      have m0 : (0 : ℝ) ≤ ((num % 2 ^ 31 % 2 ^ 23 : Nat) : ℝ) / 2 ^ 23 := by positivity
      have hz : (0 : ℝ) < 2 ^ (((num % 2 ^ 31 / 2 ^ 23 : Nat) : Int) - 127) := by positivity
      nlinarith
    norm_num at this h
    linarith
  refine C79_undefined_tiny elem wrapv num c hc h0 hlt ?_
  rw [n0] at r1 ⊢
  by_contra hne
  have hn : -37 ≤ n := by omega
  have hn' : (-37 : ℝ) ≤ n := by exact_mod_cast hn
  obtain ⟨a, b⟩ := log_ten_bounds
  norm_num at a b
  have l1 : Real.log (real (ofBits (num % 2 ^ 31))) ≤ Real.log (9999 / 10000) + (-37 : Int) * Real.log 10 := by
    rw [← Real.log_zpow, ← Real.log_mul (by norm_num) (by positivity)]
    refine Real.log_le_log hp (h.trans ?_)
    norm_num
  have l2 : Real.log (9999 / 10000) ≤ 9999 / 10000 - 1 := Real.log_le_sub_one_of_pos (by norm_num)
  push_cast at l1
  norm_num at n1 l2
  nlinarith

/-- With the actual `Log` and `Exp`, 123456.0F is written as `1.2345591e5`, 2^24 as `1.6777219e7`, the largest float as
`3.4028093e38` (the shortest text would be `3.4028235e38`), and -1e-37F as `-0.99999e-37`. -/
example : fixedSetFloat elem false 15 0x47F12000 (List.replicate 16 0) =
    .ok ("1.2345591e5".toUTF8.data.toList ++ List.replicate 5 0) ∧
    fixedSetFloat elem false 15 0x4B800000 (List.replicate 16 0) = .ok ("1.6777219e7".toUTF8.data.toList ++ List.replicate 5 0) ∧
    fixedSetFloat elem false 15 0x7F7FFFFF (List.replicate 16 0) = .ok ("3.4028093e38".toUTF8.data.toList ++ List.replicate 4 0) ∧
    fixedSetFloat elem false 15 0x82081CEA (List.replicate 16 0) = .ok ("-0.99999e-37".toUTF8.data.toList ++ List.replicate 4 0) := by
  decide +kernel

end Verif.Props
