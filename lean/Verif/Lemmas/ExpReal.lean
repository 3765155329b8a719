import Mathlib.Analysis.Complex.ExponentialBounds
import Verif.Lemmas.FloatReal
import Verif.Props.Floats

/-!
# Accuracy of `Exp`
-/

namespace Verif.MathFns

open Verif Verif.B32 Verif.Spec.F32
open Finset (range)

theorem real_one : real one = 1 := by
  unfold real
  rw [val_one, unit_pow]
  push_cast
  norm_num

theorem real_zero : real zero = 0 := by unfold real; rw [val_zero]; simp

/-- Small integers are exact. -/
theorem ofInt_spec {n : Int} (h : n.natAbs ≤ 2 ^ 24) : Finite (ofInt n) ∧ val (ofInt n) = n * unit := by
  unfold ofInt
  have hb : n.natAbs * 2 ^ 149 ≤ 2 ^ 276 :=
    calc _ ≤ 2 ^ 24 * 2 ^ 149 := Nat.mul_le_mul_right _ h
      _ ≤ 2 ^ 276 := by rw [← Nat.pow_add]; exact Nat.pow_le_pow_right (by decide) (by decide)
  obtain ⟨h1, h2⟩ := round_int (decide (n < 0)) hb
  refine ⟨h1, ?_⟩
  have h3 := rounded_exact (c := n.natAbs) (j := 149) h2 (by split <;> omega) h
  rw [h3, unit_pow]
  by_cases hn : n < 0
  · simp only [hn, decide_true, if_true]
    push_cast
    rw [abs_of_neg hn]; ring
  · simp only [hn, decide_false, Bool.false_eq_true, if_false]
    push_cast
    rw [abs_of_nonneg (by omega)]

theorem real_ofInt {n : Int} (h : n.natAbs ≤ 2 ^ 24) : real (ofInt n) = n := by
  unfold real
  rw [(ofInt_spec h).2, unit_pow, Int.cast_mul, Int.cast_natCast, cast_unit]
  field_simp

theorem recip_approx {n : Nat} (h0 : 0 < n) (h : n ≤ 2 ^ 24) : Approx (recip n) (1 / n) (eps * (1 / n) + tiny) := by
  have hn : (0 : ℝ) < n := by exact_mod_cast h0
  have e1 := real_ofInt (n := n) (by omega)
  have h1 : (1 : ℝ) ≤ n := by exact_mod_cast h0
  have h2 : 1 / (n : ℝ) ≤ 1 := by rw [div_le_one hn]; exact h1
  obtain ⟨h3, h4⟩ := div_real finite_one (ofInt_spec (n := n) (by omega)).1 (by rw [e1]; exact_mod_cast hn.ne') (by
    rw [e1, real_one, Int.cast_natCast, abs_of_pos (by positivity)]
    linarith [show (1 : ℝ) ≤ 2 ^ 127 by norm_num])
  rw [e1, real_one, Int.cast_natCast, abs_of_pos (show (0 : ℝ) < 1 / n by positivity)] at h4
  exact ⟨h3, h4⟩

/-- Enclosure of a nonnegative number with an upper bound. -/
structure Enc (x : Flt) (r A d : ℝ) : Prop where
  approx : Approx x r d
  nonneg : 0 ≤ r
  le : r ≤ A

/-- One step of Horner's scheme. -/
theorem Enc.madd {r x c : Flt} {a C A d : ℝ} (e A' f : ℝ) (hr : Enc r a A d) (hx : Finite x) (h0 : 0 ≤ real x) (h1 : real x ≤ 1)
    (hc : Approx c C e) (hC : 0 ≤ C) (hA : A + C ≤ A') (hs : A' + A + 4 * (d + e) ≤ 1)
    (hf : d + eps * (A + d) + tiny + e + eps * (A' + (d + eps * (A + d) + tiny + e)) ≤ f) :
    Enc (MathFns.madd r x c) (a * real x + C) A' f := by
  have ha := hr.nonneg
  have hle := hr.le
  have hd : 0 ≤ d := (abs_nonneg _).trans hr.approx.2
  have he : 0 ≤ e := (abs_nonneg _).trans hc.2
  have hax : 0 ≤ a * real x := mul_nonneg ha h0
  have hax' : a * real x ≤ A := (mul_le_of_le_one_right ha h1).trans hle
  have s1 : eps ≤ 1 / 8 := by unfold eps; norm_num
  have s2 : tiny ≤ 1 / 8 := by unfold tiny; norm_num
  have s3 : 0 ≤ eps := by unfold eps; positivity
  have s4 : 0 ≤ tiny := by unfold tiny; positivity
  have big : (4 : ℝ) ≤ 2 ^ 127 := by norm_num
  have m1 : Approx (mul r x) (a * real x) (d + eps * (A + d) + tiny) := by
    refine Approx.mul A 1 _ hr.approx (.exact hx) (by rw [abs_of_nonneg ha]; exact hle) (by rw [abs_of_nonneg h0]; exact h1) ?_ ?_
    · nlinarith
    · nlinarith
  refine ⟨?_, by linarith, by linarith⟩
  unfold MathFns.madd
  refine Approx.add A' f m1 hc (by rw [abs_of_nonneg (by linarith)]; linarith) ?_ hf
  nlinarith

theorem val_half : val (const 0x3F000000) * 2 = unit := by decide +kernel
theorem finite_half : Finite (const 0x3F000000) := ⟨false, 2 ^ 23, 125, by decide, by decide, by decide, .inr (by decide)⟩

theorem real_half : real (const 0x3F000000) = 1 / 2 := by
  unfold real
  have h : ((val (const 0x3F000000) : Int) : ℝ) * 2 = ((unit : Nat) : ℝ) := by exact_mod_cast val_half
  rw [unit_pow, cast_unit] at h
  rw [div_eq_div_iff (by positivity) (by norm_num), h]
  ring

/-- The polynomial computed by `Exp`. -/
theorem expPoly_approx {x : Flt} (hx : Finite x) (h0 : 0 ≤ real x) (h1 : real x ≤ 1) :
    Approx (expPoly x) (∑ k ∈ range 10, real x ^ k / (Nat.factorial k : ℝ)) (458 / 10 ^ 9) := by
  have r9 : Enc (recip 362880) (1 / 362880) (1 / 362880) (165 / 10 ^ 15) := by
    refine ⟨(recip_approx (n := 362880) (by decide) (by decide)).mono ?_, by norm_num, le_refl _⟩
    unfold eps tiny; norm_num
  have c8 := recip_approx (n := 40320) (by decide) (by decide)
  have c7 := recip_approx (n := 5040) (by decide) (by decide)
  have c6 := recip_approx (n := 720) (by decide) (by decide)
  have c5 := recip_approx (n := 120) (by decide) (by decide)
  have c4 := recip_approx (n := 24) (by decide) (by decide)
  have c3 := recip_approx (n := 6) (by decide) (by decide)
  have c2 : Approx (const 0x3F000000) (1 / 2) 0 := by have := Approx.exact finite_half; rwa [real_half] at this
  have r8 := Enc.madd _ (1 / 36288) (346 / 10 ^ 14) r9 hx h0 h1 c8 (by norm_num) (by norm_num)
    (by unfold eps tiny; norm_num) (by unfold eps tiny; norm_num)
  have r7 := Enc.madd _ (41 / 181440) (304 / 10 ^ 13) r8 hx h0 h1 c7 (by norm_num) (by norm_num)
    (by unfold eps tiny; norm_num) (by unfold eps tiny; norm_num)
  have r6 := Enc.madd _ (293 / 181440) (223 / 10 ^ 12) r7 hx h0 h1 c6 (by norm_num) (by norm_num)
    (by unfold eps tiny; norm_num) (by unfold eps tiny; norm_num)
  have r5 := Enc.madd _ (361 / 36288) (141 / 10 ^ 11) r6 hx h0 h1 c5 (by norm_num) (by norm_num)
    (by unfold eps tiny; norm_num) (by unfold eps tiny; norm_num)
  have r4 := Enc.madd _ (1873 / 36288) (757 / 10 ^ 11) r5 hx h0 h1 c4 (by norm_num) (by norm_num)
    (by unfold eps tiny; norm_num) (by unfold eps tiny; norm_num)
  have r3 := Enc.madd _ (7921 / 36288) (336 / 10 ^ 10) r4 hx h0 h1 c3 (by norm_num) (by norm_num)
    (by unfold eps tiny; norm_num) (by unfold eps tiny; norm_num)
  have r2 := Enc.madd _ (26065 / 36288) (895 / 10 ^ 10) r3 hx h0 h1 c2 (by norm_num) (by norm_num)
    (by norm_num) (by unfold eps tiny; norm_num)
  have xx : Approx (mul x x) (real x * real x) (eps + tiny) :=
    Approx.mul 1 1 _ (.exact hx) (.exact hx) (by rw [abs_of_nonneg h0]; exact h1) (by rw [abs_of_nonneg h0]; exact h1)
      (by norm_num) (by norm_num)
  have p := Approx.mul (26065 / 36288) 1 (176 / 10 ^ 9) r2.approx xx (by rw [abs_of_nonneg r2.nonneg]; exact r2.le)
    (by rw [abs_of_nonneg (mul_nonneg h0 h0)]; nlinarith) (by unfold eps tiny; norm_num) (by unfold eps tiny; norm_num)
  have one1 : Approx one 1 0 := by have := Approx.exact finite_one; rwa [real_one] at this
  have t := Approx.add 2 (2 * eps) (.exact hx) one1 (by rw [abs_of_nonneg (by linarith)]; linarith) (by norm_num) (by norm_num; linarith)
  have s := Approx.add (26065 / 36288 + 2) (458 / 10 ^ 9) p t (by
      have q := r2.nonneg
      have q' := r2.le
      have xs : real x * real x ≤ 1 := by nlinarith
      have xs0 : 0 ≤ real x * real x := mul_nonneg h0 h0
      rw [abs_of_nonneg (add_nonneg (mul_nonneg q xs0) (by linarith))]
      have : _ ≤ _ := mul_le_of_le_one_right q xs
      linarith) (by unfold eps; norm_num) (by unfold eps; norm_num)
  unfold expPoly
  refine ⟨s.1, le_trans (le_of_eq ?_) s.2⟩
  congr 2
  simp only [Finset.sum_range_succ, Finset.sum_range_zero, Nat.factorial]
  push_cast
  ring

/-- The polynomial is near the exponential. -/
theorem expPoly_exp {x : Flt} (hx : Finite x) (h0 : 0 ≤ real x) (h1 : real x ≤ 1) :
    Approx (expPoly x) (Real.exp (real x)) (762 / 10 ^ 9) := by
  obtain ⟨a, b⟩ := expPoly_approx hx h0 h1
  refine ⟨a, ?_⟩
  have u := Real.exp_bound' h0 h1 (n := 10) (by decide)
  have l := Real.sum_le_exp_of_nonneg h0 10
  generalize (∑ k ∈ range 10, real x ^ k / (Nat.factorial k : ℝ)) = S at *
  have t : real x ^ 10 * ((10 : ℕ) + 1) / ((Nat.factorial 10 : ℝ) * (10 : ℕ)) ≤ 304 / 10 ^ 9 := by
    have : real x ^ 10 ≤ 1 := pow_le_one₀ h0 h1
    rw [show ((Nat.factorial 10 : ℕ) : ℝ) = 3628800 by norm_num [Nat.factorial]]
    push_cast
    rw [div_le_iff₀ (by norm_num)]
    nlinarith
  rw [abs_le] at *
  constructor <;> linarith

/-! ## The table -/

/-- The finite values of the table, in units of `2^(-149)`. -/
def entryVal (i : Nat) : Nat := (val (expEntry i)).natAbs

theorem table_up : ∀ n < 89, (entryVal (n + 88)) * (10 ^ 10) ^ n * (10 ^ 8) ≤ (10 ^ 8 + 6) * (27182818283 ^ n * 2 ^ 149) ∧
    (10 ^ 8 - 6) * (27182818286 ^ n * 2 ^ 149) ≤ entryVal (n + 88) * (10 ^ 10) ^ n * 10 ^ 8 := by decide +kernel

theorem table_down : ∀ n < 88, (entryVal (88 - n)) * 27182818286 ^ n * (10 ^ 8) ≤ (10 ^ 8 + 6) * ((10 ^ 10) ^ n * 2 ^ 149) ∧
    (10 ^ 8 - 6) * ((10 ^ 10) ^ n * 2 ^ 149) ≤ entryVal (88 - n) * 27182818283 ^ n * 10 ^ 8 := by decide +kernel

/-- Canonical, decidably. -/
def nonnegFinite : Flt → Bool
  | .fin s m q => !s && decide (m < 2 ^ 24) && decide (q ≤ 253) && (decide (q = 0) || decide (2 ^ 23 ≤ m))
  | _ => false

theorem finite_of_nonneg {x : Flt} (h : nonnegFinite x = true) : Finite x ∧ 0 ≤ val x := by
  cases x with
  | fin s m q =>
    simp only [nonnegFinite, Bool.and_eq_true, Bool.or_eq_true, decide_eq_true_eq, Bool.not_eq_true'] at h
    obtain ⟨⟨⟨rfl, h1⟩, h2⟩, h3⟩ := h
    exact ⟨⟨_, _, _, rfl, h1, h2, h3⟩, by simp [val]⟩
  | inf s => cases h
  | nan => cases h

theorem table_finite : ∀ i < 177, nonnegFinite (expEntry i) = true := by decide +kernel

theorem real_entry {i : Nat} (h : i < 177) : real (expEntry i) = (entryVal i : ℝ) / 2 ^ 149 := by
  have := (finite_of_nonneg (table_finite i h)).2
  unfold real entryVal
  rw [Nat.cast_natAbs, abs_of_nonneg this]

theorem exp_one_bounds : (27182818283 : ℝ) / 10 ^ 10 ≤ Real.exp 1 ∧ Real.exp 1 ≤ 27182818286 / 10 ^ 10 := by
  have a := Real.exp_one_gt_d9
  have b := Real.exp_one_lt_d9
  norm_num at *
  constructor <;> linarith

theorem entry_up {n : Nat} (h : n < 89) : |real (expEntry (n + 88)) - Real.exp n| ≤ 6 / 10 ^ 8 * Real.exp n := by
  obtain ⟨t1, t2⟩ := table_up n h
  rw [real_entry (by omega)]
  generalize entryVal (n + 88) = v at *
  obtain ⟨b1, b2⟩ := exp_one_bounds
  have e : Real.exp n = Real.exp 1 ^ n := by rw [← Real.exp_nat_mul, mul_one]
  have lo : (27182818283 : ℝ) ^ n / (10 ^ 10) ^ n ≤ Real.exp n := by rw [e, ← div_pow]; gcongr
  have hi : Real.exp n ≤ (27182818286 : ℝ) ^ n / (10 ^ 10) ^ n := by rw [e, ← div_pow]; gcongr
  have s1 : (v : ℝ) * (10 ^ 10) ^ n * 10 ^ 8 ≤ (10 ^ 8 + 6) * (27182818283 ^ n * 2 ^ 149) := by exact_mod_cast t1
  have s2 : (10 ^ 8 - 6) * ((27182818286 : ℝ) ^ n * 2 ^ 149) ≤ v * (10 ^ 10) ^ n * 10 ^ 8 := by
    have : (((10 ^ 8 - 6) * (27182818286 ^ n * 2 ^ 149) : Nat) : ℝ) ≤ ((v * (10 ^ 10) ^ n * 10 ^ 8 : Nat) : ℝ) := by exact_mod_cast t2
    rw [Nat.cast_mul, Nat.cast_mul, Nat.cast_pow, cast_unit] at this
    norm_num at this ⊢
    exact this
  rw [div_le_iff₀ (by positivity)] at lo
  rw [le_div_iff₀ (by positivity)] at hi
  generalize Real.exp n = E at *
  have hp : (0 : ℝ) < (10 ^ 10) ^ n := by positivity
  generalize ((10 : ℝ) ^ 10) ^ n = T at *
  generalize (27182818283 : ℝ) ^ n = L at *
  generalize (27182818286 : ℝ) ^ n = U at *
  have hv : (v : ℝ) = v / 2 ^ 149 * 2 ^ 149 := by field_simp
  generalize (v : ℝ) / 2 ^ 149 = w at *
  rw [hv] at s1 s2
  have hq : (0 : ℝ) < 2 ^ 149 := by positivity
  generalize (2 : ℝ) ^ 149 = Q at *
  have k1 : (w * 10 ^ 8 - (10 ^ 8 + 6) * E) * (T * Q) ≤ 0 := by
    have : (10 ^ 8 + 6) * (L * Q) ≤ (10 ^ 8 + 6) * (E * T * Q) := by gcongr
    nlinarith
  have k2 : ((10 ^ 8 - 6) * E - w * 10 ^ 8) * (T * Q) ≤ 0 := by
    have : (10 ^ 8 - 6) * (E * T * Q) ≤ (10 ^ 8 - 6) * (U * Q) := by
      have : (0 : ℝ) ≤ 10 ^ 8 - 6 := by norm_num
      gcongr
    nlinarith
  have k1' := nonpos_of_mul_nonpos_left k1 (by positivity)
  have k2' := nonpos_of_mul_nonpos_left k2 (by positivity)
  rw [abs_le]
  constructor <;> linarith

theorem entry_down {n : Nat} (h : n < 88) : |real (expEntry (88 - n)) - Real.exp (-n)| ≤ 6 / 10 ^ 8 * Real.exp (-n) := by
  obtain ⟨t1, t2⟩ := table_down n h
  rw [real_entry (by omega)]
  generalize entryVal (88 - n) = v at *
  obtain ⟨b1, b2⟩ := exp_one_bounds
  have e : Real.exp n = Real.exp 1 ^ n := by rw [← Real.exp_nat_mul, mul_one]
  have lo : (27182818283 : ℝ) ^ n / (10 ^ 10) ^ n ≤ Real.exp n := by rw [e, ← div_pow]; gcongr
  have hi : Real.exp n ≤ (27182818286 : ℝ) ^ n / (10 ^ 10) ^ n := by rw [e, ← div_pow]; gcongr
  have s1 : (v : ℝ) * 27182818286 ^ n * 10 ^ 8 ≤ (10 ^ 8 + 6) * ((10 ^ 10) ^ n * 2 ^ 149) := by exact_mod_cast t1
  have s2 : (10 ^ 8 - 6) * (((10 : ℝ) ^ 10) ^ n * 2 ^ 149) ≤ v * 27182818283 ^ n * 10 ^ 8 := by
    have : (((10 ^ 8 - 6) * ((10 ^ 10) ^ n * 2 ^ 149) : Nat) : ℝ) ≤ ((v * 27182818283 ^ n * 10 ^ 8 : Nat) : ℝ) := by exact_mod_cast t2
    rw [Nat.cast_mul, Nat.cast_mul, Nat.cast_pow, cast_unit] at this
    norm_num at this ⊢
    exact this
  rw [div_le_iff₀ (by positivity)] at lo
  rw [le_div_iff₀ (by positivity)] at hi
  rw [Real.exp_neg]
  have hE := Real.exp_pos n
  have hE' : (Real.exp n)⁻¹ * Real.exp n = 1 := inv_mul_cancel₀ hE.ne'
  have hI : 0 < (Real.exp n)⁻¹ := by positivity
  generalize (Real.exp n)⁻¹ = I at *
  generalize Real.exp n = E at *
  have hp : (0 : ℝ) < (10 ^ 10) ^ n := by positivity
  generalize ((10 : ℝ) ^ 10) ^ n = T at *
  generalize (27182818283 : ℝ) ^ n = L at *
  generalize (27182818286 : ℝ) ^ n = U at *
  have hv : (v : ℝ) = v / 2 ^ 149 * 2 ^ 149 := by field_simp
  have hv0 : (0 : ℝ) ≤ v / 2 ^ 149 := by positivity
  generalize (v : ℝ) / 2 ^ 149 = w at *
  rw [hv] at s1 s2
  have hq : (0 : ℝ) < 2 ^ 149 := by positivity
  generalize (2 : ℝ) ^ 149 = Q at *
  have k1 : (w * E * 10 ^ 8 - (10 ^ 8 + 6)) * (T * Q) ≤ 0 := by
    have : w * Q * (E * T) * 10 ^ 8 ≤ w * Q * U * 10 ^ 8 := by gcongr
    nlinarith
  have k2 : ((10 ^ 8 - 6) - w * E * 10 ^ 8) * (T * Q) ≤ 0 := by
    have : w * Q * L * 10 ^ 8 ≤ w * Q * (E * T) * 10 ^ 8 := by gcongr
    nlinarith
  have k1' := nonpos_of_mul_nonpos_left k1 (by positivity)
  have k2' := nonpos_of_mul_nonpos_left k2 (by positivity)
  have w1 : w = w * E * I := by rw [mul_assoc, mul_comm E I, hE', mul_one]
  rw [abs_le]
  constructor <;> nlinarith

/-- The entry for every integer from -87 to 88. -/
theorem entry_approx {n : Int} (h1 : -87 ≤ n) (h2 : n ≤ 88) :
    Finite (expEntry (n + 88).toNat) ∧ |real (expEntry (n + 88).toNat) - Real.exp n| ≤ 6 / 10 ^ 8 * Real.exp n := by
  refine ⟨(finite_of_nonneg (table_finite _ (by omega))).1, ?_⟩
  rcases Int.le_total 0 n with h | h
  · obtain ⟨k, rfl⟩ := Int.eq_ofNat_of_zero_le h
    have := entry_up (n := k) (by omega)
    rw [show ((k : Int) + 88).toNat = k + 88 by omega]
    exact_mod_cast this
  · obtain ⟨k, hk⟩ := Int.eq_ofNat_of_zero_le (Int.neg_nonneg_of_nonpos h)
    obtain rfl : n = -(k : Int) := by omega
    have := entry_down (n := k) (by omega)
    rw [show (-(k : Int) + 88).toNat = 88 - k by omega]
    push_cast
    exact this

/-! ## The function -/

theorem toInt_int {f : Flt} {n : Int} (hf : Finite f) (h : val f = n * unit) :
    toInt f = if -2147483648 ≤ n ∧ n ≤ 2147483647 then .ok n else .ub := by
  obtain ⟨s, m, q, rfl, -⟩ := hf
  have hu : 0 < unit := by have := H_pos; have := unit_eq; omega
  have h2 : m * 2 ^ q = n.natAbs * unit := by
    rw [← val_natAbs s, h, Int.natAbs_mul, Int.natAbs_natCast]
  have h3 : m * 2 ^ q / 2 ^ 149 = n.natAbs := by rw [h2, ← unit_pow, Nat.mul_div_cancel _ hu]
  have h4 : (if s then -(n.natAbs : Int) else n.natAbs) = n := by
    cases s
    · simp only [Bool.false_eq_true, if_false]
      simp only [val, Bool.false_eq_true, if_false] at h
      have : 0 ≤ n * unit := by rw [← h]; omega
      have := nonneg_of_mul_nonneg_left this (by exact_mod_cast hu)
      omega
    · simp only [if_true]
      simp only [val, if_true] at h
      have : n * unit ≤ 0 := by rw [← h]; omega
      have := nonpos_of_mul_nonpos_left this (by exact_mod_cast hu)
      omega
  rw [toInt]
  simp only [h3, h4]

/-- What `Exp` computes for a finite argument. -/
theorem exp_cases {x : Flt} (hx : Finite x) : ∃ (n : Int) (y : Flt), (n : ℝ) ≤ real x ∧ real x < n + 1 ∧
    Finite y ∧ 0 ≤ real y ∧ real y ≤ 1 ∧ |real y - (real x - n)| ≤ eps ∧
    exp x = if -2147483648 ≤ n ∧ n + 88 ≤ 2147483647 then
      (if 0 < n + 88 then .ok (mul (expPoly y) (expEntry (if n + 88 < 179 then (n + 88).toNat else 179))) else .ok zero)
      else .ub := by
  have hfl := (Props.C91_floor.1 x hx).1
  obtain ⟨y1, y2, y3, -⟩ := frac_rounded hx hfl
  obtain ⟨hf, n, a1, a2, a3⟩ := hfl
  have hu : (0 : ℝ) < 2 ^ 149 := by positivity
  have b1 : real (floor x) = n := by
    unfold real
    rw [a1, unit_pow, Int.cast_mul, Int.cast_natCast, cast_unit]
    field_simp
  have b2 : (n : ℝ) ≤ real x := by
    unfold real
    rw [le_div_iff₀ hu, ← cast_unit, ← unit_pow]
    exact_mod_cast a2
  have b3 : real x < n + 1 := by
    unfold real
    rw [div_lt_iff₀ hu, ← cast_unit, ← unit_pow]
    exact_mod_cast a3
  have d := sub_real hx hf (by
    rw [b1, abs_of_nonneg (by linarith)]
    linarith [show (1 : ℝ) ≤ 2 ^ 127 by norm_num])
  rw [b1] at d
  refine ⟨n, sub x (floor x), b2, b3, y1, ?_, ?_, ?_, ?_⟩
  · unfold real
    have : (0 : ℝ) ≤ (val (sub x (floor x)) : ℝ) := by exact_mod_cast y2
    positivity
  · unfold real
    rw [div_le_one hu, ← cast_unit, ← unit_pow]
    exact_mod_cast y3
  · refine d.2.trans ?_
    have e0 : 0 ≤ eps := by unfold eps; positivity
    rw [abs_of_nonneg (show 0 ≤ real x - n by linarith)]
    have : eps * (real x - n) ≤ eps * 1 := by gcongr; linarith
    linarith
  · rw [exp, toInt_int hf a1]
    by_cases h1 : -2147483648 ≤ n ∧ n ≤ 2147483647
    · rw [if_pos h1, Out.ok_bind]
      by_cases h2 : n + 88 ≤ 2147483647
      · rw [if_neg (Int.not_lt.2 h2), if_pos (show -2147483648 ≤ n ∧ n + 88 ≤ 2147483647 from ⟨h1.1, h2⟩)]
      · rw [if_pos (Int.not_le.1 h2), if_neg (fun h => h2 h.2)]
    · rw [if_neg h1, if_neg (by omega)]
      rfl

theorem exp_shift {a b : ℝ} (h : |a - b| ≤ eps) : |Real.exp a - Real.exp b| ≤ 6 / 10 ^ 8 * Real.exp b := by
  have e1 : eps ≤ 597 / 10 ^ 10 := by unfold eps; norm_num
  have h2 := Real.abs_exp_sub_one_sub_id_le (x := a - b) (by linarith)
  have h3 : |Real.exp (a - b) - 1| ≤ 6 / 10 ^ 8 := by
    have hs : (a - b) ^ 2 ≤ (597 / 10 ^ 10) ^ 2 := by
      rw [← sq_abs]; gcongr; linarith
    calc _ = |(Real.exp (a - b) - 1 - (a - b)) + (a - b)| := by ring_nf
      _ ≤ |Real.exp (a - b) - 1 - (a - b)| + |a - b| := abs_add_le _ _
      _ ≤ (597 / 10 ^ 10) ^ 2 + 597 / 10 ^ 10 := by linarith
      _ ≤ _ := by norm_num
  have h4 : Real.exp a - Real.exp b = (Real.exp (a - b) - 1) * Real.exp b := by
    rw [sub_mul, ← Real.exp_add]; ring_nf
  rw [h4, abs_mul, abs_of_pos (Real.exp_pos b)]
  have := Real.exp_pos b
  gcongr

theorem exp_low : tiny ≤ 5 / 10 ^ 8 * Real.exp (-87) := by
  have e : Real.exp (-87) = (Real.exp 1 ^ 87)⁻¹ := by
    rw [Real.exp_neg, ← Real.exp_nat_mul]; norm_num
  have h : Real.exp 1 ^ 87 ≤ (27182818286 / 10 ^ 10) ^ 87 := by
    have := exp_one_bounds.2
    gcongr
  have hp : 0 < Real.exp 1 ^ 87 := by positivity
  have h2 : ((27182818286 / 10 ^ 10 : ℝ) ^ 87)⁻¹ ≤ Real.exp (-87) := by
    rw [e]; gcongr
  refine le_trans ?_ (mul_le_mul_of_nonneg_left h2 (by norm_num))
  unfold tiny
  norm_num

theorem exp_high : Real.exp 88 * (1 + 1 / 10 ^ 6) ≤ 2 ^ 127 := by
  have e : Real.exp 88 = Real.exp 1 ^ 88 := by
    rw [← Real.exp_nat_mul]; norm_num
  have h : Real.exp 1 ^ 88 ≤ (27182818286 / 10 ^ 10) ^ 88 := by
    have := exp_one_bounds.2
    gcongr
  rw [e]
  refine le_trans (mul_le_mul_of_nonneg_right h (by norm_num)) ?_
  norm_num

/-- From -87 to 88 the relative error of `Exp` is at most one millionth. -/
theorem exp_accurate {x : Flt} (hx : Finite x) (h1 : -87 ≤ real x) (h2 : real x ≤ 88) :
    ∃ y, exp x = .ok y ∧ Finite y ∧ |real y - Real.exp (real x)| ≤ 1 / 10 ^ 6 * Real.exp (real x) := by
  obtain ⟨n, y, n1, n2, y1, y2, y3, y4, he⟩ := exp_cases hx
  have m1 : -87 ≤ n := by
    have : ((-88 : Int) : ℝ) < n := by push_cast; linarith
    have := Int.cast_lt.1 this
    omega
  have m2 : n ≤ 88 := by
    have : (n : ℝ) ≤ ((88 : Int) : ℝ) := by push_cast; linarith
    exact Int.cast_le.1 this
  rw [he, if_pos (by omega), if_pos (by omega), if_pos (by omega)]
  refine ⟨_, rfl, ?_⟩
  obtain ⟨t1, t2⟩ := entry_approx m1 m2
  obtain ⟨p1, p2⟩ := expPoly_exp y1 y2 y3
  have p3 := exp_shift y4
  have hE : Real.exp (real x) = Real.exp (real x - n) * Real.exp n := by rw [← Real.exp_add]; ring_nf
  have hE1 : 1 ≤ Real.exp (real x - n) := Real.one_le_exp (by linarith)
  have hE2 := Real.exp_pos n
  have hlow : tiny ≤ 5 / 10 ^ 8 * Real.exp (real x) := by
    have : Real.exp (-87) ≤ Real.exp (real x) := Real.exp_le_exp.2 h1
    linarith [exp_low]
  have hhigh : Real.exp (real x) * (1 + 1 / 10 ^ 6) ≤ 2 ^ 127 := by
    have : Real.exp (real x) ≤ Real.exp 88 := Real.exp_le_exp.2 h2
    linarith [exp_high]
  have q1 : |real (expPoly y) - Real.exp (real x - n)| ≤ 823 / 10 ^ 9 * Real.exp (real x - n) := by
    have a : |real (expPoly y) - Real.exp (real x - n)| ≤
        |real (expPoly y) - Real.exp (real y)| + |Real.exp (real y) - Real.exp (real x - n)| := by
      calc _ = |(real (expPoly y) - Real.exp (real y)) + (Real.exp (real y) - Real.exp (real x - n))| := by ring_nf
        _ ≤ _ := abs_add_le _ _
    linarith
  rw [hE] at hlow hhigh ⊢
  generalize Real.exp (real x - n) = E1 at *
  generalize Real.exp (n : ℝ) = E2 at *
  have q2 : |real (expPoly y) * real (expEntry (n + 88).toNat) - E1 * E2| ≤ 884 / 10 ^ 9 * (E1 * E2) := by
    generalize real (expPoly y) = P at *
    generalize real (expEntry (n + 88).toNat) = T at *
    calc _ = |(P - E1) * E2 + E1 * (T - E2) + (P - E1) * (T - E2)| := by ring_nf
      _ ≤ |(P - E1) * E2| + |E1 * (T - E2)| + |(P - E1) * (T - E2)| := abs_add_three _ _ _
      _ = |P - E1| * E2 + E1 * |T - E2| + |P - E1| * |T - E2| := by
        rw [abs_mul, abs_mul, abs_mul, abs_of_pos hE2, abs_of_pos (show 0 < E1 by linarith)]
      _ ≤ 823 / 10 ^ 9 * E1 * E2 + E1 * (6 / 10 ^ 8 * E2) + 823 / 10 ^ 9 * E1 * (6 / 10 ^ 8 * E2) := by gcongr
      _ = (823 / 10 ^ 9 + 6 / 10 ^ 8 + 823 / 10 ^ 9 * (6 / 10 ^ 8)) * (E1 * E2) := by ring
      _ ≤ _ := by gcongr; norm_num
  have hEE : 0 < E1 * E2 := by positivity
  have q3 : |real (expPoly y) * real (expEntry (n + 88).toNat)| ≤ (1 + 884 / 10 ^ 9) * (E1 * E2) := by
    calc _ = |(real (expPoly y) * real (expEntry (n + 88).toNat) - E1 * E2) + E1 * E2| := by ring_nf
      _ ≤ |real (expPoly y) * real (expEntry (n + 88).toNat) - E1 * E2| + |E1 * E2| := abs_add_le _ _
      _ ≤ _ := by rw [abs_of_pos hEE]; linarith
  obtain ⟨r1, r2⟩ := mul_real p1 t1 (by
    refine q3.trans (le_trans ?_ hhigh)
    rw [mul_comm (E1 * E2)]
    exact mul_le_mul_of_nonneg_right (by norm_num) hEE.le)
  refine ⟨r1, ?_⟩
  have e0 : 0 ≤ eps := by unfold eps; positivity
  have e1 : eps ≤ 597 / 10 ^ 10 := by unfold eps; norm_num
  generalize real (expPoly y) * real (expEntry (n + 88).toNat) = PT at *
  calc _ = |(real (mul (expPoly y) (expEntry (n + 88).toNat)) - PT) + (PT - E1 * E2)| := by ring_nf
    _ ≤ |real (mul (expPoly y) (expEntry (n + 88).toNat)) - PT| + |PT - E1 * E2| := abs_add_le _ _
    _ ≤ (eps * |PT| + tiny) + 884 / 10 ^ 9 * (E1 * E2) := add_le_add r2 q2
    _ ≤ (597 / 10 ^ 10 * ((1 + 884 / 10 ^ 9) * (E1 * E2)) + 5 / 10 ^ 8 * (E1 * E2)) + 884 / 10 ^ 9 * (E1 * E2) := by gcongr
    _ = (597 / 10 ^ 10 * (1 + 884 / 10 ^ 9) + 5 / 10 ^ 8 + 884 / 10 ^ 9) * (E1 * E2) := by ring
    _ ≤ _ := by gcongr; norm_num

end Verif.MathFns
