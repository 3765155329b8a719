import Mathlib.Analysis.SpecialFunctions.Log.Deriv
import Verif.Lemmas.ExpReal

/-!
# Accuracy of `Log`
-/

namespace Verif.MathFns

open Verif Verif.B32 Verif.Spec.F32
open Finset (range)

/-- One step of Horner's scheme with an argument that is an enclosure itself. -/
theorem Enc.maddEnc {r x c : Flt} {a C A d t X dx : ℝ} (e A' f : ℝ) (hr : Enc r a A d) (hx : Enc x t X dx)
    (hc : Approx c C e) (hC : 0 ≤ C) (hA : A * X + C ≤ A') (hs : A' ≤ 100) (hs1 : A ≤ 100) (hs2 : X ≤ 100) (hs3 : d ≤ 1) (hs4 : dx ≤ 1)
    (hs5 : e ≤ 1)
    (hf : A * dx + X * d + d * dx + eps * ((A + d) * (X + dx)) + tiny + e +
      eps * (A' + (A * dx + X * d + d * dx + eps * ((A + d) * (X + dx)) + tiny + e)) ≤ f) :
    Enc (MathFns.madd r x c) (a * t + C) A' f := by
  have ha := hr.nonneg
  have hle := hr.le
  have ht := hx.nonneg
  have htle := hx.le
  have hA0 : 0 ≤ A := ha.trans hle
  have hX0 : 0 ≤ X := ht.trans htle
  have hd : 0 ≤ d := (abs_nonneg _).trans hr.approx.2
  have hdx : 0 ≤ dx := (abs_nonneg _).trans hx.approx.2
  have he : 0 ≤ e := (abs_nonneg _).trans hc.2
  have hax : 0 ≤ a * t := mul_nonneg ha ht
  have hax' : a * t ≤ A * X := by gcongr
  have s1 : eps ≤ 1 / 8 := by unfold eps; norm_num
  have s2 : tiny ≤ 1 / 8 := by unfold tiny; norm_num
  have s3 : 0 ≤ eps := by unfold eps; positivity
  have s4 : 0 ≤ tiny := by unfold tiny; positivity
  have big : (20000 : ℝ) ≤ 2 ^ 127 := by norm_num
  have p : (A + d) * (X + dx) ≤ 101 * 101 := by gcongr <;> linarith
  have p0 : 0 ≤ (A + d) * (X + dx) := by positivity
  have q : A * dx + X * d + d * dx ≤ 100 * 1 + 100 * 1 + 1 * 1 := by gcongr
  have m1 : Approx (mul r x) (a * t) (A * dx + X * d + d * dx + eps * ((A + d) * (X + dx)) + tiny) := by
    refine Approx.mul A X _ hr.approx hx.approx (by rw [abs_of_nonneg ha]; exact hle) (by rw [abs_of_nonneg ht]; exact htle) ?_ le_rfl
    linarith
  refine ⟨?_, by linarith, by linarith⟩
  unfold MathFns.madd
  refine Approx.add A' f m1 hc (by rw [abs_of_nonneg (by linarith)]; linarith) ?_ hf
  have : eps * ((A + d) * (X + dx)) ≤ 1 / 8 * (101 * 101) := by gcongr
  linarith

/-! ## The significand -/

/-- The fraction of a float, as a float from 1 to 2. -/
theorem signif {m : Nat} (h : m < 2 ^ 23) : ofBits (m + 0x3F800000) = .fin false (2 ^ 23 + m) 126 := by
  have h1 : ¬ 2 ^ 31 ≤ (m + 0x3F800000) % 2 ^ 32 := by omega
  have h2 : (m + 0x3F800000) / 2 ^ 23 % 256 = 127 := by omega
  have h3 : (m + 0x3F800000) % 2 ^ 23 = m := by omega
  unfold ofBits
  simp only [h2, h3, decide_eq_false h1]
  rfl

theorem signif_finite {m : Nat} (h : m < 2 ^ 23) : Finite (ofBits (m + 0x3F800000)) := by
  rw [signif h]
  exact ⟨false, _, _, rfl, by omega, by omega, .inr (by omega)⟩

theorem signif_real {m : Nat} (h : m < 2 ^ 23) : real (ofBits (m + 0x3F800000)) = 1 + m / 2 ^ 23 := by
  rw [signif h, real_fin]
  have : (((2 ^ 23 + m) * 2 ^ 126 : Nat) : ℝ) = (2 ^ 23 + m) * 2 ^ 126 := by rw [Nat.cast_mul, Nat.cast_add, Nat.cast_pow, Nat.cast_pow]; rfl
  rw [this, show (2 : ℝ) ^ 149 = 2 ^ 23 * 2 ^ 126 by rw [← pow_add]]
  simp only [Bool.false_eq_true, if_false, one_mul]
  field_simp

/-- The sum computed by `logPoly`. -/
noncomputable def logSum (y : ℝ) : ℝ := ∑ i ∈ range 7, y ^ (2 * i + 1) / (2 * (i : ℝ) + 1)

theorem real_two : real (const 0x40000000) = 2 ∧ Finite (const 0x40000000) := by
  have e : const 0x40000000 = ofInt 2 := by decide +kernel
  rw [e]
  exact ⟨by rw [real_ofInt (by decide)]; rfl, (ofInt_spec (by decide)).1⟩

/-- The logarithm of the significand as computed. -/
theorem log_signif {f : Flt} (hf : Finite f) (h1 : 1 ≤ real f) (h2 : real f ≤ 2) :
    Approx (mul (logPoly (mul (div (sub f one) (add f one)) (div (sub f one) (add f one))))
      (mul (div (sub f one) (add f one)) (const 0x40000000))) (2 * logSum ((real f - 1) / (real f + 1))) (310 / 10 ^ 9) := by
  have one1 : Approx one 1 0 := by have := Approx.exact finite_one; rwa [real_one] at this
  have two2 : Approx (const 0x40000000) 2 0 := by have := Approx.exact real_two.2; rwa [real_two.1] at this
  have a1 : Approx (sub f one) (real f - 1) eps :=
    Approx.sub 1 _ (.exact hf) one1 (by rw [abs_of_nonneg (by linarith)]; linarith) (by norm_num) (by norm_num)
  have a2 : Approx (add f one) (real f + 1) (3 * eps) :=
    Approx.add 3 _ (.exact hf) one1 (by rw [abs_of_nonneg (by linarith)]; linarith) (by norm_num) (by norm_num; linarith)
  have y0 : 0 ≤ (real f - 1) / (real f + 1) := div_nonneg (by linarith) (by linarith)
  have y1 : (real f - 1) / (real f + 1) ≤ 1 / 3 := by
    rw [div_le_div_iff₀ (by linarith) (by norm_num)]; linarith
  have ye := Approx.div (1 / 3) 2 (795 / 10 ^ 10) a1 a2 (by rw [abs_of_nonneg y0]; exact y1)
    (by rw [abs_of_pos (by linarith)]; linarith) (by unfold eps; norm_num) (by unfold eps; norm_num) (by unfold eps tiny; norm_num)
  generalize div (sub f one) (add f one) = yf at *
  generalize (real f - 1) / (real f + 1) = y at *
  have ze : Enc (mul yf yf) (y * y) (1 / 9) (597 / 10 ^ 10) :=
    ⟨Approx.mul (1 / 3) (1 / 3) _ ye ye (by rw [abs_of_nonneg y0]; exact y1) (by rw [abs_of_nonneg y0]; exact y1)
      (by norm_num) (by unfold eps tiny; norm_num), mul_nonneg y0 y0, by nlinarith⟩
  have r13 : Enc (recip 13) (1 / 13) (1 / 13) (459 / 10 ^ 11) := by
    refine ⟨(recip_approx (n := 13) (by decide) (by decide)).mono ?_, by norm_num, le_refl _⟩
    unfold eps tiny; norm_num
  have c11 := recip_approx (n := 11) (by decide) (by decide)
  have c9 := recip_approx (n := 9) (by decide) (by decide)
  have c7 := recip_approx (n := 7) (by decide) (by decide)
  have c5 := recip_approx (n := 5) (by decide) (by decide)
  have c3 := recip_approx (n := 3) (by decide) (by decide)
  have r11 := Enc.maddEnc _ (199 / 2000) (170 / 10 ^ 10) r13 ze c11 (by norm_num) (by norm_num) (by norm_num) (by norm_num)
    (by norm_num) (by norm_num) (by norm_num) (by unfold eps tiny; norm_num) (by unfold eps tiny; norm_num)
  have r9 := Enc.maddEnc _ (611 / 5000) (224 / 10 ^ 10) r11 ze c9 (by norm_num) (by norm_num) (by norm_num) (by norm_num)
    (by norm_num) (by norm_num) (by norm_num) (by unfold eps tiny; norm_num) (by unfold eps tiny; norm_num)
  have r7 := Enc.maddEnc _ (313 / 2000) (285 / 10 ^ 10) r9 ze c7 (by norm_num) (by norm_num) (by norm_num) (by norm_num)
    (by norm_num) (by norm_num) (by norm_num) (by unfold eps tiny; norm_num) (by unfold eps tiny; norm_num)
  have r5 := Enc.maddEnc _ (1087 / 5000) (385 / 10 ^ 10) r7 ze c5 (by norm_num) (by norm_num) (by norm_num) (by norm_num)
    (by norm_num) (by norm_num) (by norm_num) (by unfold eps tiny; norm_num) (by unfold eps tiny; norm_num)
  have r3 := Enc.maddEnc _ (143 / 400) (599 / 10 ^ 10) r5 ze c3 (by norm_num) (by norm_num) (by norm_num) (by norm_num)
    (by norm_num) (by norm_num) (by norm_num) (by unfold eps tiny; norm_num) (by unfold eps tiny; norm_num)
  have r1 := Enc.maddEnc _ (5199 / 5000) (924 / 10 ^ 10) r3 ze one1 (by norm_num) (by norm_num) (by norm_num) (by norm_num)
    (by norm_num) (by norm_num) (by norm_num) (by norm_num) (by unfold eps tiny; norm_num)
  have ty := Approx.mul (1 / 3) 2 (199 / 10 ^ 9) ye two2 (by rw [abs_of_nonneg y0]; exact y1) (by norm_num)
    (by norm_num) (by unfold eps tiny; norm_num)
  have l := Approx.mul (5199 / 5000) (2 / 3) (310 / 10 ^ 9) r1.approx ty (by rw [abs_of_nonneg r1.nonneg]; exact r1.le)
    (by rw [abs_of_nonneg (by linarith)]; linarith) (by norm_num) (by unfold eps tiny; norm_num)
  unfold logPoly
  refine ⟨l.1, le_trans (le_of_eq ?_) l.2⟩
  congr 2
  unfold logSum
  simp only [Finset.sum_range_succ, Finset.sum_range_zero]
  push_cast
  ring

/-- The sum is near the logarithm. -/
theorem logSum_log {t : ℝ} (h1 : 1 ≤ t) (h2 : t ≤ 2) : |2 * logSum ((t - 1) / (t + 1)) - Real.log t| ≤ 13 / 10 ^ 9 := by
  have y0 : 0 ≤ (t - 1) / (t + 1) := div_nonneg (by linarith) (by linarith)
  have y1 : (t - 1) / (t + 1) ≤ 1 / 3 := by
    rw [div_le_div_iff₀ (by linarith) (by norm_num)]; linarith
  have e : (1 + (t - 1) / (t + 1)) / (1 - (t - 1) / (t + 1)) = t := by
    have : t + 1 ≠ 0 := by linarith
    field_simp
    ring
  have u := Real.log_div_le_sum_range_add y0 (by linarith) 9
  have l := Real.sum_range_le_log_div y0 (by linarith) 7
  rw [e] at u l
  unfold logSum
  generalize (t - 1) / (t + 1) = y at *
  rw [Finset.sum_range_succ, Finset.sum_range_succ _ 7] at u
  generalize (∑ i ∈ range 7, y ^ (2 * i + 1) / (2 * (i : ℝ) + 1)) = S at *
  have p : ∀ k, y ^ k ≤ (1 / 3) ^ k := fun k => pow_le_pow_left₀ y0 y1 k
  have y2 : y ^ 2 ≤ 1 / 9 := by have := p 2; norm_num at this ⊢; linarith
  have d : y ^ 19 / (1 - y ^ 2) ≤ (1 / 3) ^ 19 * (9 / 8) := by
    rw [div_le_iff₀ (by linarith)]
    have := p 19
    have q : (0 : ℝ) ≤ (1 / 3) ^ 19 := by positivity
    nlinarith
  have p15 := p 15
  have p17 := p 17
  norm_num at u d p15 p17 l ⊢
  rw [abs_le]
  constructor <;> linarith

/-! ## The constants -/

theorem const_approx {x : Flt} {m q : Nat} (hx : x = .fin false m q) (hc : Canonical m q) (hq : q ≤ 149) :
    Finite x ∧ real x = m / 2 ^ (149 - q) := by
  subst hx
  refine ⟨⟨_, _, _, rfl, hc⟩, ?_⟩
  rw [real_fin]
  have : (2 : ℝ) ^ 149 = 2 ^ (149 - q) * 2 ^ q := by rw [← pow_add]; congr 1; omega
  rw [this, Nat.cast_mul, Nat.cast_pow, Nat.cast_ofNat]
  simp only [Bool.false_eq_true, if_false, one_mul]
  field_simp

theorem ln2_approx : Approx ln2 (Real.log 2) (22 / 10 ^ 10) := by
  obtain ⟨h1, h2⟩ := const_approx (x := ln2) (m := 11629080) (q := 125) (by decide +kernel) ⟨by decide, by decide, .inr (by decide)⟩ (by decide)
  refine ⟨h1, ?_⟩
  rw [h2, abs_le]
  have a := Real.log_two_gt_d9
  have b := Real.log_two_lt_d9
  norm_num at a b ⊢
  constructor <;> linarith

theorem log_ten_bounds : 23025850926 / 10 ^ 10 ≤ Real.log 10 ∧ Real.log 10 ≤ 23025850934 / 10 ^ 10 := by
  have a := Real.log_two_gt_d9
  have b := Real.log_two_lt_d9
  have c := Real.log_five_gt_d9
  have d := Real.log_five_lt_d9
  rw [Real.log_ten_eq]
  norm_num at a b c d ⊢
  constructor <;> linarith

theorem ln10_approx : Approx ln10 (Real.log 10) (33 / 10 ^ 9) := by
  obtain ⟨h1, h2⟩ := const_approx (x := ln10) (m := 9657742) (q := 127) (by decide +kernel) ⟨by decide, by decide, .inr (by decide)⟩ (by decide)
  refine ⟨h1, ?_⟩
  obtain ⟨a, b⟩ := log_ten_bounds
  rw [h2, abs_le]
  norm_num at a b ⊢
  constructor <;> linarith

theorem oneOverLn10_approx : Approx oneOverLn10 (1 / Real.log 10) (11 / 10 ^ 9) := by
  obtain ⟨h1, h2⟩ := const_approx (x := oneOverLn10) (m := 14572505) (q := 124) (by decide +kernel)
    ⟨by decide, by decide, .inr (by decide)⟩ (by decide)
  refine ⟨h1, ?_⟩
  obtain ⟨a, b⟩ := log_ten_bounds
  have hp : 0 < Real.log 10 := by norm_num at a; linarith
  rw [h2, abs_le]
  have u : 1 / Real.log 10 ≤ 1 / (23025850926 / 10 ^ 10) := by gcongr
  have l : 1 / (23025850934 / 10 ^ 10) ≤ 1 / Real.log 10 := by gcongr
  norm_num at u l ⊢
  constructor <;> linarith

/-! ## The function -/

/-- A normal float. -/
theorem ofBits_normal {b : Nat} (h1 : 2 ^ 23 ≤ b) (h2 : b < 255 * 2 ^ 23) :
    ofBits b = .fin false (2 ^ 23 + b % 2 ^ 23) (b / 2 ^ 23 - 1) := by
  have h3 : ¬ 2 ^ 31 ≤ b % 2 ^ 32 := by omega
  have h4 : b / 2 ^ 23 % 256 = b / 2 ^ 23 := by omega
  unfold ofBits
  simp only [h4, decide_eq_false h3]
  rw [if_neg (by omega), if_neg (by omega)]

theorem normal_finite {b : Nat} (h1 : 2 ^ 23 ≤ b) (h2 : b < 255 * 2 ^ 23) : Finite (ofBits b) := by
  rw [ofBits_normal h1 h2]
  exact ⟨_, _, _, rfl, by omega, by omega, .inr (by omega)⟩

theorem normal_real {b : Nat} (h1 : 2 ^ 23 ≤ b) (h2 : b < 255 * 2 ^ 23) :
    real (ofBits b) = (1 + (b % 2 ^ 23 : Nat) / 2 ^ 23) * (2 : ℝ) ^ (((b / 2 ^ 23 : Nat) : Int) - 127) := by
  rw [ofBits_normal h1 h2, real_fin]
  have hE : 1 ≤ b / 2 ^ 23 := by omega
  obtain ⟨k, hk⟩ : ∃ k, b / 2 ^ 23 = k + 1 := ⟨b / 2 ^ 23 - 1, by omega⟩
  rw [hk]
  generalize b % 2 ^ 23 = m
  simp only [Bool.false_eq_true, if_false, one_mul, Nat.add_sub_cancel]
  have e1 : (2 : ℝ) ^ (((k + 1 : Nat) : Int) - 127) = 2 ^ k / 2 ^ 126 := by
    rw [show ((k + 1 : Nat) : Int) - 127 = (k : Int) - (126 : Nat) by push_cast; ring, zpow_sub₀ (by norm_num), zpow_natCast, zpow_natCast]
  have e2 : (((2 ^ 23 + m) * 2 ^ k : Nat) : ℝ) = (2 ^ 23 + m) * 2 ^ k := by
    rw [Nat.cast_mul, Nat.cast_add, Nat.cast_pow, Nat.cast_pow]; rfl
  rw [e1, e2, show (2 : ℝ) ^ 149 = 2 ^ 23 * 2 ^ 126 by rw [← pow_add]]
  field_simp

/-- The error of `Log` for normal floats. -/
theorem log_accurate {b : Nat} (h1 : 2 ^ 23 ≤ b) (h2 : b < 255 * 2 ^ 23) :
    Approx (logBits b) (Real.log (real (ofBits b))) (4 / 10 ^ 7 + 13 / 10 ^ 8 * |Real.log (real (ofBits b))|) := by
  have hm : b % 2 ^ 23 < 2 ^ 23 := Nat.mod_lt _ (by decide)
  have f1 := signif_finite hm
  have f2 := signif_real hm
  have hx := normal_real h1 h2
  have m0 : (0 : ℝ) ≤ ((b % 2 ^ 23 : Nat) : ℝ) / 2 ^ 23 := by positivity
  have m1 : ((b % 2 ^ 23 : Nat) : ℝ) / 2 ^ 23 ≤ 1 := by
    rw [div_le_one (by positivity)]; exact_mod_cast hm.le
  have g1 : 1 ≤ real (ofBits (b % 2 ^ 23 + 0x3F800000)) := by rw [f2]; linarith
  have g2 : real (ofBits (b % 2 ^ 23 + 0x3F800000)) ≤ 2 := by rw [f2]; linarith
  have l1 := log_signif f1 g1 g2
  have l2 := logSum_log g1 g2
  have hlog : Real.log (real (ofBits b)) = Real.log (real (ofBits (b % 2 ^ 23 + 0x3F800000))) +
      (((b / 2 ^ 23 : Nat) : Int) - 127 : Int) * Real.log 2 := by
    rw [hx, ← f2, Real.log_mul (by linarith) (by positivity), Real.log_zpow]
  have eb : (((b / 2 ^ 23 : Nat) : Int) - 127).natAbs ≤ 127 := by omega
  rw [logBits, if_pos (by omega)]
  simp only
  generalize ofBits (b % 2 ^ 23 + 0x3F800000) = f at *
  generalize ((b / 2 ^ 23 : Nat) : Int) - 127 = e at *
  generalize real (ofBits b) = x at *
  generalize (mul (logPoly (mul (div (sub f one) (add f one)) (div (sub f one) (add f one))))
        (mul (div (sub f one) (add f one)) (const 1073741824))) = r at *
  have l3 : Approx r (Real.log (real f)) (323 / 10 ^ 9) := by
    refine ⟨l1.1, ?_⟩
    have := l1.2
    calc _ = |(real r - 2 * logSum ((real f - 1) / (real f + 1))) + (2 * logSum ((real f - 1) / (real f + 1)) - Real.log (real f))| := by
          ring_nf
      _ ≤ _ := abs_add_le _ _
      _ ≤ 310 / 10 ^ 9 + 13 / 10 ^ 9 := add_le_add this l2
      _ = _ := by norm_num
  have ee : Approx (ofInt e) e 0 := by
    have := Approx.exact (ofInt_spec (n := e) (by omega)).1
    rwa [real_ofInt (by omega)] at this
  have eA : |(e : ℝ)| ≤ 127 := by
    have : ((e.natAbs : Nat) : ℝ) ≤ 127 := by exact_mod_cast eb
    rwa [Nat.cast_natAbs, Int.cast_abs] at this
  have t1 := Real.log_two_gt_d9
  have t2 := Real.log_two_lt_d9
  norm_num at t1 t2
  have e0 : 0 ≤ |(e : ℝ)| := abs_nonneg _
  have k : Approx (mul (ofInt e) ln2) (e * Real.log 2) (436 / 10 ^ 10 * |(e : ℝ)| + tiny) :=
    Approx.mul |(e : ℝ)| (6932 / 10000) _ ee ln2_approx le_rfl (by rw [abs_of_pos (by linarith)]; linarith)
      (by nlinarith [show (100 : ℝ) ≤ 2 ^ 127 by norm_num]) (by unfold eps; nlinarith)
  have x0 : 0 ≤ Real.log (real f) := Real.log_nonneg g1
  have x1 : Real.log (real f) ≤ 6932 / 10000 := by
    have : Real.log (real f) ≤ Real.log 2 := Real.log_le_log (by linarith) g2
    linarith
  have hL : |Real.log x| ≤ 100 := by
    rw [hlog]
    calc _ ≤ |Real.log (real f)| + |e * Real.log 2| := abs_add_le _ _
      _ = Real.log (real f) + |(e : ℝ)| * Real.log 2 := by rw [abs_of_nonneg x0, abs_mul, abs_of_pos (show 0 < Real.log 2 by linarith)]
      _ ≤ 6932 / 10000 + 127 * (6932 / 10000) := by
        gcongr
        linarith
      _ ≤ 100 := by norm_num
  have eL : |(e : ℝ)| ≤ 1443 / 1000 * (|Real.log x| + 6932 / 10000) := by
    have : |e * Real.log 2| ≤ |Real.log x| + |Real.log (real f)| := by
      calc _ = |Real.log x - Real.log (real f)| := by rw [hlog]; ring_nf
        _ ≤ _ := abs_sub _ _
    rw [abs_mul, abs_of_pos (show 0 < Real.log 2 by linarith), abs_of_nonneg x0] at this
    nlinarith
  have hy : tiny ≤ 1 / 10 ^ 15 := by unfold tiny; norm_num
  have hp : eps ≤ 597 / 10 ^ 10 := by unfold eps; norm_num
  have hp0 : 0 ≤ eps := by unfold eps; positivity
  have L0 : 0 ≤ |Real.log x| := abs_nonneg _
  rw [hlog]
  refine Approx.add |Real.log x| _ l3 k (by rw [hlog]) (by nlinarith [show (200 : ℝ) ≤ 2 ^ 127 by norm_num]) ?_
  rw [← hlog]
  generalize |Real.log x| = L at *
  have : eps * (L + (323 / 10 ^ 9 + (436 / 10 ^ 10 * |(e : ℝ)| + tiny))) ≤ 597 / 10 ^ 10 * (L + (323 / 10 ^ 9 + (436 / 10 ^ 10 * 127 + 1 / 10 ^ 15))) := by
    have : 0 ≤ tiny := by unfold tiny; positivity
    gcongr
  linarith

end Verif.MathFns
