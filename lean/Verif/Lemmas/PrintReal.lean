import Verif.Lemmas.LogReal
import Verif.Spec.FloatText
import Verif.Spec.Binary32

/-!
# The decimal exponent and the quotient in `FloatToString`
-/

namespace Verif.MathFns

open Verif Verif.B32 Verif.Spec.F32
open Verif.Spec (units FiniteFloat)

/-! ## Bits -/

theorem ofBits_val {b : Nat} (h : FiniteFloat b) : Spec.F32.Finite (ofBits b) ∧
    ofBits b = .fin (decide (2 ^ 31 ≤ b)) (if b / 2 ^ 23 % 256 = 0 then b % 2 ^ 23 else 2 ^ 23 + b % 2 ^ 23) (b / 2 ^ 23 % 256 - 1) := by
  obtain ⟨h1, h2⟩ := h
  have e : ofBits b = .fin (decide (2 ^ 31 ≤ b)) (if b / 2 ^ 23 % 256 = 0 then b % 2 ^ 23 else 2 ^ 23 + b % 2 ^ 23) (b / 2 ^ 23 % 256 - 1) := by
    unfold ofBits
    have : b % 2 ^ 32 = b := by omega
    rw [this]
    simp only [if_neg h2]
    split
    · next h => rw [h]
    · rfl
  refine ⟨?_, e⟩
  rw [e]
  refine ⟨_, _, _, rfl, ?_, by omega, ?_⟩
  · split <;> omega
  · split
    · next h => left; omega
    · right; omega

theorem real_ofBits {b : Nat} (h : FiniteFloat b) :
    real (ofBits b) = (if decide (2 ^ 31 ≤ b) then -1 else 1) * ((units b : ℝ) / 2 ^ 149) := by
  have e : (if b / 2 ^ 23 % 256 = 0 then b % 2 ^ 23 else 2 ^ 23 + b % 2 ^ 23) * 2 ^ (b / 2 ^ 23 % 256 - 1) = units b := by
    unfold units
    by_cases h0 : b / 2 ^ 23 % 256 = 0
    · rw [if_pos h0, if_pos h0, h0]
      exact Nat.mul_one _
    · rw [if_neg h0, if_neg h0]
  rw [(ofBits_val h).2, real_fin, e]

theorem real_abs_bits {b : Nat} (h : FiniteFloat b) :
    real (ofBits b) = (if decide (2 ^ 31 ≤ b) then -1 else 1) * real (ofBits (b % 2 ^ 31)) := by
  have hE : b % 2 ^ 31 / 2 ^ 23 % 256 = b / 2 ^ 23 % 256 := by omega
  have hm : b % 2 ^ 31 % 2 ^ 23 = b % 2 ^ 23 := by omega
  have h' : FiniteFloat (b % 2 ^ 31) := ⟨by omega, by rw [hE]; exact h.2⟩
  have hn : decide (2 ^ 31 ≤ b % 2 ^ 31) = false := by rw [decide_eq_false_iff_not]; omega
  rw [real_ofBits h, real_ofBits h', hn]
  simp only [units, hE, hm, Bool.false_eq_true, if_false, one_mul]

theorem toBits_units {x : Flt} (hx : Spec.F32.Finite x) (h0 : 0 < real x) :
    (units (toBits x) : ℝ) / 2 ^ 149 = real x := by
  obtain ⟨s, m, q, rfl, h1, h2, h3⟩ := hx
  have hs : s = false := by
    cases s
    · rfl
    · rw [real_fin] at h0
      have : (0 : ℝ) ≤ ((m * 2 ^ q : Nat) : ℝ) / 2 ^ 149 := by positivity
      simp only [if_true] at h0
      linarith
  subst hs
  rw [real_fin]
  simp only [Bool.false_eq_true, if_false, one_mul]
  congr 2
  unfold toBits units
  simp only [Bool.false_eq_true, if_false, Nat.zero_add]
  by_cases hm : m < 2 ^ 23
  · rw [if_pos hm]
    have hq : q = 0 := by omega
    subst hq
    rw [if_pos (by omega)]
    omega
  · rw [if_neg hm]
    have e1 : (m - 2 ^ 23 + (q + 1) * 2 ^ 23) / 2 ^ 23 = q + 1 := by omega
    have e2 : (m - 2 ^ 23 + (q + 1) * 2 ^ 23) % 2 ^ 23 = m - 2 ^ 23 := by omega
    rw [e1, e2, if_neg (by omega), show (q + 1) % 256 - 1 = q by omega, show 2 ^ 23 + (m - 2 ^ 23) = m by omega]

/-- The exponent of a float that is not too small. -/
theorem units_exponent {b : Nat} (h : 2 ^ 118 ≤ units b) : 96 ≤ b / 2 ^ 23 % 256 := by
  unfold units at h
  split at h
  · have : b % 2 ^ 23 < 2 ^ 23 := Nat.mod_lt _ (by decide)
    exact absurd (Nat.lt_of_le_of_lt h this) (by decide)
  · have h1 : 2 ^ 23 + b % 2 ^ 23 < 2 ^ 24 := by omega
    have h2 : (2 ^ 23 + b % 2 ^ 23) * 2 ^ (b / 2 ^ 23 % 256 - 1) < 2 ^ (24 + (b / 2 ^ 23 % 256 - 1)) := by
      rw [Nat.pow_add]; exact Nat.mul_lt_mul_of_pos_right h1 (Nat.two_pow_pos _)
    have := (Nat.pow_lt_pow_iff_right (by decide)).1 (Nat.lt_of_le_of_lt h h2)
    omega

/-! ## The exponent -/

theorem normal_pos {b : Nat} (h1 : 2 ^ 23 ≤ b) (h2 : b < 255 * 2 ^ 23) : 0 < real (ofBits b) := by
  rw [normal_real h1 h2]; positivity

theorem normal_log {b : Nat} (h1 : 2 ^ 23 ≤ b) (h2 : b < 255 * 2 ^ 23) :
    -(126 * Real.log 2) ≤ Real.log (real (ofBits b)) ∧ Real.log (real (ofBits b)) ≤ 128 * Real.log 2 := by
  have hx := normal_real h1 h2
  have hp := normal_pos h1 h2
  have m1 : ((b % 2 ^ 23 : Nat) : ℝ) / 2 ^ 23 ≤ 1 := by
    rw [div_le_one (by positivity)]
    exact_mod_cast (Nat.mod_lt b (show 0 < 2 ^ 23 by decide)).le
  have m0 : (0 : ℝ) ≤ ((b % 2 ^ 23 : Nat) : ℝ) / 2 ^ 23 := by positivity
  have hl2 : 0 < Real.log 2 := Real.log_pos (by norm_num)
  have e : Real.log (real (ofBits b)) = Real.log (1 + ((b % 2 ^ 23 : Nat) : ℝ) / 2 ^ 23) +
      (((b / 2 ^ 23 : Nat) : Int) - 127 : Int) * Real.log 2 := by
    rw [hx, Real.log_mul (by linarith) (by positivity), Real.log_zpow]
  have l0 : 0 ≤ Real.log (1 + ((b % 2 ^ 23 : Nat) : ℝ) / 2 ^ 23) := Real.log_nonneg (by linarith)
  have l1 : Real.log (1 + ((b % 2 ^ 23 : Nat) : ℝ) / 2 ^ 23) ≤ Real.log 2 := Real.log_le_log (by linarith) (by linarith)
  have E1 : (-126 : ℝ) ≤ ((((b / 2 ^ 23 : Nat) : Int) - 127 : Int) : ℝ) := by
    have : (-126 : Int) ≤ ((b / 2 ^ 23 : Nat) : Int) - 127 := by omega
    exact_mod_cast this
  have E2 : ((((b / 2 ^ 23 : Nat) : Int) - 127 : Int) : ℝ) ≤ 127 := by
    have : ((b / 2 ^ 23 : Nat) : Int) - 127 ≤ (127 : Int) := by omega
    exact_mod_cast this
  rw [e]
  constructor <;> nlinarith

/-- The exponent found by `Log` is the decimal exponent, up to an error of `1e-5` of the logarithm. -/
theorem decade_spec {b : Nat} (h1 : 2 ^ 23 ≤ b) (h2 : b < 255 * 2 ^ 23) :
    ∃ n : Int, elem.lg b = n ∧ (n : ℝ) * Real.log 10 ≤ Real.log (real (ofBits b)) + 24 / 10 ^ 6 ∧
      Real.log (real (ofBits b)) ≤ (n + 1) * Real.log 10 + 24 / 10 ^ 6 := by
  have l := log_accurate h1 h2
  obtain ⟨l1, l2⟩ := normal_log h1 h2
  generalize Real.log (real (ofBits b)) = L at *
  have t1 := Real.log_two_gt_d9
  have t2 := Real.log_two_lt_d9
  norm_num at t1 t2
  have hL : |L| ≤ 89 := by rw [abs_le]; constructor <;> linarith
  obtain ⟨a, b'⟩ := log_ten_bounds
  norm_num at a b'
  have hp : 0 < Real.log 10 := by linarith
  have c0 : 1 / Real.log 10 ≤ 4343 / 10000 := by
    rw [div_le_div_iff₀ hp (by norm_num)]; linarith
  have c1 : 0 < 1 / Real.log 10 := by positivity
  have m := Approx.mul 89 (4343 / 10000) (1 / 10 ^ 5) (l.mono (show _ ≤ 1198 / 10 ^ 8 by linarith)) oneOverLn10_approx hL
    (by rw [abs_of_pos c1]; exact c0) (by norm_num) (by unfold eps tiny; norm_num)
  have hfl := (Props.C91_floor.1 _ m.1).1
  obtain ⟨hf, n, a1, a2, a3⟩ := hfl
  have hu : (0 : ℝ) < 2 ^ 149 := by positivity
  have b2 : (n : ℝ) ≤ real (mul (logBits b) oneOverLn10) := by
    unfold real
    rw [le_div_iff₀ hu, ← cast_unit, ← unit_pow]
    exact_mod_cast a2
  have b3 : real (mul (logBits b) oneOverLn10) < n + 1 := by
    unfold real
    rw [div_lt_iff₀ hu, ← cast_unit, ← unit_pow]
    exact_mod_cast a3
  have hm := m.2
  rw [abs_le] at hm
  have hd : L * (1 / Real.log 10) * Real.log 10 = L := by field_simp
  have hdl : |L * (1 / Real.log 10)| ≤ 89 * (4343 / 10000) := by
    rw [abs_mul, abs_of_pos c1]; gcongr
  rw [abs_le] at hdl
  have r1 : -2147483648 ≤ n := by
    have : ((-2147483649 : Int) : ℝ) < n := by push_cast; linarith
    have := Int.cast_lt.1 this
    omega
  have r2 : n ≤ 2147483647 := by
    have : (n : ℝ) ≤ ((2147483647 : Int) : ℝ) := by push_cast; linarith
    exact Int.cast_le.1 this
  refine ⟨n, ?_, ?_, ?_⟩
  · show intOr0 (toInt (decade b)) = n
    unfold decade
    rw [toInt_int hf a1, if_pos ⟨r1, r2⟩, intOr0]
  · nlinarith
  · nlinarith

/-- For normal floats the exponent is from -38 to 38. -/
theorem decade_range {b : Nat} (h1 : 2 ^ 23 ≤ b) (h2 : b < 255 * 2 ^ 23) : -38 ≤ elem.lg b ∧ elem.lg b ≤ 38 := by
  obtain ⟨n, hn, n1, n2⟩ := decade_spec h1 h2
  obtain ⟨l1, l2⟩ := normal_log h1 h2
  rw [hn]
  have t1 := Real.log_two_gt_d9
  have t2 := Real.log_two_lt_d9
  obtain ⟨a, b'⟩ := log_ten_bounds
  norm_num at t1 t2 a b'
  constructor
  · by_contra h
    have : (n : ℝ) ≤ ((-39 : Int) : ℝ) := by exact_mod_cast (by omega : n ≤ -39)
    push_cast at this
    nlinarith
  · by_contra h
    have : ((39 : Int) : ℝ) ≤ (n : ℝ) := by exact_mod_cast (by omega : 39 ≤ n)
    push_cast at this
    nlinarith

theorem exp_zpow (f : Int) : Real.exp (f * Real.log 10) = (10 : ℝ) ^ f := by
  rw [← Real.log_zpow, Real.exp_log (by positivity)]

/-- The scaled number is between 0.9999 and 10.001. -/
theorem decade_ratio {b : Nat} (h1 : 2 ^ 23 ≤ b) (h2 : b < 255 * 2 ^ 23) :
    9999 / 10000 ≤ real (ofBits b) / (10 : ℝ) ^ (elem.lg b) ∧ real (ofBits b) / (10 : ℝ) ^ (elem.lg b) ≤ 10001 / 1000 := by
  obtain ⟨n, hn, n1, n2⟩ := decade_spec h1 h2
  rw [hn]
  have hp := normal_pos h1 h2
  have e : real (ofBits b) / (10 : ℝ) ^ n = Real.exp (Real.log (real (ofBits b)) - n * Real.log 10) := by
    rw [Real.exp_sub, Real.exp_log hp, exp_zpow]
  rw [e]
  constructor
  · refine le_trans ?_ (Real.add_one_le_exp _)
    norm_num at n1 ⊢
    linarith
  · have k : Real.log (real (ofBits b)) - n * Real.log 10 ≤ Real.log 10 + 24 / 10 ^ 6 := by linarith
    refine (Real.exp_le_exp.2 k).trans ?_
    rw [Real.exp_add, Real.exp_log (by norm_num)]
    have := Real.abs_exp_sub_one_le (x := 24 / 10 ^ 6) (by norm_num [abs_of_pos])
    rw [abs_le, abs_of_pos (by norm_num)] at this
    norm_num at this ⊢
    linarith [this.2]

/-! ## The quotient -/

/-- `Exp(f * ln_10)` is nearly `10^f`. -/
theorem exp_power {f : Int} (h1 : -37 ≤ f) (h2 : f ≤ 38) :
    ∃ y, exp (mul (ofInt f) ln10) = .ok y ∧ Spec.F32.Finite y ∧ |real y - (10 : ℝ) ^ f| ≤ 77 / 10 ^ 7 * (10 : ℝ) ^ f := by
  have ee : Approx (ofInt f) f 0 := by
    have := Approx.exact (ofInt_spec (n := f) (by omega)).1
    rwa [real_ofInt (by omega)] at this
  have fA : |(f : ℝ)| ≤ 38 := by
    have : ((f.natAbs : Nat) : ℝ) ≤ 38 := by exact_mod_cast (by omega : f.natAbs ≤ 38)
    rwa [Nat.cast_natAbs, Int.cast_abs] at this
  have f1 : (-37 : ℝ) ≤ f := by exact_mod_cast h1
  have f2 : (f : ℝ) ≤ 38 := by exact_mod_cast h2
  obtain ⟨a, b⟩ := log_ten_bounds
  norm_num at a b
  have m := Approx.mul 38 (23026 / 10000) (66 / 10 ^ 7) ee ln10_approx fA (by rw [abs_of_pos (by linarith)]; linarith)
    (by norm_num) (by unfold eps tiny; norm_num)
  have hm := m.2
  have hm' := hm
  rw [abs_le] at hm'
  obtain ⟨y, y1, y2, y3⟩ := exp_accurate m.1 (by norm_num at hm' ⊢; nlinarith [hm'.1]) (by norm_num at hm' ⊢; nlinarith [hm'.2])
  refine ⟨y, y1, y2, ?_⟩
  rw [← exp_zpow]
  generalize real (mul (ofInt f) ln10) = t at *
  generalize (f : ℝ) * Real.log 10 = u at *
  have h3 : |Real.exp (t - u) - 1| ≤ 661 / 10 ^ 8 := by
    have h2 := Real.abs_exp_sub_one_sub_id_le (x := t - u) (by norm_num at hm ⊢; linarith)
    have hs : (t - u) ^ 2 ≤ (66 / 10 ^ 7) ^ 2 := by rw [← sq_abs]; gcongr
    calc _ = |(Real.exp (t - u) - 1 - (t - u)) + (t - u)| := by ring_nf
      _ ≤ |Real.exp (t - u) - 1 - (t - u)| + |t - u| := abs_add_le _ _
      _ ≤ (66 / 10 ^ 7) ^ 2 + 66 / 10 ^ 7 := by linarith
      _ ≤ _ := by norm_num
  have h4 : Real.exp t = Real.exp (t - u) * Real.exp u := by rw [← Real.exp_add]; ring_nf
  have hu := Real.exp_pos u
  rw [h4] at y3
  generalize Real.exp (t - u) = v at *
  generalize Real.exp u = w at *
  have hv : 0 ≤ v ∧ v ≤ 10001 / 10000 := by
    rw [abs_le] at h3
    norm_num at h3 ⊢
    constructor <;> linarith
  calc |real y - w| = |(real y - v * w) + (v - 1) * w| := by ring_nf
    _ ≤ |real y - v * w| + |(v - 1) * w| := abs_add_le _ _
    _ = |real y - v * w| + |v - 1| * w := by rw [abs_mul, abs_of_pos hu]
    _ ≤ 1 / 10 ^ 6 * (10001 / 10000 * w) + 661 / 10 ^ 8 * w := by
      have hv2 := hv.2
      refine add_le_add (y3.trans ?_) ?_
      · gcongr
      · gcongr
    _ = (1 / 10 ^ 6 * (10001 / 10000) + 661 / 10 ^ 8) * w := by ring
    _ ≤ _ := by gcongr; norm_num

theorem elem_quot {b : Nat} {f : Int} {y : Flt} (h : exp (mul (ofInt f) ln10) = .ok y) :
    elem.quot b f = toBits (div (ofBits b) y) := by
  have e : scaledBy b (ofInt f) = .ok (div (ofBits b) y) := by
    unfold scaledBy
    rw [h, Out.ok_bind]
  show bitsOr0 (scaledBy b (ofInt f)) = _
  rw [e, bitsOr0]

theorem nat_of_real_le {n : Nat} {r : ℝ} (h : (n : ℝ) = r * 2 ^ 149) (hr : 9998 / 10000 ≤ r) : 2 ^ 118 ≤ n := by
  have h1 : (2 : ℝ) ^ 149 = 2 ^ 118 * 2 ^ 31 := by rw [← pow_add]
  rw [h1] at h
  have h2 : ((2 ^ 118 : Nat) : ℝ) ≤ n := by
    rw [h, Nat.cast_pow, Nat.cast_ofNat]
    have h3 : (0 : ℝ) < 2 ^ 118 := by positivity
    generalize (2 : ℝ) ^ 118 = T at *
    norm_num
    nlinarith
  exact Nat.cast_le.1 h2

theorem nat_of_real_lt {n : Nat} {r : ℝ} (h : (n : ℝ) = r * 2 ^ 149) (hr : r ≤ 11) : n < 100 * 2 ^ 149 := by
  have h2 : (n : ℝ) < ((100 * 2 ^ 149 : Nat) : ℝ) := by
    rw [h, Nat.cast_mul, Nat.cast_pow, Nat.cast_ofNat, Nat.cast_ofNat]
    have h3 : (0 : ℝ) < 2 ^ 149 := by positivity
    generalize (2 : ℝ) ^ 149 = T at *
    nlinarith
  exact Nat.cast_lt.1 h2

/-- The quotient printed by `FloatToString`. -/
theorem quot_spec {b : Nat} (h1 : 2 ^ 23 ≤ b) (h2 : b < 255 * 2 ^ 23) (h3 : elem.lg b ≠ -38) :
    ∃ q, elem.quot b (elem.lg b) = q ∧ 96 ≤ q / 2 ^ 23 % 256 ∧ units q < 100 * 2 ^ 149 ∧
      |(units q : ℝ) / 2 ^ 149 - real (ofBits b) / (10 : ℝ) ^ elem.lg b| ≤ 78 / 10 ^ 7 * (real (ofBits b) / (10 : ℝ) ^ elem.lg b) := by
  obtain ⟨r1, r2⟩ := decade_range h1 h2
  obtain ⟨a1, a2⟩ := decade_ratio h1 h2
  generalize elem.lg b = f at *
  obtain ⟨y, y1, y2, y3⟩ := exp_power (f := f) (by omega) r2
  have hx := normal_finite h1 h2
  have h10 : (0 : ℝ) < 10 ^ f := by positivity
  have hb0 := normal_pos h1 h2
  have s1 : (10 : ℝ) ^ f - 77 / 10 ^ 7 * (10 : ℝ) ^ f = (1 - 77 / 10 ^ 7) * 10 ^ f := by ring
  have s2 : (0 + real (ofBits b) / (10 : ℝ) ^ f * (77 / 10 ^ 7 * (10 : ℝ) ^ f)) / ((10 : ℝ) ^ f - 77 / 10 ^ 7 * (10 : ℝ) ^ f) =
      real (ofBits b) / (10 : ℝ) ^ f * (77 / 10 ^ 7 / (1 - 77 / 10 ^ 7)) := by
    rw [s1]
    generalize (10 : ℝ) ^ f = T at *
    field_simp
    ring
  have d := Approx.div (real (ofBits b) / (10 : ℝ) ^ f) ((10 : ℝ) ^ f) (78 / 10 ^ 7 * (real (ofBits b) / (10 : ℝ) ^ f))
    (.exact hx) ⟨y2, y3⟩ (le_of_eq (abs_of_pos (by positivity))) (le_of_eq (abs_of_pos h10).symm)
    (by rw [← sub_pos, s1]; norm_num; exact h10)
    (by
      rw [s2]
      generalize real (ofBits b) / (10 : ℝ) ^ f = R at *
      norm_num at a2 ⊢
      linarith)
    (by
      rw [s2]
      generalize real (ofBits b) / (10 : ℝ) ^ f = R at *
      unfold eps tiny
      norm_num at a1 ⊢
      linarith)
  have dd := d.2
  have hpos : 9998 / 10000 ≤ real (div (ofBits b) y) ∧ real (div (ofBits b) y) ≤ 11 := by
    generalize real (ofBits b) / (10 : ℝ) ^ f = R at *
    rw [abs_le] at dd
    norm_num at dd a1 a2 ⊢
    constructor <;> linarith
  have hu := toBits_units d.1 (by linarith [hpos.1])
  refine ⟨toBits (div (ofBits b) y), ?_, ?_, ?_, ?_⟩
  · exact elem_quot y1
  · apply units_exponent
    rw [div_eq_iff (by positivity)] at hu
    exact nat_of_real_le hu hpos.1
  · rw [div_eq_iff (by positivity)] at hu
    exact nat_of_real_lt hu hpos.2
  · rw [hu]; exact dd

end Verif.MathFns
