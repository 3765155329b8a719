import Mathlib.Analysis.Real.Pi.Bounds
import Verif.Model.Trig
import Verif.Lemmas.LogReal

/-!
# The table of cosines and sines
-/

namespace Verif.Trig

open Verif Verif.B32 Verif.MathFns Verif.Spec.F32
open Real (pi sqrtTwoAddSeries)

/-! ## The angle `tau / 256` -/

theorem series_step {l h l' h' : ℝ} (n : Nat) (ha : l ≤ sqrtTwoAddSeries 0 n ∧ sqrtTwoAddSeries 0 n ≤ h) (hl : 0 ≤ l') (hh : 0 ≤ h')
    (h1 : l' ^ 2 ≤ 2 + l) (h2 : 2 + h ≤ h' ^ 2) : l' ≤ sqrtTwoAddSeries 0 (n + 1) ∧ sqrtTwoAddSeries 0 (n + 1) ≤ h' := by
  change l' ≤ √(2 + sqrtTwoAddSeries 0 n) ∧ √(2 + sqrtTwoAddSeries 0 n) ≤ h'
  exact ⟨Real.le_sqrt_of_sq_le (by linarith [ha.1]), Real.sqrt_le_iff.2 ⟨hh, by linarith [ha.2]⟩⟩

theorem series1 : (1414213562373095048801688724159 / 10 ^ 30 : ℝ) ≤ sqrtTwoAddSeries 0 1 ∧ sqrtTwoAddSeries 0 1 ≤ 1414213562373095048801688724259 / 10 ^ 30 :=
  series_step (l := 0) (h := 0) 0 ⟨by simp, by simp⟩ (by norm_num) (by norm_num) (by norm_num) (by norm_num)

theorem series2 : (1847759065022573512256366378743 / 10 ^ 30 : ℝ) ≤ sqrtTwoAddSeries 0 2 ∧ sqrtTwoAddSeries 0 2 ≤ 1847759065022573512256366378843 / 10 ^ 30 :=
  series_step (l := 1414213562373095048801688724159 / 10 ^ 30) (h := 1414213562373095048801688724259 / 10 ^ 30) 1 series1 (by norm_num) (by norm_num) (by norm_num) (by norm_num)

theorem series3 : (1961570560806460898252364472218 / 10 ^ 30 : ℝ) ≤ sqrtTwoAddSeries 0 3 ∧ sqrtTwoAddSeries 0 3 ≤ 1961570560806460898252364472318 / 10 ^ 30 :=
  series_step (l := 1847759065022573512256366378743 / 10 ^ 30) (h := 1847759065022573512256366378843 / 10 ^ 30) 2 series2 (by norm_num) (by norm_num) (by norm_num) (by norm_num)

theorem series4 : (1990369453344393772489673906168 / 10 ^ 30 : ℝ) ≤ sqrtTwoAddSeries 0 4 ∧ sqrtTwoAddSeries 0 4 ≤ 1990369453344393772489673906268 / 10 ^ 30 :=
  series_step (l := 1961570560806460898252364472218 / 10 ^ 30) (h := 1961570560806460898252364472318 / 10 ^ 30) 3 series3 (by norm_num) (by norm_num) (by norm_num) (by norm_num)

theorem series5 : (1997590912410344785429543209468 / 10 ^ 30 : ℝ) ≤ sqrtTwoAddSeries 0 5 ∧ sqrtTwoAddSeries 0 5 ≤ 1997590912410344785429543209568 / 10 ^ 30 :=
  series_step (l := 1990369453344393772489673906168 / 10 ^ 30) (h := 1990369453344393772489673906268 / 10 ^ 30) 4 series4 (by norm_num) (by norm_num) (by norm_num) (by norm_num)

theorem series6 : (1999397637392408440231531299282 / 10 ^ 30 : ℝ) ≤ sqrtTwoAddSeries 0 6 ∧ sqrtTwoAddSeries 0 6 ≤ 1999397637392408440231531299382 / 10 ^ 30 :=
  series_step (l := 1997590912410344785429543209468 / 10 ^ 30) (h := 1997590912410344785429543209568 / 10 ^ 30) 5 series5 (by norm_num) (by norm_num) (by norm_num) (by norm_num)

/-- The cosine and sine of `tau / 256`, times `10^25`. -/
def cosStep : Int := 9996988186962042201157656
def sinStep : Int := 245412285229122880317345

theorem cos_step : |Real.cos (pi / 128) - cosStep / 10 ^ 25| ≤ 1 / 10 ^ 24 := by
  have e := Real.cos_pi_over_two_pow 6
  rw [show (2 : ℝ) ^ (6 + 1) = 128 by norm_num] at e
  obtain ⟨a, b⟩ := series6
  rw [e, abs_le]
  unfold cosStep
  push_cast
  norm_num at a b ⊢
  constructor <;> linarith

theorem sin_step : |Real.sin (pi / 128) - sinStep / 10 ^ 25| ≤ 1 / 10 ^ 24 := by
  have e := Real.sin_pi_over_two_pow_succ 5
  rw [show (2 : ℝ) ^ (5 + 2) = 128 by norm_num] at e
  obtain ⟨a, b⟩ := series5
  have l : (49082457045824576063469057418 / 10 ^ 30 : ℝ) ≤ √(2 - sqrtTwoAddSeries 0 5) := by
    refine Real.le_sqrt_of_sq_le ?_
    norm_num at a b ⊢
    linarith
  have u : √(2 - sqrtTwoAddSeries 0 5) ≤ 49082457045824576063469060418 / 10 ^ 30 := by
    refine Real.sqrt_le_iff.2 ⟨by norm_num, ?_⟩
    norm_num at a b ⊢
    linarith
  rw [e, abs_le]
  unfold sinStep
  push_cast
  norm_num at l u ⊢
  constructor <;> linarith

/-! ## Multiples of the angle -/

/-- Cosine and sine of multiples of `tau / 256`, times `10^25`. -/
def spin : Nat → Int × Int
  | 0 => (10 ^ 25, 0)
  | k + 1 => (((spin k).1 * cosStep - (spin k).2 * sinStep) / 10 ^ 25, ((spin k).2 * cosStep + (spin k).1 * sinStep) / 10 ^ 25)

theorem floor_real (n : Int) : |((n / 10 ^ 25 : Int) : ℝ) - n / 10 ^ 25| ≤ 1 := by
  have h1 := Int.emod_add_mul_ediv n (10 ^ 25)
  have h2 := Int.emod_nonneg n (show (10 ^ 25 : Int) ≠ 0 by decide)
  have h3 := Int.emod_lt_of_pos n (show (0 : Int) < 10 ^ 25 by decide)
  have e : (n : ℝ) = (n % 10 ^ 25 : Int) + 10 ^ 25 * ((n / 10 ^ 25 : Int) : ℝ) := by exact_mod_cast h1.symm
  have h2' : (0 : ℝ) ≤ ((n % 10 ^ 25 : Int) : ℝ) := by exact_mod_cast h2
  have h3' : ((n % 10 ^ 25 : Int) : ℝ) < 10 ^ 25 := by exact_mod_cast h3
  generalize ((n / 10 ^ 25 : Int) : ℝ) = q at *
  generalize ((n % 10 ^ 25 : Int) : ℝ) = r at *
  rw [e, abs_le]
  norm_num at h3' ⊢
  constructor <;> linarith

/-- One product. -/
theorem product_error {a A x X e : ℝ} (h1 : |a - A| ≤ e) (h2 : |x - X| ≤ 1 / 10 ^ 24) (ha : |A| ≤ 1) :
    |a * x - A * X| ≤ e * |x| + 1 / 10 ^ 24 := by
  have e1 : a * x - A * X = (a - A) * x + A * (x - X) := by ring
  rw [e1]
  refine (abs_add_le _ _).trans ?_
  rw [abs_mul, abs_mul]
  refine add_le_add (mul_le_mul_of_nonneg_right h1 (abs_nonneg _)) ?_
  calc |A| * |x - X| ≤ 1 * (1 / 10 ^ 24) := mul_le_mul ha h2 (abs_nonneg _) (by norm_num)
    _ = _ := one_mul _

theorem spin_error (k : Nat) :
    |((spin k).1 : ℝ) / 10 ^ 25 - Real.cos (k * (pi / 128))| ≤ ((103 / 100) ^ k - 1) * (2 / 10 ^ 22) ∧
    |((spin k).2 : ℝ) / 10 ^ 25 - Real.sin (k * (pi / 128))| ≤ ((103 / 100) ^ k - 1) * (2 / 10 ^ 22) := by
  induction k with
  | zero => norm_num [spin]
  | succ k ih =>
    obtain ⟨i1, i2⟩ := ih
    have c := cos_step
    have s := sin_step
    rw [abs_sub_comm] at c s
    have hc : |(cosStep / 10 ^ 25 : ℝ)| ≤ 1 := by unfold cosStep; norm_num
    have hs : |(sinStep / 10 ^ 25 : ℝ)| ≤ 25 / 1000 := by unfold sinStep; norm_num
    have e0 : (0 : ℝ) ≤ ((103 / 100) ^ k - 1) * (2 / 10 ^ 22) := (abs_nonneg _).trans i1
    have hp : (((103 / 100 : ℝ)) ^ (k + 1) - 1) * (2 / 10 ^ 22) = 103 / 100 * (((103 / 100) ^ k - 1) * (2 / 10 ^ 22)) + 6 / 10 ^ 24 := by
      rw [pow_succ]; ring
    have ek : ((k + 1 : Nat) : ℝ) * (pi / 128) = k * (pi / 128) + pi / 128 := by push_cast; ring
    rw [ek, Real.cos_add, Real.sin_add, hp]
    generalize ((103 / 100 : ℝ) ^ k - 1) * (2 / 10 ^ 22) = e at *
    have C1 := Real.abs_cos_le_one (k * (pi / 128))
    have S1 := Real.abs_sin_le_one (k * (pi / 128))
    generalize Real.cos (k * (pi / 128)) = C at *
    generalize Real.sin (k * (pi / 128)) = S at *
    generalize Real.cos (pi / 128) = C' at *
    generalize Real.sin (pi / 128) = S' at *
    have p1 := product_error i1 c C1
    have p2 := product_error i2 s S1
    have p3 := product_error i2 c S1
    have p4 := product_error i1 s C1
    have q1 := mul_le_mul_of_nonneg_left hc e0
    have q2 := mul_le_mul_of_nonneg_left hs e0
    have f1 := floor_real ((spin k).1 * cosStep - (spin k).2 * sinStep)
    have f2 := floor_real ((spin k).2 * cosStep + (spin k).1 * sinStep)
    rw [spin]
    dsimp only
    generalize (((((spin k).1 * cosStep - (spin k).2 * sinStep) / 10 ^ 25 : Int)) : ℝ) = F at *
    generalize (((((spin k).2 * cosStep + (spin k).1 * sinStep) / 10 ^ 25 : Int)) : ℝ) = G at *
    push_cast at f1 f2
    have r1 : ((spin k).1 * cosStep - (spin k).2 * sinStep : ℝ) / 10 ^ 25 =
      10 ^ 25 * (((spin k).1 : ℝ) / 10 ^ 25 * (cosStep / 10 ^ 25) - ((spin k).2 : ℝ) / 10 ^ 25 * (sinStep / 10 ^ 25)) := by field_simp
    have r2 : ((spin k).2 * cosStep + (spin k).1 * sinStep : ℝ) / 10 ^ 25 =
      10 ^ 25 * (((spin k).2 : ℝ) / 10 ^ 25 * (cosStep / 10 ^ 25) + ((spin k).1 : ℝ) / 10 ^ 25 * (sinStep / 10 ^ 25)) := by field_simp
    rw [r1] at f1
    rw [r2] at f2
    generalize ((spin k).1 : ℝ) / 10 ^ 25 * (cosStep / 10 ^ 25) = P1 at *
    generalize ((spin k).2 : ℝ) / 10 ^ 25 * (sinStep / 10 ^ 25) = P2 at *
    generalize ((spin k).2 : ℝ) / 10 ^ 25 * (cosStep / 10 ^ 25) = P3 at *
    generalize ((spin k).1 : ℝ) / 10 ^ 25 * (sinStep / 10 ^ 25) = P4 at *
    generalize e * |(cosStep / 10 ^ 25 : ℝ)| = t1 at *
    generalize e * |(sinStep / 10 ^ 25 : ℝ)| = t2 at *
    rw [abs_le, abs_le]
    rw [abs_le] at f1 f2 p1 p2 p3 p4
    obtain ⟨f11, f12⟩ := f1
    obtain ⟨f21, f22⟩ := f2
    obtain ⟨p11, p12⟩ := p1
    obtain ⟨p21, p22⟩ := p2
    obtain ⟨p31, p32⟩ := p3
    obtain ⟨p41, p42⟩ := p4
    norm_num at *
    refine ⟨⟨?_, ?_⟩, ?_, ?_⟩ <;> linarith

/-! ## The entries -/

/-- Finite, decidably. -/
def isFinite : Flt → Bool
  | .fin _ m q => decide (m < 2 ^ 24) && decide (q ≤ 253) && (decide (q = 0) || decide (2 ^ 23 ≤ m))
  | _ => false

theorem finite_of {x : Flt} (h : isFinite x = true) : Finite x := by
  cases x with
  | fin s m q =>
    simp only [isFinite, Bool.and_eq_true, Bool.or_eq_true, decide_eq_true_eq] at h
    exact ⟨s, m, q, rfl, h.1.1, h.1.2, h.2⟩
  | inf => cases h
  | nan => cases h

/-- The entries against `spin`: at most `10^(-7)` off. -/
theorem table_check : ∀ n < 256, (isFinite (cosAlpha n) && isFinite (sinAlpha n) &&
    decide (10 ^ 7 * (val (cosAlpha n) * 10 ^ 25 - (spin n).1 * unit).natAbs ≤ 10 ^ 25 * unit) &&
    decide (10 ^ 7 * (val (sinAlpha n) * 10 ^ 25 - (spin n).2 * unit).natAbs ≤ 10 ^ 25 * unit)) = true := by
  decide +kernel

theorem entry_real {v s : Int} (h : 10 ^ 7 * (v * 10 ^ 25 - s * unit).natAbs ≤ 10 ^ 25 * unit) :
    |(v : ℝ) / 2 ^ 149 - s / 10 ^ 25| ≤ 1 / 10 ^ 7 := by
  have h' : (10 ^ 7 : Int) * |v * 10 ^ 25 - s * (unit : Int)| ≤ 10 ^ 25 * unit := by
    rw [← Int.natCast_natAbs]; exact_mod_cast h
  have h2 : (10 ^ 7 : ℝ) * |(v : ℝ) * 10 ^ 25 - s * 2 ^ 149| ≤ 10 ^ 25 * 2 ^ 149 := by
    have : ((unit : Nat) : ℝ) = 2 ^ 149 := by rw [unit_pow, cast_unit]
    rw [← this]
    exact_mod_cast h'
  have e : (v : ℝ) / 2 ^ 149 - s / 10 ^ 25 = (v * 10 ^ 25 - s * 2 ^ 149) / (2 ^ 149 * 10 ^ 25) := by field_simp
  rw [e, abs_div, abs_of_pos (show (0 : ℝ) < 2 ^ 149 * 10 ^ 25 by positivity), div_le_div_iff₀ (by positivity) (by positivity)]
  linarith

/-- The entries are cosines and sines of multiples of `tau / 256`. -/
theorem table_spec {n : Nat} (h : n < 256) :
    Approx (cosAlpha n) (Real.cos (n * (pi / 128))) (11 / 10 ^ 8) ∧ Approx (sinAlpha n) (Real.sin (n * (pi / 128))) (11 / 10 ^ 8) := by
  have t := table_check n h
  simp only [Bool.and_eq_true, decide_eq_true_eq] at t
  obtain ⟨⟨⟨t1, t2⟩, t3⟩, t4⟩ := t
  obtain ⟨e1, e2⟩ := spin_error n
  have hp : ((103 / 100 : ℝ) ^ n - 1) * (2 / 10 ^ 22) ≤ 1 / 10 ^ 10 := by
    have : (103 / 100 : ℝ) ^ n ≤ (103 / 100) ^ 256 := pow_le_pow_right₀ (by norm_num) h.le
    have : (103 / 100 : ℝ) ^ 256 ≤ 2000 := by norm_num
    norm_num at *
    linarith
  refine ⟨⟨finite_of t1, ?_⟩, finite_of t2, ?_⟩
  · have a := entry_real t3
    change |real (cosAlpha n) - _| ≤ _ at a
    generalize ((spin n).1 : ℝ) / 10 ^ 25 = w at *
    rw [abs_le] at *
    norm_num at *
    constructor <;> linarith
  · have a := entry_real t4
    change |real (sinAlpha n) - _| ≤ _ at a
    generalize ((spin n).2 : ℝ) / 10 ^ 25 = w at *
    rw [abs_le] at *
    norm_num at *
    constructor <;> linarith

end Verif.Trig
