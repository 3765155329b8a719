import Verif.Lemmas.TrigTable
import Verif.Lemmas.Ieee32

/-!
# Accuracy of `Sin` and `Cos`
-/

namespace Verif.Trig

open Verif Verif.B32 Verif.MathFns Verif.Spec.F32
open Real (pi)

/-! ## Constants -/

theorem turns_const : lit 4074366543 8 = const 0x4222F983 := by decide +kernel
theorem beta_const : lit 245436926 10 = const 0x3CC90FDB := by decide +kernel
theorem sixth_const : lit 1666666667 10 = const 0x3E2AAAAB := by decide +kernel
theorem fifth_const : lit 8333333333 12 = const 0x3C088889 := by decide +kernel
theorem fourth_const : lit 4166666667 11 = const 0x3D2AAAAB := by decide +kernel

theorem const_of {b m q : Nat} {r d : ℝ} (h : const b = .fin false m q) (hc : Canonical m q) (hq : q ≤ 149)
    (hd : |(m : ℝ) / 2 ^ (149 - q) - r| ≤ d) : Approx (const b) r d := by
  obtain ⟨a, e⟩ := const_approx h hc hq
  exact ⟨a, by rw [e]; exact hd⟩

theorem sixth : Approx (const 0x3E2AAAAB) (1 / 6) (5 / 10 ^ 9) :=
  const_of (m := 11184811) (q := 123) (by decide) ⟨by decide, by decide, .inr (by decide)⟩ (by decide)
    (by rw [abs_le]; constructor <;> norm_num)

theorem fifth : Approx (const 0x3C088889) (1 / 120) (5 / 10 ^ 10) :=
  const_of (m := 8947849) (q := 119) (by decide) ⟨by decide, by decide, .inr (by decide)⟩ (by decide)
    (by rw [abs_le]; constructor <;> norm_num)

theorem fourth : Approx (const 0x3D2AAAAB) (1 / 24) (2 / 10 ^ 9) :=
  const_of (m := 11184811) (q := 121) (by decide) ⟨by decide, by decide, .inr (by decide)⟩ (by decide)
    (by rw [abs_le]; constructor <;> norm_num)

theorem half0 : Approx (const 0x3F000000) (1 / 2) 0 := by have := Approx.exact finite_half; rwa [real_half] at this

theorem one0 : Approx (const 0x3F800000) 1 0 := by have := Approx.exact finite_one; rwa [real_one] at this

/-! ## Sine and cosine of a small angle -/

/-- Bounds of a small angle. -/
def Small (b : Flt) (t : ℝ) : Prop := Approx b t (1 / 10 ^ 8) ∧ 0 ≤ t ∧ t ≤ 2455 / 10 ^ 5

theorem Small.abs {b : Flt} {t : ℝ} (h : Small b t) : |t| ≤ 2455 / 10 ^ 5 := by rw [abs_of_nonneg h.2.1]; exact h.2.2

theorem Small.sq {b : Flt} {t : ℝ} (h : Small b t) : 0 ≤ t * t ∧ t * t ≤ 603 / 10 ^ 6 := by
  have h1 := h.2.1
  have h2 := h.2.2
  refine ⟨mul_nonneg h1 h1, ?_⟩
  have : t * t ≤ 2455 / 10 ^ 5 * (2455 / 10 ^ 5) := mul_le_mul h2 h2 h1 (by norm_num)
  norm_num at *
  linarith

theorem Small.cube {b : Flt} {t : ℝ} (h : Small b t) : 0 ≤ t * (t * t) ∧ t * (t * t) ≤ 149 / 10 ^ 7 := by
  obtain ⟨s1, s2⟩ := h.sq
  have h1 := h.2.1
  have h2 := h.2.2
  refine ⟨mul_nonneg h1 s1, ?_⟩
  have : t * (t * t) ≤ 2455 / 10 ^ 5 * (603 / 10 ^ 6) := mul_le_mul h2 s2 s1 (by norm_num)
  norm_num at *
  linarith

theorem Small.square {b : Flt} {t : ℝ} (h : Small b t) : Approx (mul b b) (t * t) (6 / 10 ^ 10) :=
  Approx.mul (2455 / 10 ^ 5) (2455 / 10 ^ 5) _ h.1 h.1 h.abs h.abs (by norm_num) (by unfold eps tiny; norm_num)

theorem Small.third {b : Flt} {t : ℝ} (h : Small b t) : Approx (mul b (mul b b)) (t * (t * t)) (3 / 10 ^ 11) :=
  Approx.mul (2455 / 10 ^ 5) (603 / 10 ^ 6) _ h.1 h.square h.abs (by rw [abs_of_nonneg h.sq.1]; exact h.sq.2) (by norm_num)
    (by unfold eps tiny; norm_num)

/-- The polynomial with its coefficients exchanged. -/
theorem sineBeta_poly {b : Flt} {t : ℝ} (h : Small b t) :
    Approx (sineBeta b) (t - t * (t * t) * (1 / 120 - t * t * (1 / 6))) (12 / 10 ^ 9) := by
  obtain ⟨s1, s2⟩ := h.sq
  obtain ⟨c1, c2⟩ := h.cube
  have h1 := h.2.1
  have h2 := h.2.2
  have a1 : Approx (mul (mul b b) (const 0x3E2AAAAB)) (t * t * (1 / 6)) (2 / 10 ^ 10) :=
    Approx.mul (603 / 10 ^ 6) (1 / 6) _ h.square sixth (by rw [abs_of_nonneg s1]; exact s2) (by norm_num) (by norm_num)
      (by unfold eps tiny; norm_num)
  have hi : |1 / 120 - t * t * (1 / 6)| ≤ 1 / 100 := by
    rw [abs_le]; constructor <;> norm_num at * <;> linarith
  have a2 : Approx (nmsub (mul b b) (const 0x3E2AAAAB) (const 0x3C088889)) (1 / 120 - t * t * (1 / 6)) (2 / 10 ^ 9) :=
    Approx.sub (1 / 100) _ fifth a1 hi (by norm_num) (by unfold eps; norm_num)
  have a3 := Approx.mul (149 / 10 ^ 7) (1 / 100) (1 / 10 ^ 11) h.third a2 (by rw [abs_of_nonneg c1]; exact c2) hi (by norm_num)
    (by unfold eps tiny; norm_num)
  refine Approx.sub (25 / 1000) _ h.1 a3 ?_ (by norm_num) (by unfold eps; norm_num)
  have : |t * (t * t) * (1 / 120 - t * t * (1 / 6))| ≤ 149 / 10 ^ 7 * (1 / 100) := by
    rw [abs_mul, abs_of_nonneg c1]
    exact mul_le_mul c2 hi (abs_nonneg _) (by norm_num)
  rw [abs_le] at this ⊢
  norm_num at *
  constructor <;> linarith

theorem sineBetaPlain_poly {b : Flt} {t : ℝ} (h : Small b t) :
    Approx (sineBetaPlain b) (t - t * (t * t) * (1 / 6 - t * t * (1 / 120))) (12 / 10 ^ 9) := by
  obtain ⟨s1, s2⟩ := h.sq
  obtain ⟨c1, c2⟩ := h.cube
  have h1 := h.2.1
  have h2 := h.2.2
  have a1 : Approx (mul (mul b b) (const 0x3C088889)) (t * t * (1 / 120)) (2 / 10 ^ 11) :=
    Approx.mul (603 / 10 ^ 6) (1 / 120) _ h.square fifth (by rw [abs_of_nonneg s1]; exact s2) (by norm_num) (by norm_num)
      (by unfold eps tiny; norm_num)
  have hi : |1 / 6 - t * t * (1 / 120)| ≤ 1 / 5 := by
    rw [abs_le]; constructor <;> norm_num at * <;> linarith
  have a2 : Approx (sub (const 0x3E2AAAAB) (mul (mul b b) (const 0x3C088889))) (1 / 6 - t * t * (1 / 120)) (2 / 10 ^ 8) :=
    Approx.sub (1 / 5) _ sixth a1 hi (by norm_num) (by unfold eps; norm_num)
  have a3 := Approx.mul (149 / 10 ^ 7) (1 / 5) (1 / 10 ^ 11) h.third a2 (by rw [abs_of_nonneg c1]; exact c2) hi (by norm_num)
    (by unfold eps tiny; norm_num)
  unfold sineBetaPlain
  rw [sixth_const, fifth_const]
  refine Approx.sub (25 / 1000) _ h.1 a3 ?_ (by norm_num) (by unfold eps; norm_num)
  have : |t * (t * t) * (1 / 6 - t * t * (1 / 120))| ≤ 149 / 10 ^ 7 * (1 / 5) := by
    rw [abs_mul, abs_of_nonneg c1]
    exact mul_le_mul c2 hi (abs_nonneg _) (by norm_num)
  rw [abs_le] at this ⊢
  norm_num at *
  constructor <;> linarith

theorem cosineBeta_poly {b : Flt} {t : ℝ} (h : Small b t) :
    Approx (cosineBeta b) (1 - t * t * (1 / 2 - t * t * (1 / 24))) (61 / 10 ^ 9) := by
  obtain ⟨s1, s2⟩ := h.sq
  have a1 : Approx (mul (mul b b) (const 0x3D2AAAAB)) (t * t * (1 / 24)) (4 / 10 ^ 11) :=
    Approx.mul (603 / 10 ^ 6) (1 / 24) _ h.square fourth (by rw [abs_of_nonneg s1]; exact s2) (by norm_num) (by norm_num)
      (by unfold eps tiny; norm_num)
  have hi : |1 / 2 - t * t * (1 / 24)| ≤ 1 / 2 := by
    rw [abs_le]; constructor <;> norm_num at * <;> linarith
  have a2 : Approx (nmsub (mul b b) (const 0x3D2AAAAB) (const 0x3F000000)) (1 / 2 - t * t * (1 / 24)) (31 / 10 ^ 9) :=
    Approx.sub (1 / 2) _ half0 a1 hi (by norm_num) (by unfold eps; norm_num)
  have a3 := Approx.mul (603 / 10 ^ 6) (1 / 2) (4 / 10 ^ 10) h.square a2 (by rw [abs_of_nonneg s1]; exact s2) hi (by norm_num)
    (by unfold eps tiny; norm_num)
  refine Approx.sub 1 _ one0 a3 ?_ (by norm_num) (by unfold eps; norm_num)
  have : |t * t * (1 / 2 - t * t * (1 / 24))| ≤ 603 / 10 ^ 6 * (1 / 2) := by
    rw [abs_mul, abs_of_nonneg s1]
    exact mul_le_mul s2 hi (abs_nonneg _) (by norm_num)
  have g : 0 ≤ t * t * (1 / 2 - t * t * (1 / 24)) := mul_nonneg s1 (by norm_num at *; linarith)
  rw [abs_le] at this ⊢
  norm_num at *
  constructor <;> linarith

theorem cosineBetaPlain_eq (b : Flt) : cosineBetaPlain b = cosineBeta b := by
  unfold cosineBetaPlain cosineBeta nmsub
  rw [fourth_const]
  rfl

theorem shifted {x : Flt} {r r' d e f : ℝ} (h : Approx x r d) (h' : |r - r'| ≤ e) (hf : d + e ≤ f) : Approx x r' f := by
  refine ⟨h.1, ?_⟩
  have : real x - r' = (real x - r) + (r - r') := by ring
  rw [this]
  exact (abs_add_le _ _).trans (by linarith [h.2])

theorem pow_small {t : ℝ} (h0 : 0 ≤ t) (h1 : t ≤ 2455 / 10 ^ 5) (k : Nat) : 0 ≤ t ^ k ∧ t ^ k ≤ (2455 / 10 ^ 5) ^ k :=
  ⟨pow_nonneg h0 k, pow_le_pow_left₀ h0 h1 k⟩

theorem sineBeta_sin {b : Flt} {t : ℝ} (h : Small b t) : Approx (sineBeta b) (Real.sin t) (24 / 10 ^ 7) := by
  refine shifted (sineBeta_poly h) (e := 238 / 10 ^ 8) ?_ (by norm_num)
  have s := Real.sin_bound (x := t) (by rw [abs_of_nonneg h.2.1]; have := h.2.2; norm_num at this ⊢; linarith)
  rw [abs_of_nonneg h.2.1] at s
  have p3 := pow_small h.2.1 h.2.2 3
  have p5 := pow_small h.2.1 h.2.2 5
  have e : t - t * (t * t) * (1 / 120 - t * t * (1 / 6)) = t - t ^ 3 / 120 + t ^ 5 / 6 := by ring
  rw [e]
  rw [abs_le] at s ⊢
  norm_num at *
  constructor <;> linarith

theorem sineBetaPlain_sin {b : Flt} {t : ℝ} (h : Small b t) : Approx (sineBetaPlain b) (Real.sin t) (13 / 10 ^ 9) := by
  refine shifted (sineBetaPlain_poly h) (e := 1 / 10 ^ 9) ?_ (by norm_num)
  have s := Real.sin_bound (x := t) (by rw [abs_of_nonneg h.2.1]; have := h.2.2; norm_num at this ⊢; linarith)
  rw [abs_of_nonneg h.2.1] at s
  have p5 := pow_small h.2.1 h.2.2 5
  have e : t - t * (t * t) * (1 / 6 - t * t * (1 / 120)) = t - t ^ 3 / 6 + t ^ 5 / 120 := by ring
  rw [e]
  rw [abs_le] at s ⊢
  norm_num at *
  constructor <;> linarith

theorem cosineBeta_cos {b : Flt} {t : ℝ} (h : Small b t) : Approx (cosineBeta b) (Real.cos t) (1 / 10 ^ 7) := by
  refine shifted (cosineBeta_poly h) (e := 35 / 10 ^ 9) ?_ (by norm_num)
  have s := Real.cos_bound (x := t) (by rw [abs_of_nonneg h.2.1]; have := h.2.2; norm_num at this ⊢; linarith)
  rw [abs_of_nonneg h.2.1] at s
  have p4 := pow_small h.2.1 h.2.2 4
  have e : 1 - t * t * (1 / 2 - t * t * (1 / 24)) = 1 - t ^ 2 / 2 + t ^ 4 / 24 := by ring
  rw [e]
  rw [abs_le] at s ⊢
  norm_num at *
  constructor <;> linarith

/-! ## Sums of angles -/

theorem sum_sin {n : Nat} (hn : n < 256) {cb sb : Flt} {t : ℝ} {ds f : ℝ} (hc : Approx cb (Real.cos t) (1 / 10 ^ 7))
    (hs : Approx sb (Real.sin t) ds) (ht : |Real.sin t| ≤ 25 / 1000) (hd : ds ≤ 24 / 10 ^ 7) (hf : 35 / 10 ^ 8 + 101 / 100 * ds ≤ f) :
    Approx (add (mul (sinAlpha n) cb) (mul (cosAlpha n) sb)) (Real.sin (n * (pi / 128) + t)) f ∧
    Approx (sub (mul (cosAlpha n) cb) (mul (sinAlpha n) sb)) (Real.cos (n * (pi / 128) + t)) f := by
  obtain ⟨t1, t2⟩ := table_spec hn
  have hs0 : 0 ≤ ds := (abs_nonneg _).trans hs.2
  have s1 := Real.abs_sin_le_one (n * (pi / 128) + t)
  have c1 := Real.abs_cos_le_one (n * (pi / 128) + t)
  rw [Real.sin_add, Real.cos_add] at *
  have hS := Real.abs_sin_le_one (n * (pi / 128))
  have hC := Real.abs_cos_le_one (n * (pi / 128))
  have hcb := Real.abs_cos_le_one t
  have p1 : ∀ {x : Flt} {r : ℝ}, Approx x r (11 / 10 ^ 8) → |r| ≤ 1 → Approx (mul x cb) (r * Real.cos t) (28 / 10 ^ 8) := by
    intro x r hx hr
    exact Approx.mul 1 1 _ hx hc hr hcb (by norm_num) (by unfold eps tiny; norm_num)
  have p2 : ∀ {x : Flt} {r : ℝ}, Approx x r (11 / 10 ^ 8) → |r| ≤ 1 → Approx (mul x sb) (r * Real.sin t) (1001 / 1000 * ds + 5 / 10 ^ 9) := by
    intro x r hx hr
    refine Approx.mul 1 (25 / 1000) _ hx hs hr ht ?_ ?_
    · norm_num at *; linarith
    · unfold eps tiny; norm_num at *; linarith
  constructor
  · refine Approx.add 1 _ (p1 t2 hS) (p2 t1 hC) s1 ?_ ?_
    · norm_num at *; linarith
    · unfold eps; norm_num at *; linarith
  · refine Approx.sub 1 _ (p1 t1 hC) (p2 t2 hS) c1 ?_ ?_
    · norm_num at *; linarith
    · unfold eps; norm_num at *; linarith

/-! ## Reduction of the argument -/

theorem real_fabs {x : Flt} (hx : Spec.F32.Finite x) : real (fabs x) = |real x| := by
  unfold real
  rw [(fabs_spec hx).2, abs_div, abs_of_nonneg (show (0 : ℝ) ≤ 2 ^ 149 by positivity)]
  rw [← Int.cast_abs, Int.abs_eq_natAbs]

theorem round_nonneg (num den : Nat) : 0 ≤ val (B32.round false num den) := by
  unfold B32.round pack
  split
  · split
    · rw [val_fin]; simp
    · exact Int.le_refl 0
  · split
    · rw [val_fin]; simp
    · exact Int.le_refl 0

theorem real_nonneg {x : Flt} (h : 0 ≤ val x) : 0 ≤ real x := by
  unfold real
  have : (0 : ℝ) ≤ (val x : ℝ) := by exact_mod_cast h
  positivity

theorem turns_real {x : Flt} (hx : Spec.F32.Finite x) (h : |real x| ≤ 10 ^ 30) :
    Spec.F32.Finite (turns x) ∧ 0 ≤ real (turns x) ∧ |real (turns x) - |real x| * (10680707 / 2 ^ 18)| ≤ eps * (|real x| * (10680707 / 2 ^ 18)) + tiny := by
  obtain ⟨f1, f2⟩ := fabs_spec hx
  have r1 := real_fabs hx
  obtain ⟨k1, k2⟩ := const_approx (x := const 0x4222F983) (m := 10680707) (q := 131) (by decide) ⟨by decide, by decide, .inr (by decide)⟩ (by decide)
  have h0 := abs_nonneg (real x)
  have k3 : real (const 0x4222F983) = 10680707 / 2 ^ 18 := by rw [k2]; norm_num
  have m := mul_real f1 k1 (by
    rw [r1, k3, abs_of_nonneg (by positivity)]
    norm_num at *
    linarith)
  rw [r1, k3, abs_of_nonneg (show 0 ≤ |real x| * (10680707 / 2 ^ 18) by positivity)] at m
  refine ⟨m.1, real_nonneg ?_, m.2⟩
  obtain ⟨s, m, q, rfl, hc⟩ := hx
  exact round_nonneg _ _

/-- Integral part and rest. -/
theorem split_floor {t w : Flt} (ht : Spec.F32.Finite t) (h0 : 0 ≤ real t) (hw : IsFloor t w) : ∃ n : Int, 0 ≤ n ∧ Spec.F32.Finite w ∧ val w = n * unit ∧
    n ≤ real t ∧ real t < n + 1 ∧ Spec.F32.Finite (sub t w) ∧ real (sub t w) = real t - n := by
  have hu : (0 : ℝ) < 2 ^ 149 := by positivity
  have v0 : 0 ≤ val t := by
    unfold real at h0
    rw [le_div_iff₀ hu, zero_mul] at h0
    exact_mod_cast h0
  obtain ⟨g1, g2, g3, k, g4⟩ := frac_exact ht v0 hw
  obtain ⟨hf, n, a1, a2, a3⟩ := hw
  have b2 : (n : ℝ) ≤ real t := by
    unfold real
    rw [le_div_iff₀ hu, ← cast_unit, ← unit_pow]
    exact_mod_cast a2
  have b3 : real t < n + 1 := by
    unfold real
    rw [div_lt_iff₀ hu, ← cast_unit, ← unit_pow]
    exact_mod_cast a3
  have hu' : (0 : Int) < unit := by have := H_pos; have := unit_eq; omega
  have hk : k = n := by
    have l1 : n * unit < (k + 1) * unit := by rw [Int.add_mul, Int.one_mul, Int.mul_comm k]; omega
    have l2 : k * unit < (n + 1) * unit := by rw [Int.mul_comm k]; omega
    have := Int.lt_of_mul_lt_mul_right l1 (by omega)
    have := Int.lt_of_mul_lt_mul_right l2 (by omega)
    omega
  subst hk
  refine ⟨k, ?_, hf, a1, b2, b3, g1, ?_⟩
  · have : (-1 : ℝ) < k := by linarith
    have : (-1 : Int) < k := by exact_mod_cast this
    omega
  · have e : val (sub t w) = val t - unit * k := by omega
    unfold real
    rw [e, Int.cast_sub, Int.cast_mul, Int.cast_natCast, unit_pow, cast_unit]
    field_simp

theorem angle_mod (n : Int) (t : ℝ) :
    Real.sin (((n % 256).toNat : ℝ) * (pi / 128) + t) = Real.sin (n * (pi / 128) + t) ∧
    Real.cos (((n % 256).toNat : ℝ) * (pi / 128) + t) = Real.cos (n * (pi / 128) + t) := by
  have e : (n : ℝ) = (n % 256).toNat + 256 * ((n / 256 : Int) : ℝ) := by
    have h : n = (n % 256).toNat + 256 * (n / 256) := by omega
    have h' : (n : ℝ) = (((n % 256).toNat + 256 * (n / 256) : Int) : ℝ) := by exact_mod_cast h
    rw [h']; push_cast; ring
  have e' : (n : ℝ) * (pi / 128) + t = ((n % 256).toNat : ℝ) * (pi / 128) + t + (n / 256 : Int) * (2 * pi) := by
    rw [e]; push_cast; ring
  rw [e', Real.sin_add_int_mul_two_pi, Real.cos_add_int_mul_two_pi]
  exact ⟨rfl, rfl⟩

/-- The rest as an angle. -/
theorem beta_small {d : Flt} (hd : Spec.F32.Finite d) (h0 : 0 ≤ real d) (h1 : real d < 1) :
    Small (mul d (const 0x3CC90FDB)) (real d * (pi / 128)) := by
  have p1 := Real.pi_gt_d20
  have p2 := Real.pi_lt_d20
  have k : Approx (const 0x3CC90FDB) (pi / 128) (2 / 10 ^ 9) :=
    const_of (m := 13176795) (q := 120) (by decide) ⟨by decide, by decide, .inr (by decide)⟩ (by decide)
      (by rw [abs_le]; constructor <;> norm_num <;> linarith)
  have hp : |pi / 128| ≤ 2455 / 10 ^ 5 := by rw [abs_of_nonneg (by linarith)]; linarith
  refine ⟨Approx.mul 1 (2455 / 10 ^ 5) _ (.exact hd) k (by rw [abs_of_nonneg h0]; exact h1.le) hp (by norm_num)
    (by unfold eps tiny; norm_num), by positivity, ?_⟩
  calc real d * (pi / 128) ≤ 1 * (2455 / 10 ^ 5) := by
        refine mul_le_mul h1.le ?_ (by linarith) (by norm_num)
        rw [abs_le] at hp; exact hp.2
    _ = _ := by ring

theorem sin_small {b : Flt} {t : ℝ} (h : Small b t) : |Real.sin t| ≤ 25 / 1000 := by
  have := Real.abs_sin_le_abs (x := t)
  exact this.trans (h.abs.trans (by norm_num))

/-- The number of units as an angle. -/
theorem turns_angle {x : Flt} (hx : Spec.F32.Finite x) (h : |real x| ≤ 10 ^ 30) :
    |real (turns x) * (pi / 128) - abs (real x)| ≤ 15 / 10 ^ 8 * |real x| + 1 / 10 ^ 12 := by
  obtain ⟨-, -, h3⟩ := turns_real hx h
  have p1 := Real.pi_gt_d20
  have p2 := Real.pi_lt_d20
  have h0 := abs_nonneg (real x)
  generalize |real x| = a at *
  generalize real (turns x) = t at *
  have e : t * (pi / 128) - a = (t - a * (10680707 / 2 ^ 18)) * (pi / 128) + a * (10680707 / 2 ^ 18 * (pi / 128) - 1) := by ring
  have c : |10680707 / 2 ^ 18 * (pi / 128) - 1| ≤ 5 / 10 ^ 8 := by
    rw [abs_le]; constructor <;> norm_num <;> linarith
  have hp : |pi / 128| ≤ 2455 / 10 ^ 5 := by rw [abs_of_nonneg (by linarith)]; linarith
  rw [e]
  refine (abs_add_le _ _).trans ?_
  rw [abs_mul, abs_mul, abs_of_nonneg h0]
  have m1 : |t - a * (10680707 / 2 ^ 18)| * |pi / 128| ≤ (eps * (a * (10680707 / 2 ^ 18)) + tiny) * (2455 / 10 ^ 5) :=
    mul_le_mul h3 hp (abs_nonneg _) ((abs_nonneg _).trans h3)
  have m2 : a * |10680707 / 2 ^ 18 * (pi / 128) - 1| ≤ a * (5 / 10 ^ 8) := mul_le_mul_of_nonneg_left c h0
  unfold eps tiny at *
  norm_num at *
  linarith

theorem core {x w : Flt} (S : Flt → Flt) {ds f : ℝ} (hx : Spec.F32.Finite x) (h : |real x| ≤ 10 ^ 30)
    (hw : IsFloor (turns x) w) (hS : ∀ b t, Small b t → Approx (S b) (Real.sin t) ds) (hd : ds ≤ 24 / 10 ^ 7)
    (hf : 35 / 10 ^ 8 + 101 / 100 * ds + 1 / 10 ^ 12 ≤ f) :
    ∃ n : Int, 0 ≤ n ∧ Spec.F32.Finite w ∧ val w = n * unit ∧ n ≤ real (turns x) ∧
      Approx (add (mul (sinAlpha (n % 256).toNat) (cosineBeta (mul (sub (turns x) w) (const 0x3CC90FDB))))
        (mul (cosAlpha (n % 256).toNat) (S (mul (sub (turns x) w) (const 0x3CC90FDB))))) (Real.sin |real x|) (f + 15 / 10 ^ 8 * |real x|) ∧
      Approx (sub (mul (cosAlpha (n % 256).toNat) (cosineBeta (mul (sub (turns x) w) (const 0x3CC90FDB))))
        (mul (sinAlpha (n % 256).toNat) (S (mul (sub (turns x) w) (const 0x3CC90FDB))))) (Real.cos |real x|) (f + 15 / 10 ^ 8 * |real x|) := by
  obtain ⟨t1, t2, -⟩ := turns_real hx h
  obtain ⟨n, n0, w1, w2, w3, w4, d1, d2⟩ := split_floor t1 t2 hw
  have sm := beta_small d1 (by rw [d2]; linarith) (by rw [d2]; linarith)
  obtain ⟨g1, g2⟩ := sum_sin (n := (n % 256).toNat) (by omega) (cosineBeta_cos sm) (hS _ _ sm) (sin_small sm) hd (le_refl _)
  obtain ⟨m1, m2⟩ := angle_mod n (real (sub (turns x) w) * (pi / 128))
  rw [m1] at g1
  rw [m2] at g2
  have e : (n : ℝ) * (pi / 128) + real (sub (turns x) w) * (pi / 128) = real (turns x) * (pi / 128) := by rw [d2]; ring
  rw [e] at g1 g2
  have ta := turns_angle hx h
  refine ⟨n, n0, w1, w2, w3, shifted g1 ((Real.abs_sin_sub_sin_le _ _).trans ta) (by linarith),
    shifted g2 ((Real.abs_cos_sub_cos_le _ _).trans ta) (by linarith)⟩

theorem val_of_real {x : Flt} {n : Nat} (h0 : 0 ≤ real x) (h : real x ≤ n) : 0 ≤ val x ∧ val x ≤ n * unit := by
  have hu : (0 : ℝ) < 2 ^ 149 := by positivity
  unfold real at h h0
  rw [le_div_iff₀ hu, zero_mul] at h0
  rw [div_le_iff₀ hu, ← cast_unit, ← unit_pow] at h
  exact ⟨by exact_mod_cast h0, by exact_mod_cast h⟩

theorem oddSign_approx {x r : Flt} {d : ℝ} (hx : Spec.F32.Finite x) (h : Approx r (Real.sin |real x|) d) :
    Approx (oddSign x r) (Real.sin (real x)) d := by
  have hu : (0 : ℝ) < 2 ^ 149 := by positivity
  unfold oddSign
  rw [lt_spec hx finite_zero, val_zero]
  by_cases hv : val x < 0
  · have : real x < 0 := by
      unfold real
      exact div_neg_of_neg_of_pos (by exact_mod_cast hv) hu
    rw [if_pos (by simpa using hv)]
    rw [abs_of_neg this, Real.sin_neg] at h
    have := h.neg
    rwa [neg_neg] at this
  · rw [if_neg (by simpa using hv)]
    have : 0 ≤ real x := real_nonneg (by omega)
    rwa [abs_of_nonneg this] at h

theorem cos_abs (x : ℝ) : Real.cos |x| = Real.cos x := Real.cos_abs x

theorem small_arg {a : ℝ} (h : a ≤ 200000) : a ≤ 10 ^ 30 := h.trans (by norm_num)

/-- `Sin` and `Cos` where `PositiveFloor` is right. -/
theorem simd_accurate {x : Flt} (hx : Spec.F32.Finite x) (h : |real x| ≤ 200000) :
    Approx (sine x) (Real.sin |real x|) (3 / 10 ^ 6 + 2 / 10 ^ 7 * |real x|) ∧
    Approx (cosine x) (Real.cos |real x|) (3 / 10 ^ 6 + 2 / 10 ^ 7 * |real x|) := by
  obtain ⟨t1, t2, t3⟩ := turns_real hx (small_arg h)
  have h0 := abs_nonneg (real x)
  have tb : real (turns x) ≤ (8388608 : Nat) := by
    rw [abs_le] at t3
    unfold eps tiny at t3
    norm_num at t3 ⊢
    linarith [t3.2]
  obtain ⟨v0, v1⟩ := val_of_real t2 tb
  have hw : IsFloor (turns x) (whole x) := down_floor t1 (near_positive t1 v0 (by rw [T_unit]; exact_mod_cast v1)).1
  obtain ⟨n, n0, w1, w2, w3, a1, a2⟩ := core sineBeta (f := 28 / 10 ^ 7) hx (small_arg h) hw (fun _ _ => sineBeta_sin) (le_refl _) (by norm_num)
  have hn : n ≤ 8388608 := by
    have : (n : ℝ) ≤ ((8388608 : Int) : ℝ) := by push_cast at *; linarith
    exact_mod_cast this
  have hi : index (whole x) = (n % 256).toNat := by
    unfold index
    rw [toInt_int w1 w2, if_pos ⟨by omega, by omega⟩]
  refine ⟨?_, ?_⟩
  · unfold sine
    rw [hi]
    exact a1.mono (by norm_num; linarith [abs_nonneg (real x)])
  · unfold cosine
    rw [hi]
    exact a2.mono (by norm_num; linarith [abs_nonneg (real x)])

/-! ## Without SIMD -/

theorem turnsPlain_eq (x : Flt) : turnsPlain x = turns x := by unfold turnsPlain turns; rw [turns_const]

/-- `Sin` and `Cos` where the conversion is defined. -/
theorem plain_accurate {x : Flt} (hx : Spec.F32.Finite x) (h : |real x| ≤ 5 * 10 ^ 7) :
    ∃ n, indexPlain (wholePlain x) = .ok n ∧
      Approx (sineAt n (betaPlain x)) (Real.sin |real x|) (4 / 10 ^ 7 + 2 / 10 ^ 7 * |real x|) ∧
      Approx (cosineAt n (betaPlain x)) (Real.cos |real x|) (4 / 10 ^ 7 + 2 / 10 ^ 7 * |real x|) := by
  have h' : |real x| ≤ 10 ^ 30 := h.trans (by norm_num)
  obtain ⟨t1, t2, t3⟩ := turns_real hx h'
  have h0 := abs_nonneg (real x)
  have tb : real (turns x) ≤ 2100000000 := by
    rw [abs_le] at t3
    unfold eps tiny at t3
    norm_num at t3 h ⊢
    linarith [t3.2]
  have hw : IsFloor (turns x) (wholePlain x) := by
    unfold wholePlain
    rw [turnsPlain_eq]
    exact (Props.C91_floor.1 _ t1).2.2.1
  obtain ⟨n, n0, w1, w2, w3, a1, a2⟩ := core sineBetaPlain (f := 39 / 10 ^ 8) hx h' hw (fun _ _ => sineBetaPlain_sin) (by norm_num) (by norm_num)
  have hn : n ≤ 2100000000 := by
    have : (n : ℝ) ≤ ((2100000000 : Int) : ℝ) := by push_cast at *; linarith
    exact_mod_cast this
  refine ⟨(n % 256).toNat, ?_, ?_, ?_⟩
  · unfold indexPlain
    rw [toInt_int w1 w2, if_pos ⟨by omega, by omega⟩]
    rfl
  · unfold sineAt betaPlain
    rw [cosineBetaPlain_eq, turnsPlain_eq, beta_const]
    exact a1.mono (by norm_num; linarith [abs_nonneg (real x)])
  · unfold cosineAt betaPlain
    rw [cosineBetaPlain_eq, turnsPlain_eq, beta_const]
    exact a2.mono (by norm_num; linarith [abs_nonneg (real x)])

/-- A large quotient stays large. -/
theorem round_large (s : Bool) {num den k : Nat} (hd : 0 < den) (hk : 23 ≤ k) (h : 2 ^ k * den ≤ num) :
    B32.round s num den = .inf s ∨ (∃ m q, B32.round s num den = .fin s m q ∧ 2 ^ k ≤ m * 2 ^ q) := by
  have h' : 2 ^ k ≤ num / den := (Nat.le_div_iff_mul_le hd).2 h
  have hl : k ≤ (num / den).log2 := (Nat.le_log2 (by have := Nat.two_pow_pos k; omega)).2 h'
  obtain ⟨r1, r2⟩ := round_range (num := num) hd
  unfold B32.round
  generalize hj : (num / den).log2 - 23 = j at *
  have hp : 0 < den * 2 ^ j := Nat.mul_pos hd (Nat.two_pow_pos j)
  have r3 : 2 ^ 23 * (den * 2 ^ j) ≤ num := by
    rcases r2 with e | e
    · have hkj : k = 23 := by omega
      subst hkj
      rw [e]
      simpa using h
    · exact e
  have hm : 2 ^ 23 ≤ B64.rne num (den * 2 ^ j) := by
    have hq : 2 ^ 23 ≤ num / (den * 2 ^ j) := (Nat.le_div_iff_mul_le hp).2 r3
    unfold B64.rne
    generalize num / (den * 2 ^ j) = a at *
    refine Nat.le_trans hq ?_
    split
    · exact Nat.le_refl _
    · split
      · omega
      · split <;> omega
  have hb : 2 ^ k ≤ 2 ^ 23 * 2 ^ j := by
    rw [← Nat.pow_add]
    exact Nat.pow_le_pow_right (by decide) (by omega)
  unfold pack
  split
  · split
    · right
      refine ⟨_, _, rfl, hb.trans ?_⟩
      exact Nat.mul_le_mul_left _ (Nat.pow_le_pow_right (by decide) (by omega))
    · exact .inl rfl
  · split
    · right
      exact ⟨_, _, rfl, hb.trans (Nat.mul_le_mul_right _ hm)⟩
    · exact .inl rfl

theorem lit_turns : const 0x4222F983 = .fin false 10680707 131 := by decide

theorem large_num {a : Nat} (h : 53000000 * 2 ^ 149 ≤ a) : 2 ^ 180 * 2 ^ 149 ≤ a * (10680707 * 2 ^ 131) := by
  refine Nat.le_trans ?_ (Nat.mul_le_mul_right _ h)
  decide +kernel

/-- The conversion is undefined for a large argument. -/
theorem plain_undefined {x : Flt} (hx : Valid x) (h : (Spec.F32.Finite x → 53000000 ≤ |real x|)) : indexPlain (wholePlain x) = .ub := by
  unfold indexPlain wholePlain
  rw [turnsPlain_eq]
  have key : turns x = .inf false ∨ turns x = .nan ∨ (Spec.F32.Finite (turns x) ∧ (2 ^ 180 : Nat) ≤ val (turns x)) := by
    unfold turns
    rw [lit_turns]
    rcases hx with hx | ⟨s, rfl⟩ | rfl
    · have h' := h hx
      obtain ⟨s, m, q, rfl, hc⟩ := hx
      have hm : 53000000 * 2 ^ 149 ≤ m * 2 ^ q := by
        rw [abs_real_fin, le_div_iff₀ (by positivity)] at h'
        exact_mod_cast h'
      have e : mul (fabs (.fin s m q)) (.fin false 10680707 131) = B32.round false (m * 2 ^ q * (10680707 * 2 ^ 131)) (2 ^ 149) := rfl
      rw [e]
      have hd : 0 < 2 ^ 149 := by positivity
      rcases round_large false (k := 180) hd (by decide) (large_num hm) with g | ⟨m', q', g1, g2⟩
      · exact .inl g
      · have ov := round_overflow false (num := m * 2 ^ q * (10680707 * 2 ^ 131)) hd
        by_cases hn : (2 ^ 25 - 1) * (2 ^ 149 * 2 ^ 252) ≤ m * 2 ^ q * (10680707 * 2 ^ 131)
        · exact .inl (ov.1 hn)
        · refine .inr (.inr ⟨ov.2 (Nat.lt_of_not_le hn), ?_⟩)
          rw [g1, val_fin]
          rw [if_neg (by decide)]
          exact_mod_cast g2
    · exact .inl rfl
    · exact .inr (.inl rfl)
  rcases key with e | e | ⟨e1, e2⟩
  · rw [e]; rfl
  · rw [e]; rfl
  · obtain ⟨w, n, n1, n2, n3⟩ := (Props.C91_floor.1 _ e1).2.2.1
    rw [toInt_int w n1, if_neg]
    · rfl
    · intro hh
      have l : (n + 1) * (unit : Int) ≤ (2 ^ 31 : Nat) * unit := Int.mul_le_mul_of_nonneg_right (by omega) (by omega)
      have l' : ((2 ^ 31 : Nat) : Int) * unit = (2 ^ 180 : Nat) := by decide +kernel
      omega

end Verif.Trig
