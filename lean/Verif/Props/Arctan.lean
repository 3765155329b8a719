import Verif.Lemmas.AtanReal

/-!
# Properties of `Arctan` (C116 and C117)
-/

namespace Verif.Props

open Verif Verif.B32 Verif.MathFns Verif.Spec.F32 Verif.Trig
open Real (pi)

theorem lt_real {x y : Flt} (hx : Spec.F32.Finite x) (hy : Spec.F32.Finite y) : lt x y = true ↔ real x < real y := by
  rw [lt_spec hx hy, decide_eq_true_eq]
  unfold real
  rw [div_lt_div_iff_of_pos_right (by positivity)]
  exact_mod_cast Iff.rfl

theorem le_real {x y : Flt} (hx : Spec.F32.Finite x) (hy : Spec.F32.Finite y) : le x y = true ↔ real x ≤ real y := by
  have n : ∀ {z : Flt}, Spec.F32.Finite z → (z != .nan) = true := by
    rintro z ⟨s, m, q, rfl, -⟩; rfl
  have h1 := lt_real hx hy
  have h2 := lt_real hy hx
  unfold le MathFns.eq
  rw [n hx, n hy]
  rcases lt_trichotomy (real x) (real y) with h | h | h
  · rw [h1.2 h]; simp [h.le]
  · have a : lt x y = false := by rw [Bool.eq_false_iff]; intro g; rw [h1] at g; linarith
    have b : lt y x = false := by rw [Bool.eq_false_iff]; intro g; rw [h2] at g; linarith
    rw [a, b]; simp [h]
  · have a : lt x y = false := by rw [Bool.eq_false_iff]; intro g; rw [h1] at g; linarith
    rw [a, h2.2 h]; simp [h]

theorem tau4 : Approx tauOver4 (pi / 2) (5 / 10 ^ 8) := by
  have p1 := Real.pi_gt_d20
  have p2 := Real.pi_lt_d20
  exact lit_of (m := 13176795) (q := 126) (by decide +kernel) ⟨by decide, by decide, .inr (by decide)⟩ (by decide)
    (by rw [abs_le]; constructor <;> norm_num <;> linarith)

theorem tau2 : Approx tauOver2 pi (1 / 10 ^ 7) := by
  have p1 := Real.pi_gt_d20
  have p2 := Real.pi_lt_d20
  exact lit_of (m := 13176795) (q := 127) (by decide +kernel) ⟨by decide, by decide, .inr (by decide)⟩ (by decide)
    (by rw [abs_le]; constructor <;> norm_num <;> linarith)

/-- The sign of the argument, for an odd function. -/
theorem odd_approx {x r : Flt} {g : ℝ → ℝ} {d : ℝ} (hx : Spec.F32.Finite x) (hg : ∀ t, g (-t) = - g t) (h : Approx r (g |real x|) d) :
    Approx (oddSign x r) (g (real x)) d := by
  unfold oddSign
  by_cases hv : lt x zero = true
  · rw [if_pos hv]
    rw [lt_real hx finite_zero, real_zero] at hv
    rw [abs_of_neg hv, hg] at h
    have := h.neg
    rwa [neg_neg] at this
  · rw [if_neg hv]
    rw [lt_real hx finite_zero, real_zero, not_lt] at hv
    rwa [abs_of_nonneg hv] at h

/-- **C116**: `Arctan(x)` is defined for every float that is not NaN, and differs from the arctangent by at most `4 * 10^(-7)`; of
the infinities it is the float nearest to half of pi, with the sign. -/
theorem C116_arctan : (∀ x, Spec.F32.Finite x → ∃ r, arctan x = .ok r ∧ Approx r (Real.arctan (real x)) (4 / 10 ^ 7)) ∧
    (∃ r, arctan (.inf false) = .ok r ∧ arctan (.inf true) = .ok (B32.neg r) ∧ |real r - pi / 2| ≤ 5 / 10 ^ 8) := by
  refine ⟨fun x hx => ?_, tauOver4, by decide +kernel, by decide +kernel, tau4.2⟩
  obtain ⟨f1, f2⟩ := fabs_spec hx
  have fr := real_fabs hx
  have h0 := abs_nonneg (real x)
  unfold arctan
  by_cases hle : le (fabs x) one = true
  · rw [if_pos hle]
    rw [le_real f1 finite_one, fr, real_one] at hle
    obtain ⟨r, e, ha⟩ := atan_unit f1 (by rw [f2]; omega) (by rw [fr]; linarith)
    rw [fr] at ha
    exact ⟨_, by rw [e]; rfl, odd_approx (g := Real.arctan) hx Real.arctan_neg (ha.mono (by norm_num))⟩
  · rw [if_neg hle]
    rw [le_real f1 finite_one, fr, real_one, not_le] at hle
    have i0 : 0 < 1 / |real x| := by positivity
    have i1 : 1 / |real x| ≤ 1 := by rw [div_le_one (by linarith)]; exact hle.le
    have d := div_real finite_one f1 (by rw [fr]; linarith) (by rw [fr, real_one, abs_of_pos i0]; linarith [show (1 : ℝ) ≤ 2 ^ 127 by norm_num])
    rw [fr, real_one, abs_of_pos i0] at d
    have d2 : abs (real (B32.div one (fabs x)) - 1 / abs (real x)) ≤ 6 / 10 ^ 8 := by
      refine d.2.trans ?_
      unfold eps tiny
      norm_num at *
      linarith
    have v0 : 0 ≤ val (B32.div one (fabs x)) := by
      obtain ⟨s, m, q, rfl, hc⟩ := hx
      have e : one = .fin false 8388608 126 := by decide
      rw [e]
      show 0 ≤ val (if m = 0 then _ else _)
      split
      · rw [abs_real_fin] at hle
        rename_i hm
        subst hm
        norm_num at hle
      · exact round_nonneg _ _
    have d3 := abs_le.1 d2
    obtain ⟨r, e, ha⟩ := atan_unit d.1 v0 (by have := d3.2; norm_num at *; linarith)
    have ha' : Approx r (Real.arctan (1 / |real x|)) (23 / 10 ^ 8) := shifted ha ((atan_lip _ _).trans d2) (by norm_num)
    have inv := Real.arctan_inv_of_pos (show 0 < |real x| by linarith)
    rw [one_div, inv] at ha'
    have c := Approx.sub (e := 23 / 10 ^ 8) (158 / 100) (4 / 10 ^ 7) tau4 ha'
      (by rw [show pi / 2 - (pi / 2 - Real.arctan |real x|) = Real.arctan |real x| by ring, abs_of_nonneg (Real.arctan_nonneg.2 h0)]
          have := Real.arctan_lt_pi_div_two |real x|
          have := Real.pi_lt_d20
          norm_num at *
          linarith)
      (by norm_num) (by unfold eps; norm_num)
    rw [show pi / 2 - (pi / 2 - Real.arctan |real x|) = Real.arctan |real x| by ring] at c
    exact ⟨_, by rw [e]; rfl, odd_approx (g := Real.arctan) hx Real.arctan_neg c⟩

/-- `Arctan` of NaN converts a NaN to `int32`. -/
theorem C116_nan : arctan .nan = .ub := by decide +kernel

/-- `Arctan(1)` is the float nearest to a quarter of pi; `Arctan(-2)` is -1.1071488. -/
example : arctan one = .ok (.fin false 13176795 125) ∧ arctan (const 0xC0000000) = .ok (.fin true 9287437 126) := by
  constructor <;> decide +kernel

/-- A quotient with a relative error of `10^(-7)` has nearly the same arctangent. -/
theorem atan_rel {q t : ℝ} (ht : 1 ≤ |t|) (h : |q - t| ≤ 1 / 10 ^ 7 * |t|) : |Real.arctan q - Real.arctan t| ≤ 2 / 10 ^ 7 := by
  have pos : ∀ {q t : ℝ}, 1 ≤ t → |q - t| ≤ 1 / 10 ^ 7 * t → |Real.arctan q - Real.arctan t| ≤ 2 / 10 ^ 7 := by
    intro q t ht h
    have h' := abs_le.1 h
    have hq : t / 2 ≤ q := by
      have := h'.1
      norm_num at *
      linarith
    have hq0 : 0 < q := by linarith
    have ht0 : 0 < t := by linarith
    have i1 := Real.arctan_inv_of_pos hq0
    have i2 := Real.arctan_inv_of_pos ht0
    have l := atan_lip t⁻¹ q⁻¹
    rw [show Real.arctan q - Real.arctan t = Real.arctan t⁻¹ - Real.arctan q⁻¹ by rw [i1, i2]; ring]
    refine l.trans ?_
    rw [show t⁻¹ - q⁻¹ = (q - t) / (t * q) by field_simp, abs_div, abs_of_pos (mul_pos ht0 hq0), div_le_iff₀ (mul_pos ht0 hq0)]
    nlinarith
  rcases le_total 0 t with s | s
  · rw [abs_of_nonneg s] at ht h
    exact pos ht h
  · rw [abs_of_nonpos s] at ht h
    have := pos (q := -q) (t := -t) ht (by rw [← abs_neg]; convert h using 2; ring)
    rw [Real.arctan_neg, Real.arctan_neg, ← abs_neg] at this
    convert this using 2
    ring

/-- Beyond `2^100` the arctangent is half of pi. -/
theorem atan_large {t : ℝ} (ht : 2 ^ 100 ≤ t) : |Real.arctan t - pi / 2| ≤ 1 / 2 ^ 100 := by
  have ht0 : 0 < t := lt_of_lt_of_le (by positivity) ht
  have i := Real.arctan_inv_of_pos ht0
  have l := atan_lip 0 t⁻¹
  rw [Real.arctan_zero, i] at l
  rw [show Real.arctan t - pi / 2 = 0 - (pi / 2 - Real.arctan t) by ring]
  refine l.trans ?_
  rw [zero_sub, abs_neg, abs_of_pos (by positivity), inv_eq_one_div]
  exact one_div_le_one_div_of_le (by positivity) ht

theorem sign_xor (s s' : Bool) (a b : ℝ) : (if s then -1 else 1) * a / ((if s' then -1 else 1) * b) = (if s != s' then -1 else 1) * (a / b) := by
  cases s <;> cases s' <;> simp [neg_div, div_neg]

/-- The arctangent of a quotient, with overflow and underflow of the division. -/
theorem quot_arctan {y x : Flt} (hy : Spec.F32.Finite y) (hx : Spec.F32.Finite x) (h0 : real x ≠ 0) :
    ∃ r, arctan (B32.div y x) = .ok r ∧ Approx r (Real.arctan (real y / real x)) (6 / 10 ^ 7) := by
  by_cases hb : |real y / real x| ≤ 2 ^ 127
  · obtain ⟨f, d⟩ := div_real hy hx h0 hb
    obtain ⟨r, e, ha⟩ := C116_arctan.1 _ f
    refine ⟨r, e, shifted (e := 2 / 10 ^ 7) ha ?_ (by norm_num)⟩
    rcases le_total 1 |real y / real x| with h | h
    · refine atan_rel h (d.trans ?_)
      unfold eps tiny
      norm_num at *
      linarith
    · refine (atan_lip _ _).trans (d.trans ?_)
      unfold eps tiny
      norm_num at *
      linarith
  · rw [not_le] at hb
    obtain ⟨s, m, q, rfl, hc⟩ := hy
    obtain ⟨s', m', q', rfl, hc'⟩ := hx
    have hm : m' ≠ 0 := by
      rintro rfl
      apply h0
      rw [real_fin]; simp
    have hp : 0 < m' * 2 ^ q' := by positivity
    have hp' : (0 : ℝ) < ((m' * 2 ^ q' : Nat) : ℝ) := by exact_mod_cast hp
    have ht : real (.fin s m q) / real (.fin s' m' q') = (if s != s' then -1 else 1) * (((m * 2 ^ q : Nat) : ℝ) / ((m' * 2 ^ q' : Nat) : ℝ)) := by
      rw [real_fin, real_fin, sign_xor]
      congr 1
      field_simp
    have hbig : (2 : ℝ) ^ 127 < ((m * 2 ^ q : Nat) : ℝ) / ((m' * 2 ^ q' : Nat) : ℝ) := by
      rw [ht, abs_mul, abs_of_nonneg (show (0 : ℝ) ≤ ((m * 2 ^ q : Nat) : ℝ) / ((m' * 2 ^ q' : Nat) : ℝ) by positivity)] at hb
      cases hs : (s != s') <;> rw [hs] at hb <;> simpa using hb
    have hn : 2 ^ 276 * (m' * 2 ^ q') ≤ m * 2 ^ q * 2 ^ 149 := by
      rw [lt_div_iff₀ hp'] at hbig
      have h2 : 2 ^ 127 * (m' * 2 ^ q') < m * 2 ^ q := by exact_mod_cast hbig
      generalize m' * 2 ^ q' = B at *
      generalize m * 2 ^ q = A at *
      rw [show (2 : Nat) ^ 276 = 2 ^ 149 * 2 ^ 127 by rw [← Nat.pow_add], Nat.mul_assoc, Nat.mul_comm A]
      exact Nat.mul_le_mul (Nat.le_refl _) h2.le
    have hdiv : B32.div (.fin s m q) (.fin s' m' q') = B32.round (s != s') (m * 2 ^ q * 2 ^ 149) (m' * 2 ^ q') := by
      show (if m' = 0 then _ else _) = _
      rw [if_neg hm]
    rw [hdiv, ht]
    have goal : ∀ {r : Flt} {σ : Bool} {t d : ℝ}, Approx r ((if σ then -1 else 1) * (pi / 2)) d → 2 ^ 100 ≤ t → d ≤ 5 / 10 ^ 7 →
        Approx r (Real.arctan ((if σ then -1 else 1) * t)) (6 / 10 ^ 7) := by
      intro r σ t d hr h hd
      have l := atan_large h
      have k : (1 : ℝ) / 2 ^ 100 ≤ 1 / 10 ^ 7 := by norm_num
      refine shifted (e := 1 / 10 ^ 7) hr ?_ (by norm_num at *; linarith)
      cases σ
      · simp only [Bool.false_eq_true, if_false, one_mul]
        rw [abs_sub_comm]
        exact l.trans k
      · simp only [if_true, neg_one_mul, Real.arctan_neg]
        rw [show -(pi / 2) - -Real.arctan t = Real.arctan t - pi / 2 by ring]
        exact l.trans k
    have h100 : (2 : ℝ) ^ 100 ≤ ((m * 2 ^ q : Nat) : ℝ) / ((m' * 2 ^ q' : Nat) : ℝ) := le_trans (by norm_num) hbig.le
    have hinf : ∀ σ, ∃ r, arctan (.inf σ) = .ok r ∧ Approx r ((if σ then -1 else 1) * (pi / 2)) (5 / 10 ^ 8) := by
      intro σ
      cases σ
      · exact ⟨tauOver4, by decide +kernel, by simpa using tau4⟩
      · exact ⟨B32.neg tauOver4, by decide +kernel, by simpa using tau4.neg⟩
    obtain ⟨o1, o2⟩ := round_overflow (s != s') (num := m * 2 ^ q * 2 ^ 149) hp
    have hl := round_large (s != s') hp (by decide) hn
    generalize B32.round (s != s') (m * 2 ^ q * 2 ^ 149) (m' * 2 ^ q') = z at *
    rcases hl with rfl | ⟨M, Q, rfl, hM⟩
    · obtain ⟨r, e, ha⟩ := hinf (s != s')
      exact ⟨r, e, goal ha h100 (by norm_num)⟩
    · have hf : Spec.F32.Finite (.fin (s != s') M Q) := by
        apply o2
        by_contra g
        have := o1 (by omega)
        cases this
      obtain ⟨r, e, ha⟩ := C116_arctan.1 _ hf
      have hM' : (2 : ℝ) ^ 100 ≤ ((M * 2 ^ Q : Nat) : ℝ) / 2 ^ 149 := by
        rw [le_div_iff₀ (by positivity)]
        have : (2 : ℝ) ^ 276 ≤ ((M * 2 ^ Q : Nat) : ℝ) := by exact_mod_cast hM
        refine le_trans ?_ this
        rw [← pow_add]
        exact pow_le_pow_right₀ (by norm_num) (by norm_num)
      refine ⟨r, e, goal (d := 5 / 10 ^ 7) ?_ h100 (le_refl _)⟩
      rw [real_fin] at ha
      have l := atan_large hM'
      have k : (1 : ℝ) / 2 ^ 100 ≤ 1 / 10 ^ 7 := by norm_num
      refine shifted (e := 1 / 10 ^ 7) ha ?_ (by norm_num)
      cases (s != s')
      · simp only [Bool.false_eq_true, if_false, one_mul]
        exact l.trans k
      · simp only [if_true, neg_one_mul, Real.arctan_neg]
        rw [abs_sub_comm, show -(pi / 2) - -Real.arctan (((M * 2 ^ Q : Nat) : ℝ) / 2 ^ 149) = Real.arctan (((M * 2 ^ Q : Nat) : ℝ) / 2 ^ 149) - pi / 2 by ring]
        exact l.trans k

/-- `θ` is the angle, between minus pi (excluded) and pi, of the point with coordinates `x` and `y`. -/
def IsAngle (θ x y : ℝ) : Prop := -pi < θ ∧ θ ≤ pi ∧ ∃ ρ, 0 < ρ ∧ x = ρ * Real.cos θ ∧ y = ρ * Real.sin θ

/-- The statement of C117: for two finite floats, not both zero, `Arctan(y, x)` is the angle of the point `(x, y)`, with an error of at
most `10^(-6)`. -/
def C117_statement : Prop := ∀ y x, Spec.F32.Finite y → Spec.F32.Finite x → (real x ≠ 0 ∨ real y ≠ 0) →
    ∃ r θ, arctan2 y x = .ok r ∧ IsAngle θ (real x) (real y) ∧ Approx r θ (1 / 10 ^ 6)

theorem angle_right {x y : ℝ} (hx : 0 < x) : IsAngle (Real.arctan (y / x)) x y := by
  have p := Real.pi_pos
  have a := Real.arctan_lt_pi_div_two (y / x)
  have b := Real.neg_pi_div_two_lt_arctan (y / x)
  have hs : 0 < Real.sqrt (1 + (y / x) ^ 2) := Real.sqrt_pos.2 (by positivity)
  refine ⟨by linarith, by linarith, x * Real.sqrt (1 + (y / x) ^ 2), by positivity, ?_, ?_⟩
  · rw [Real.cos_arctan]; field_simp
  · rw [Real.sin_arctan]; field_simp

theorem atan_nonpos {t : ℝ} (h : t ≤ 0) : Real.arctan t ≤ 0 := by
  have := Real.arctan_nonneg.2 (neg_nonneg.2 h)
  rw [Real.arctan_neg] at this
  linarith

theorem angle_left_up {x y : ℝ} (hx : x < 0) (hy : 0 ≤ y) : IsAngle (Real.arctan (y / x) + pi) x y := by
  have p := Real.pi_pos
  have a : Real.arctan (y / x) ≤ 0 := atan_nonpos (div_nonpos_of_nonneg_of_nonpos hy hx.le)
  have b := Real.neg_pi_div_two_lt_arctan (y / x)
  have hs : 0 < Real.sqrt (1 + (y / x) ^ 2) := Real.sqrt_pos.2 (by positivity)
  have hx' : x ≠ 0 := hx.ne
  refine ⟨by linarith, by linarith, -x * Real.sqrt (1 + (y / x) ^ 2), mul_pos (by linarith) hs, ?_, ?_⟩
  · rw [Real.cos_add_pi, Real.cos_arctan]; field_simp
  · rw [Real.sin_add_pi, Real.sin_arctan]; field_simp

theorem angle_left_down {x y : ℝ} (hx : x < 0) (hy : y < 0) : IsAngle (Real.arctan (y / x) - pi) x y := by
  have p := Real.pi_pos
  have a : 0 < Real.arctan (y / x) := Real.arctan_pos.2 (div_pos_of_neg_of_neg hy hx)
  have b := Real.arctan_lt_pi_div_two (y / x)
  have hs : 0 < Real.sqrt (1 + (y / x) ^ 2) := Real.sqrt_pos.2 (by positivity)
  have hx' : x ≠ 0 := hx.ne
  refine ⟨by linarith, by linarith, -x * Real.sqrt (1 + (y / x) ^ 2), mul_pos (by linarith) hs, ?_, ?_⟩
  · rw [Real.cos_sub_pi, Real.cos_arctan]; field_simp
  · rw [Real.sin_sub_pi, Real.sin_arctan]; field_simp

theorem angle_up {x y : ℝ} (hy : 0 < y) : IsAngle (pi / 2 - Real.arctan (x / y)) x y := by
  have p := Real.pi_pos
  have a := Real.arctan_lt_pi_div_two (x / y)
  have b := Real.neg_pi_div_two_lt_arctan (x / y)
  have hs : 0 < Real.sqrt (1 + (x / y) ^ 2) := Real.sqrt_pos.2 (by positivity)
  refine ⟨by linarith, by linarith, y * Real.sqrt (1 + (x / y) ^ 2), by positivity, ?_, ?_⟩
  · rw [Real.cos_pi_div_two_sub, Real.sin_arctan]; field_simp
  · rw [Real.sin_pi_div_two_sub, Real.cos_arctan]; field_simp

theorem angle_down {x y : ℝ} (hy : y < 0) : IsAngle (-(pi / 2) - Real.arctan (x / y)) x y := by
  have p := Real.pi_pos
  have a := Real.arctan_lt_pi_div_two (x / y)
  have b := Real.neg_pi_div_two_lt_arctan (x / y)
  have hs : 0 < Real.sqrt (1 + (x / y) ^ 2) := Real.sqrt_pos.2 (by positivity)
  have hy' : y ≠ 0 := hy.ne
  have e : -(pi / 2) - Real.arctan (x / y) = -(pi / 2 - -Real.arctan (x / y)) := by ring
  refine ⟨by linarith, by linarith, -y * Real.sqrt (1 + (x / y) ^ 2), mul_pos (by linarith) hs, ?_, ?_⟩
  · rw [e, Real.cos_neg, Real.cos_pi_div_two_sub, Real.sin_neg, Real.sin_arctan]; field_simp
  · rw [e, Real.sin_neg, Real.sin_pi_div_two_sub, Real.cos_neg, Real.cos_arctan]; field_simp

theorem IsAngle.unique {θ θ' x y : ℝ} (h : IsAngle θ x y) (h' : IsAngle θ' x y) : θ = θ' := by
  obtain ⟨a, b, ρ, r0, c, s⟩ := h
  obtain ⟨a', b', ρ', r0', c', s'⟩ := h'
  have q : ρ ^ 2 = x ^ 2 + y ^ 2 := by
    have := Real.sin_sq_add_cos_sq θ
    rw [c, s]; nlinarith
  have q' : ρ' ^ 2 = x ^ 2 + y ^ 2 := by
    have := Real.sin_sq_add_cos_sq θ'
    rw [c', s']; nlinarith
  have e : ρ = ρ' := by nlinarith
  subst e
  have k : Real.cos (θ - θ') = 1 := by
    rw [Real.cos_sub]
    have e1 : Real.cos θ = Real.cos θ' := mul_left_cancel₀ r0.ne' (c.symm.trans c')
    have e2 : Real.sin θ = Real.sin θ' := mul_left_cancel₀ r0.ne' (s.symm.trans s')
    rw [e1, e2]
    have := Real.sin_sq_add_cos_sq θ'
    nlinarith
  have := (Real.cos_eq_one_iff_of_lt_of_lt (x := θ - θ') (by linarith) (by linarith)).1 k
  linarith

theorem least : Spec.F32.Finite (const 0x00800000) ∧ real (const 0x00800000) = 1 / 2 ^ 126 := by
  have e : const 0x00800000 = .fin false 8388608 0 := by decide
  rw [e]
  refine ⟨⟨_, _, _, rfl, by decide, by decide, .inl rfl⟩, ?_⟩
  rw [real_fin]
  norm_num

theorem ratio_small {a b : ℝ} (ha : |a| ≤ 1 / 2 ^ 126) (hb : 1 / 2 ^ 104 ≤ |b|) : |Real.arctan (a / b)| ≤ 3 / 10 ^ 7 := by
  have h := atan_lip (a / b) 0
  rw [Real.arctan_zero, sub_zero, sub_zero] at h
  refine h.trans ?_
  have hb0 : 0 < |b| := lt_of_lt_of_le (by positivity) hb
  rw [abs_div, div_le_iff₀ hb0]
  have : (1 : ℝ) / 2 ^ 126 ≤ 3 / 10 ^ 7 * (1 / 2 ^ 104) := by norm_num
  nlinarith

/-- **C117**, partially: `Arctan(y, x)` is the angle of the point `(x, y)`, with an error of at most `10^(-6)`, when both coordinates
exceed `2^(-126)` in magnitude, and also when only one of them does and that one is at least `2^(-104)`; except that a negative `y` of
magnitude at most `2^(-126)` must not meet a negative `x`. -/
theorem C117_arctan2_partial (y x : Flt) (hy : Spec.F32.Finite y) (hx : Spec.F32.Finite x)
    (h : (1 / 2 ^ 126 < |real x| ∧ 1 / 2 ^ 126 < |real y|) ∨
      (|real x| ≤ 1 / 2 ^ 126 ∧ 1 / 2 ^ 104 ≤ |real y|) ∨
      (|real y| ≤ 1 / 2 ^ 126 ∧ 1 / 2 ^ 104 ≤ |real x| ∧ (0 < real x ∨ 0 ≤ real y))) :
    ∃ r θ, arctan2 y x = .ok r ∧ IsAngle θ (real x) (real y) ∧ Approx r θ (1 / 10 ^ 6) := by
  obtain ⟨fx, -⟩ := fabs_spec hx
  obtain ⟨fy, -⟩ := fabs_spec hy
  have lx := lt_real least.1 fx
  have ly := lt_real least.1 fy
  have nx := lt_real hx finite_zero
  have ny := lt_real hy finite_zero
  have py := le_real finite_zero hy
  rw [least.2, real_fabs hx] at lx
  rw [least.2, real_fabs hy] at ly
  rw [real_zero] at nx ny py
  have p1 := Real.pi_gt_d20
  have p2 := Real.pi_lt_d20
  have g : (1 : ℝ) / 2 ^ 126 < 1 / 2 ^ 104 := by norm_num
  unfold arctan2
  rcases h with ⟨h1, h2⟩ | ⟨h1, h2⟩ | ⟨h1, h2, h3⟩
  · have x0 : real x ≠ 0 := by
      rw [← abs_pos]
      exact lt_trans (by positivity) h1
    have y0 : real y ≠ 0 := by
      rw [← abs_pos]
      exact lt_trans (by positivity) h2
    rw [if_pos (ly.2 h2), if_pos (lx.2 h1)]
    obtain ⟨r, e, ha⟩ := quot_arctan hy hx x0
    rw [e, Out.ok_bind]
    rcases lt_or_gt_of_ne x0 with s | s
    · rw [if_pos (nx.2 s)]
      rcases le_or_gt 0 (real y) with s' | s'
      · rw [if_pos (py.2 s')]
        refine ⟨_, _, rfl, angle_left_up s s', ha.add (315 / 100) _ tau2 ?_ (by norm_num) (by unfold eps; norm_num)⟩
        have a : Real.arctan (real y / real x) ≤ 0 := atan_nonpos (div_nonpos_of_nonneg_of_nonpos s' s.le)
        have b := Real.neg_pi_div_two_lt_arctan (real y / real x)
        have p3 : pi < 315 / 100 := by norm_num at p2 ⊢; linarith
        rw [abs_le]; constructor <;> linarith
      · rw [if_neg (by rw [py]; linarith)]
        refine ⟨_, _, rfl, angle_left_down s s', ha.sub (315 / 100) _ tau2 ?_ (by norm_num) (by unfold eps; norm_num)⟩
        have a : 0 < Real.arctan (real y / real x) := Real.arctan_pos.2 (div_pos_of_neg_of_neg s' s)
        have b := Real.arctan_lt_pi_div_two (real y / real x)
        have p3 : pi < 315 / 100 := by norm_num at p2 ⊢; linarith
        rw [abs_le]; constructor <;> linarith
    · rw [if_neg (by rw [nx]; linarith)]
      exact ⟨_, _, rfl, angle_right s, ha.mono (by norm_num)⟩
  · have y0 : real y ≠ 0 := by
      rw [← abs_pos]
      exact lt_of_lt_of_le (by positivity) h2
    rw [if_pos (ly.2 (lt_of_lt_of_le g h2)), if_neg (by rw [lx]; linarith)]
    have l := ratio_small h1 h2
    rcases lt_or_gt_of_ne y0 with s | s
    · rw [if_pos (ny.2 s)]
      refine ⟨_, _, rfl, angle_down s, shifted (e := 3 / 10 ^ 7) tau4.neg ?_ (by norm_num)⟩
      convert l using 2; ring
    · rw [if_neg (by rw [ny]; linarith)]
      refine ⟨_, _, rfl, angle_up s, shifted (e := 3 / 10 ^ 7) tau4 ?_ (by norm_num)⟩
      convert l using 2; ring
  · have x0 : real x ≠ 0 := by
      rw [← abs_pos]
      exact lt_of_lt_of_le (by positivity) h2
    rw [if_neg (by rw [ly]; linarith)]
    have l := ratio_small h1 h2
    rcases lt_or_gt_of_ne x0 with s | s
    · rw [if_pos (nx.2 s)]
      refine ⟨_, _, rfl, angle_left_up s (by rcases h3 with h | h <;> linarith), shifted (e := 3 / 10 ^ 7) tau2 ?_ (by norm_num)⟩
      rw [← abs_neg]
      convert l using 2; ring
    · rw [if_neg (by rw [nx]; linarith)]
      refine ⟨_, _, rfl, angle_right s, shifted (e := 3 / 10 ^ 7) (Approx.exact finite_zero) ?_ (by norm_num)⟩
      rw [real_zero, ← abs_neg]
      convert l using 2; ring

/-- On the axes. -/
theorem C117_axes (x : Flt) (hx : Spec.F32.Finite x) :
    (1 / 2 ^ 126 < real x → arctan2 x zero = .ok tauOver4) ∧ (real x < -(1 / 2 ^ 126) → arctan2 x zero = .ok (B32.neg tauOver4)) ∧
    (0 ≤ real x → arctan2 zero x = .ok zero) ∧ (real x < 0 → arctan2 zero x = .ok tauOver2 ∧ arctan2 (B32.neg zero) x = .ok tauOver2) := by
  obtain ⟨fx, -⟩ := fabs_spec hx
  have lx := lt_real least.1 fx
  have nx := lt_real hx finite_zero
  rw [least.2, real_fabs hx] at lx
  rw [real_zero] at nx
  have z : lt (const 0x00800000) (fabs zero) = false := by decide
  have z' : lt (const 0x00800000) (fabs (B32.neg zero)) = false := by decide
  have t : (0 : ℝ) < 1 / 2 ^ 126 := by positivity
  refine ⟨fun h => ?_, fun h => ?_, fun h => ?_, fun h => ?_⟩
  · unfold arctan2
    rw [z, if_pos (lx.2 (lt_of_lt_of_le h (le_abs_self _))), if_neg (by decide), if_neg (by rw [nx]; linarith)]
  · unfold arctan2
    rw [z, if_pos (lx.2 (by rw [abs_of_neg (by linarith)]; linarith)), if_neg (by decide), if_pos (nx.2 (by linarith))]
  · unfold arctan2
    rw [z, if_neg (by decide), if_neg (by rw [nx]; linarith)]
  · unfold arctan2
    rw [z, z', if_neg (by decide), if_pos (nx.2 h)]
    exact ⟨rfl, rfl⟩

/-- The angle of a point with two infinite coordinates divides infinity by infinity, and converts the NaN to `int32`. -/
theorem C117_undefined (s s' : Bool) : arctan2 (.inf s) (.inf s') = .ub := by
  cases s <;> cases s' <;> decide +kernel

/-- The point straight above the origin at the height `2^(-126)`, which is a normal float, has the angle zero. Just below the negative
half of the axis, at the height `-2^(-126)`, the angle has the wrong sign. -/
theorem C117_violated : ¬ C117_statement ∧
    arctan2 (const 0x00800000) zero = .ok zero ∧ IsAngle (pi / 2) (real zero) (real (const 0x00800000)) ∧
    arctan2 (B32.neg (const 0x00800000)) (B32.neg one) = .ok tauOver2 ∧
    ∃ θ, θ < -(pi / 2) ∧ IsAngle θ (real (B32.neg one)) (real (B32.neg (const 0x00800000))) := by
  have v1 : arctan2 (const 0x00800000) zero = .ok zero := by decide +kernel
  have v2 : arctan2 (B32.neg (const 0x00800000)) (B32.neg one) = .ok tauOver2 := by decide +kernel
  have hp : (0 : ℝ) < real (const 0x00800000) := by rw [least.2]; positivity
  have a1 : IsAngle (pi / 2) (real zero) (real (const 0x00800000)) := by
    have := angle_up (x := real zero) hp
    rwa [real_zero, zero_div, Real.arctan_zero, sub_zero, ← real_zero] at this
  refine ⟨fun h => ?_, v1, a1, v2, ?_⟩
  · obtain ⟨r, θ, e, hθ, ha⟩ := h _ _ least.1 finite_zero (.inr hp.ne')
    rw [v1] at e
    cases e
    rw [hθ.unique a1] at ha
    have := abs_le.1 ha.2
    rw [real_zero] at this
    have p := Real.pi_gt_three
    have := this.1
    norm_num at this
    linarith
  · have hn : real (B32.neg one) < 0 := by
      rw [real_neg, real_one]; norm_num
    have hy : real (B32.neg (const 0x00800000)) < 0 := by rw [real_neg]; linarith
    refine ⟨_, ?_, angle_left_down hn hy⟩
    have := Real.arctan_lt_pi_div_two (real (B32.neg (const 0x00800000)) / real (B32.neg one))
    linarith

/-- The angle of the point (-1, 1) is three quarters of pi; of (-1, -1) its opposite; the premise of the theorem holds. -/
example : arctan2 one (B32.neg one) = .ok (.fin false 9882596 127) ∧ arctan2 (B32.neg one) (B32.neg one) = .ok (.fin true 9882596 127) ∧
    1 / 2 ^ 126 < |real one| := by
  refine ⟨by decide +kernel, by decide +kernel, ?_⟩
  rw [real_one]; norm_num

end Verif.Props
