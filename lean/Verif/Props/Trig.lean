import Verif.Lemmas.TrigReal

/-!
# Properties of `Sin`, `Cos`, `CosSin` and `Tan` (C111 to C113)
-/

namespace Verif.Props

open Verif Verif.B32 Verif.MathFns Verif.Spec.F32 Verif.Trig

/-- The error that is expected of a sine or cosine of `x`: a constant, and a share that is due to reducing the argument in
single precision. -/
noncomputable def trigError (x : Flt) (d : ℝ) : ℝ := d + 2 / 10 ^ 7 * |real x|

/-- **C111**: `Sin(x)` and `Cos(x)` of a finite float, compiled for SSE, are finite floats that differ from the sine and cosine
of `x` by at most `10^(-6) + 2 * 10^(-7) * |x|`, and `CosSin` stores the same floats. -/
def C111_statement : Prop := ∀ x, Spec.F32.Finite x →
  Approx (Trig.sin x) (Real.sin (real x)) (trigError x (1 / 10 ^ 6)) ∧
  Approx (Trig.cos x) (Real.cos (real x)) (trigError x (1 / 10 ^ 6)) ∧
  cosSin x = (Trig.cos x, Trig.sin x)

/-- C111 with an error of `3 * 10^(-6)` for arguments up to 200000. -/
theorem C111_sin_partial {x : Flt} (hx : Spec.F32.Finite x) (h : |real x| ≤ 200000) :
    Approx (Trig.sin x) (Real.sin (real x)) (trigError x (3 / 10 ^ 6)) ∧
    Approx (Trig.cos x) (Real.cos (real x)) (trigError x (3 / 10 ^ 6)) := by
  obtain ⟨a1, a2⟩ := simd_accurate hx h
  rw [Real.cos_abs] at a2
  exact ⟨oddSign_approx hx a1, a2⟩

/-- `CosSin` gives the results of `Cos` and `Sin`, for all floats. -/
theorem C111_both (x : Flt) : cosSin x = (Trig.cos x, Trig.sin x) := rfl

/-- `Cos` is even and `Sin` is odd, apart from the sign of zero. -/
theorem C111_symmetry {x : Flt} (hv : Valid x) : Trig.cos (B32.neg x) = Trig.cos x ∧
    ((Spec.F32.Finite x → val x ≠ 0) → Trig.sin (B32.neg x) = B32.neg (Trig.sin x)) := by
  have e : fabs (B32.neg x) = fabs x := by cases x <;> rfl
  have ec : cosine (B32.neg x) = cosine x := by unfold cosine beta whole turns; rw [e]
  have es : sine (B32.neg x) = sine x := by unfold sine beta whole turns; rw [e]
  refine ⟨ec, fun h => ?_⟩
  unfold Trig.sin oddSign
  rw [es]
  rcases hv with hx | ⟨s, rfl⟩ | rfl
  · have h0 := h hx
    have hn : Spec.F32.Finite (B32.neg x) ∧ val (B32.neg x) = - val x := by
      obtain ⟨s, m, q, rfl, hc⟩ := hx
      refine ⟨⟨!s, m, q, rfl, hc⟩, ?_⟩
      have : B32.neg (.fin s m q) = .fin (!s) m q := rfl
      rw [this, val_fin, val_fin]
      cases s <;> simp
    rw [lt_spec hn.1 finite_zero, lt_spec hx finite_zero, val_zero, hn.2]
    have nn : ∀ y : Flt, B32.neg (B32.neg y) = y := by intro y; cases y <;> simp [B32.neg]
    by_cases hl : val x < 0
    · rw [if_neg (by simp; omega), if_pos (by simpa using hl), nn]
    · rw [if_pos (by simp; omega), if_neg (by simpa using hl)]
  · cases s <;> decide +kernel
  · decide +kernel

/-- The sine of both zeros is positive zero, the cosine is one. -/
theorem C111_zero : ∀ x ∈ [zero, B32.neg zero], Trig.sin x = zero ∧ Trig.cos x = one := by decide +kernel

/-- The sine and cosine of an infinity or NaN is NaN. -/
theorem C111_special : ∀ x ∈ [.inf false, .inf true, .nan], Trig.sin x = .nan ∧ Trig.cos x = .nan := by decide +kernel

/-- 6898179375104. -/
def large : Flt := .fin false 13157233 168

/-- `Sin(6898179375104.0F)` is less than `-10^27`. -/
theorem C111_unbounded : Spec.F32.Finite large ∧ Spec.F32.Finite (Trig.sin large) ∧ real (Trig.sin large) < -10 ^ 27 := by
  have e : Trig.sin large = .fin true 13370206 216 := by decide +kernel
  refine ⟨⟨_, _, _, rfl, by decide, by decide, .inr (by decide)⟩, ?_, ?_⟩ <;> rw [e]
  · exact ⟨_, _, _, rfl, by decide, by decide, .inr (by decide)⟩
  · rw [real_fin]
    norm_num

/-- About 0.0245. -/
def smallAngle : Flt := .fin false 13153337 120

/-- At 0.0245 the error is more than `2.3 * 10^(-6)`: `Sin` uses the coefficients `1/6` and `1/120` in the wrong order. -/
theorem C111_coefficients : Spec.F32.Finite smallAngle ∧ real smallAngle ≤ 25 / 1000 ∧ 23 / 10 ^ 7 < real (Trig.sin smallAngle) - Real.sin (real smallAngle) := by
  have e : Trig.sin smallAngle = .fin false 13153272 120 := by decide +kernel
  have r : real smallAngle = 13153337 / 2 ^ 29 := by unfold smallAngle; rw [real_fin]; norm_num
  refine ⟨⟨_, _, _, rfl, by decide, by decide, .inr (by decide)⟩, by rw [r]; norm_num, ?_⟩
  rw [e, r, real_fin]
  have s := Real.sin_bound (x := 13153337 / 2 ^ 29) (by rw [abs_le]; constructor <;> norm_num)
  rw [abs_of_nonneg (show (0 : ℝ) ≤ 13153337 / 2 ^ 29 by positivity), abs_le] at s
  norm_num at *
  linarith

theorem C111_violated : ¬ C111_statement := by
  intro h
  obtain ⟨c1, c2, c3⟩ := C111_coefficients
  have := (h _ c1).1.2
  unfold trigError at this
  have h0 : 0 ≤ real smallAngle := by unfold smallAngle; rw [real_fin]; norm_num
  rw [abs_of_nonneg h0, abs_le] at this
  norm_num at *
  linarith

/-- `Sin(1)` is `0x3F576AAD`, near 0.8414. -/
example : toBits (Trig.sin one) = 0x3F576AAD ∧ toBits (Trig.cos one) = 0x3F0A5132 ∧
    |real (Trig.sin one) - Real.sin 1| ≤ 32 / 10 ^ 7 := by
  refine ⟨by decide +kernel, by decide +kernel, ?_⟩
  have := (C111_sin_partial finite_one (by rw [real_one]; norm_num)).1.2
  unfold trigError at this
  rw [real_one] at this
  refine this.trans ?_
  norm_num

/-- **C112**: without SIMD, `Sin`, `Cos` and `CosSin` are defined for all finite floats, and their results differ from the sine
and cosine of `x` by at most `10^(-6) + 2 * 10^(-7) * |x|`. -/
def C112_statement : Prop := ∀ x, Spec.F32.Finite x → ∃ s c, sinPlain x = .ok s ∧ cosPlain x = .ok c ∧ cosSinPlain x = .ok (c, s) ∧
  Approx s (Real.sin (real x)) (trigError x (1 / 10 ^ 6)) ∧ Approx c (Real.cos (real x)) (trigError x (1 / 10 ^ 6))

/-- C112 for arguments up to fifty million, with an error of `4 * 10^(-7)` only. -/
theorem C112_sin_partial {x : Flt} (hx : Spec.F32.Finite x) (h : |real x| ≤ 5 * 10 ^ 7) :
    ∃ s c, sinPlain x = .ok s ∧ cosPlain x = .ok c ∧ cosSinPlain x = .ok (c, s) ∧
      Approx s (Real.sin (real x)) (trigError x (4 / 10 ^ 7)) ∧ Approx c (Real.cos (real x)) (trigError x (4 / 10 ^ 7)) := by
  obtain ⟨n, e, a1, a2⟩ := plain_accurate hx h
  rw [Real.cos_abs] at a2
  refine ⟨_, _, ?_, ?_, ?_, oddSign_approx hx a1, a2⟩
  · unfold sinPlain; rw [e]; rfl
  · unfold cosPlain; rw [e]; rfl
  · unfold cosSinPlain; rw [e]; rfl

/-- From 53 million on, and for infinities and NaN, all four functions are undefined. -/
theorem C112_undefined {x : Flt} (hv : Valid x) (h : Spec.F32.Finite x → 53000000 ≤ |real x|) :
    sinPlain x = .ub ∧ cosPlain x = .ub ∧ cosSinPlain x = .ub ∧ tanPlain x = .ub := by
  have e := plain_undefined hv h
  unfold sinPlain cosPlain cosSinPlain tanPlain
  rw [e]
  exact ⟨rfl, rfl, rfl, rfl⟩

theorem C112_violated : ¬ C112_statement := by
  intro h
  have hf : Spec.F32.Finite large := C111_unbounded.1
  obtain ⟨s, c, h1, -⟩ := h large hf
  have : 53000000 ≤ |real large| := by unfold large; rw [abs_real_fin]; norm_num
  rw [(C112_undefined (.inl hf) (fun _ => this)).1] at h1
  cases h1

/-- Without SIMD the sine of one is the nearest float. -/
example : (sinPlain one >>= fun r => .ok (toBits r)) = .ok 0x3F576AA4 ∧ sinPlain large = .ub := by
  constructor <;> decide +kernel

/-- **C113**: `Tan(x)` of a finite float is a finite float; it differs from the tangent by at most
`3 * (10^(-6) + 2 * 10^(-7) * |x|) * (1 + |tan x|) / |cos x|`, if this error is small against the cosine. -/
def C113_statement : Prop := ∀ x, Spec.F32.Finite x → Spec.F32.Finite (Trig.tan x) ∧
  (2 * trigError x (1 / 10 ^ 6) ≤ |Real.cos (real x)| →
    |real (Trig.tan x) - Real.tan (real x)| ≤ 3 * trigError x (1 / 10 ^ 6) * (1 + |Real.tan (real x)|) / |Real.cos (real x)|)

theorem quotient_error {x s c : Flt} {d : ℝ} (hx : Spec.F32.Finite x) (hs : Approx s (Real.sin |real x|) d) (hc : Approx c (Real.cos |real x|) d)
    (h1 : 4 / 10 ^ 7 ≤ d) (h2 : 2 * d ≤ |Real.cos (real x)|) :
    Approx (oddSign x (B32.div s c)) (Real.tan (real x)) (3 * d * (1 + |Real.tan (real x)|) / |Real.cos (real x)|) := by
  have hB : abs (Real.cos |real x|) = |Real.cos (real x)| := by rw [Real.cos_abs]
  have hA : abs (Real.tan |real x|) = |Real.tan (real x)| := by
    rcases abs_cases (real x) with ⟨e, -⟩ | ⟨e, -⟩ <;> rw [e]
    rw [Real.tan_neg, abs_neg]
  have c1 := Real.abs_cos_le_one (real x)
  have c0 : 0 < |Real.cos (real x)| := by linarith
  have tA : |Real.tan (real x)| * |Real.cos (real x)| ≤ 1 := by
    rw [← abs_mul, Real.tan_mul_cos (abs_pos.1 c0)]
    exact Real.abs_sin_le_one _
  have t0 := abs_nonneg (Real.tan (real x))
  have key : Approx (B32.div s c) (Real.tan |real x|) (3 * d * (1 + |Real.tan (real x)|) / |Real.cos (real x)|) := by
    rw [Real.tan_eq_sin_div_cos]
    rw [Real.tan_eq_sin_div_cos |real x|] at hA
    have q1 : (d + |Real.tan (real x)| * d) / (|Real.cos (real x)| - d) ≤ 2 * d * (1 + |Real.tan (real x)|) / |Real.cos (real x)| := by
      rw [div_le_div_iff₀ (by linarith) c0]
      have : 0 ≤ d * (1 + |Real.tan (real x)|) := by positivity
      nlinarith
    have q2 : |Real.tan (real x)| ≤ 10 ^ 7 := by
      by_contra hh
      have : 10 ^ 7 * (7 / 10 ^ 7) < |Real.tan (real x)| * |Real.cos (real x)| :=
        mul_lt_mul'' (not_le.1 hh) (by linarith) (by norm_num) (by norm_num)
      norm_num at this tA
      linarith
    have hW : d * (1 + |Real.tan (real x)|) ≤ d * (1 + |Real.tan (real x)|) / |Real.cos (real x)| := by
      rw [le_div_iff₀ c0]
      have : 0 ≤ d * (1 + |Real.tan (real x)|) := by positivity
      nlinarith
    have hW' : d * (1 + |Real.tan (real x)|) / |Real.cos (real x)| ≤ 1 + |Real.tan (real x)| := by
      rw [div_le_iff₀ c0, mul_comm]
      exact mul_le_mul_of_nonneg_left (by linarith) (by positivity)
    have hd : 4 / 10 ^ 7 * (1 + |Real.tan (real x)|) ≤ d * (1 + |Real.tan (real x)|) := mul_le_mul_of_nonneg_right h1 (by positivity)
    have e2 : 2 * d * (1 + |Real.tan (real x)|) / |Real.cos (real x)| = 2 * (d * (1 + |Real.tan (real x)|) / |Real.cos (real x)|) := by ring
    have e3 : 3 * d * (1 + |Real.tan (real x)|) / |Real.cos (real x)| = 3 * (d * (1 + |Real.tan (real x)|) / |Real.cos (real x)|) := by ring
    rw [e2] at q1
    refine Approx.div |Real.tan (real x)| |Real.cos (real x)| _ hs hc hA.le hB.ge (by linarith) ?_ ?_
    · generalize (d + |Real.tan (real x)| * d) / (|Real.cos (real x)| - d) = Q at *
      generalize d * (1 + |Real.tan (real x)|) / |Real.cos (real x)| = W at *
      generalize |Real.tan (real x)| = A at *
      norm_num at *
      linarith
    · rw [e3]
      generalize (d + |Real.tan (real x)| * d) / (|Real.cos (real x)| - d) = Q at *
      generalize d * (1 + |Real.tan (real x)|) / |Real.cos (real x)| = W at *
      generalize d * (1 + |Real.tan (real x)|) = V at *
      generalize |Real.tan (real x)| = A at *
      unfold eps tiny
      norm_num at *
      linarith
  unfold oddSign
  rw [lt_spec hx finite_zero, val_zero]
  have hu : (0 : ℝ) < 2 ^ 149 := by positivity
  by_cases hv : val x < 0
  · have : real x < 0 := by
      unfold real
      exact div_neg_of_neg_of_pos (by exact_mod_cast hv) hu
    rw [if_pos (by simpa using hv)]
    rw [abs_of_neg this, Real.tan_neg] at key
    have := key.neg
    rwa [neg_neg] at this
  · rw [if_neg (by simpa using hv)]
    have : 0 ≤ real x := real_nonneg (by omega)
    rwa [abs_of_nonneg this] at key

/-- C113 for arguments up to 200000, with the error of C111. -/
theorem C113_tan_partial {x : Flt} (hx : Spec.F32.Finite x) (h : |real x| ≤ 200000) (hc : 2 * trigError x (3 / 10 ^ 6) ≤ |Real.cos (real x)|) :
    Approx (Trig.tan x) (Real.tan (real x)) (3 * trigError x (3 / 10 ^ 6) * (1 + |Real.tan (real x)|) / |Real.cos (real x)|) := by
  obtain ⟨a1, a2⟩ := simd_accurate hx h
  refine quotient_error hx a1 a2 ?_ hc
  have := abs_nonneg (real x)
  unfold trigError
  norm_num
  linarith

/-- Without SIMD, for arguments up to fifty million. -/
theorem C113_plain_partial {x : Flt} (hx : Spec.F32.Finite x) (h : |real x| ≤ 5 * 10 ^ 7) (hc : 2 * trigError x (4 / 10 ^ 7) ≤ |Real.cos (real x)|) :
    ∃ r, tanPlain x = .ok r ∧
      Approx r (Real.tan (real x)) (3 * trigError x (4 / 10 ^ 7) * (1 + |Real.tan (real x)|) / |Real.cos (real x)|) := by
  obtain ⟨n, e, a1, a2⟩ := plain_accurate hx h
  refine ⟨_, by unfold tanPlain; rw [e]; rfl, quotient_error hx a1 a2 ?_ hc⟩
  unfold trigError
  norm_num

/-- The float nearest to half of pi. -/
def halfPi : Flt := .fin false 13176795 126

/-- `Tan` of the float nearest to half of pi is an infinity, with both signs of the argument. -/
theorem C113_infinite : Trig.tan halfPi = .inf false ∧ Trig.tan (B32.neg halfPi) = .inf true ∧ tanPlain halfPi = .ok (.inf false) := by
  decide +kernel

theorem C113_violated : ¬ C113_statement := by
  intro h
  have := (h halfPi ⟨_, _, _, rfl, by decide, by decide, .inr (by decide)⟩).1
  rw [C113_infinite.1] at this
  obtain ⟨s, m, q, e, -⟩ := this
  cases e

/-- `Tan(1)` is `0x3FC75940`, near 1.5574. -/
example : toBits (Trig.tan one) = 0x3FC75940 ∧ (tanPlain one >>= fun r => .ok (toBits r)) = .ok 0x3FC75923 := by
  constructor <;> decide +kernel

end Verif.Props
