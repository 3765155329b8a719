import Verif.Lemmas.SqrtReal
import Verif.Props.Pow

/-!
# Properties of `Sqrt` and `InverseSqrt` (C114 and C115)
-/

namespace Verif.Props

open Verif Verif.B32 Verif.MathFns Verif.Spec.F32 Verif.Trig

/-- What is documented of the instruction `rsqrtss`: a relative error of at most `1.5 * 2^(-12)`, and the special values. -/
structure Rsqrt (f : Flt → Flt) : Prop where
  accurate : ∀ v, Spec.F32.Finite v → 1 / 2 ^ 126 ≤ real v → Spec.F32.Finite (f v) ∧ |real (f v) * √(real v) - 1| ≤ 3 / 2 ^ 13
  infinite : f (.inf false) = zero
  nan : f .nan = .nan

/-- `z` has a relative error of at most `d`. -/
def Relative (z : Flt) (r d : ℝ) : Prop := Spec.F32.Finite z ∧ |real z - r| ≤ d * |r|

/-- **C114**: `Sqrt(x)` of a nonnegative finite float is a finite float with a relative error of at most `10^(-5)`, and `Sqrt` of
infinity is infinity; both with SSE and without SIMD. -/
def C114_statement : Prop :=
  (∀ f, Rsqrt f → (∀ x, Spec.F32.Finite x → 0 ≤ real x → Relative (Trig.sqrt f x) √(real x) (1 / 10 ^ 5)) ∧ Trig.sqrt f (.inf false) = .inf false) ∧
  (∀ x, Spec.F32.Finite x → 0 ≤ real x → Relative (sqrtPlain x) √(real x) (1 / 10 ^ 5)) ∧ sqrtPlain (.inf false) = .inf false

theorem real_le {x : Flt} (hx : Spec.F32.Finite x) : real x ≤ 2 ^ 128 := by
  obtain ⟨s, m, q, rfl, h1, h2, -⟩ := hx
  refine (le_abs_self _).trans ?_
  rw [abs_real_fin, div_le_iff₀ (by positivity)]
  have : m * 2 ^ q ≤ 2 ^ 24 * 2 ^ 253 := Nat.mul_le_mul h1.le (Nat.pow_le_pow_right (by decide) h2)
  rw [← pow_add]
  rw [← Nat.pow_add] at this
  exact_mod_cast this

/-- The root of a normal float. -/
theorem root_normal {x : Flt} (hx : Spec.F32.Finite x) (h : 1 / 2 ^ 126 ≤ real x) : Root √(real x) ∧ real x = √(real x) * √(real x) := by
  have h0 : 0 ≤ real x := le_trans (by positivity) h
  refine ⟨⟨?_, ?_⟩, (Real.mul_self_sqrt h0).symm⟩
  · apply Real.le_sqrt_of_sq_le
    norm_num at *
    linarith
  · apply Real.sqrt_le_iff.2
    have := real_le hx
    norm_num at *
    linarith

theorem not_small {x : Flt} (hx : Spec.F32.Finite x) (h : 1 / 2 ^ 126 ≤ real x) : lt x (const 0x00800000) = false := by
  have e : const 0x00800000 = .fin false (2 ^ 23) 0 := by decide
  rw [e, lt_spec hx ⟨_, _, _, rfl, by decide, by decide, .inl rfl⟩]
  unfold real at h
  rw [le_div_iff₀ (by positivity)] at h
  have : (2 ^ 23 : Int) ≤ val x := by
    have : (2 ^ 23 : ℝ) ≤ val x := by norm_num at *; linarith
    exact_mod_cast this
  have e' : val (.fin false (2 ^ 23) 0) = 2 ^ 23 := rfl
  simp only [e', decide_eq_false_iff_not]
  omega

theorem near_relative {z : Flt} {s d : ℝ} (hs : 0 < s) (h : Near z s 1 d) : Relative z (1 / s) d := by
  refine ⟨h.1, ?_⟩
  have : real z - 1 / s = (real z * s - 1) / s := by field_simp
  rw [this, abs_div, abs_of_pos (show 0 < 1 / s by positivity), abs_of_pos hs, mul_one_div]
  exact div_le_div_of_nonneg_right h.2 hs.le

theorem near_relative' {z : Flt} {s d : ℝ} (hs : 0 < s) (h : Near z s⁻¹ 1 d) : Relative z s d := by
  have := near_relative (inv_pos.2 hs) h
  rwa [one_div, inv_inv] at this

theorem Relative.mono {z : Flt} {r d e : ℝ} (h : Relative z r d) (he : d ≤ e) : Relative z r e :=
  ⟨h.1, h.2.trans (mul_le_mul_of_nonneg_right he (abs_nonneg _))⟩

theorem newton_normal {f : Flt → Flt} (hf : Rsqrt f) {x : Flt} (hx : Spec.F32.Finite x) (h : 1 / 2 ^ 126 ≤ real x) :
    Near (newton f x) √(real x) 1 (9 / 10 ^ 7) := by
  obtain ⟨r1, r2⟩ := root_normal hx h
  obtain ⟨a1, a2⟩ := hf.accurate x hx h
  exact newton_sse hx r1 r2 ⟨a1, by rw [sub_self, abs_zero]⟩ (a2.trans (by norm_num))

theorem guess_normal {x : Flt} (hx : Spec.F32.Finite x) (h : 1 / 2 ^ 126 ≤ real x) :
    Near (newtonPlain x (newtonPlain x (guess x))) √(real x) 1 (8 / 10 ^ 6) := by
  obtain ⟨r1, r2⟩ := root_normal hx h
  obtain ⟨b1, b2, b3⟩ := normal_bits hx h
  have e : guess x = ofBits (0x5F375A86 - toBits x / 2) := by
    unfold guess
    congr 1
    omega
  obtain ⟨g1, g2, g3, g4⟩ := guess_spec b1 b2
  rw [b3, ← e] at *
  refine newton_twice hx r1 r2 (u := real (guess x) * √(real x)) ⟨g1, by rw [sub_self, abs_zero]⟩ ?_
  have p : real (guess x) * real (guess x) * real x = (real (guess x) * √(real x)) * (real (guess x) * √(real x)) := by
    conv => lhs; rw [r2]
    ring
  rw [p] at g3 g4
  have u0 : 0 ≤ real (guess x) * √(real x) := mul_nonneg g2 r1.pos.le
  generalize real (guess x) * √(real x) = u at *
  rw [abs_le]
  norm_num at *
  constructor <;> nlinarith

/-- C114 for normal floats: the relative error is at most `10^(-6)` with SSE and `9 * 10^(-6)` without SIMD. -/
theorem C114_sqrt_partial {x : Flt} (hx : Spec.F32.Finite x) (h : 1 / 2 ^ 126 ≤ real x) :
    (∀ f, Rsqrt f → Relative (Trig.sqrt f x) √(real x) (1 / 10 ^ 6)) ∧ Relative (sqrtPlain x) √(real x) (9 / 10 ^ 6) := by
  obtain ⟨r1, r2⟩ := root_normal hx h
  refine ⟨fun f hf => ?_, ?_⟩
  · have n := near_root hx r1 r2 (newton_normal hf hx h) (by norm_num)
    unfold Trig.sqrt
    rw [not_small hx h]
    exact (near_relative' r1.pos n).mono (by norm_num)
  · have n := near_root hx r1 r2 (guess_normal hx h) (by norm_num)
    unfold sqrtPlain
    rw [not_small hx h]
    exact (near_relative' r1.pos n).mono (by norm_num)

theorem small_lt {x : Flt} (hx : Spec.F32.Finite x) (h : real x < 1 / 2 ^ 126) : lt x (const 0x00800000) = true := by
  have e : const 0x00800000 = .fin false (2 ^ 23) 0 := by decide
  rw [e, lt_spec hx ⟨_, _, _, rfl, by decide, by decide, .inl rfl⟩]
  unfold real at h
  rw [div_lt_iff₀ (by positivity)] at h
  have : val x < (2 ^ 23 : Int) := by
    have : (val x : ℝ) < 2 ^ 23 := by norm_num at *; linarith
    exact_mod_cast this
  have e' : val (.fin false (2 ^ 23) 0) = 2 ^ 23 := rfl
  simp only [e', decide_eq_true_eq]
  exact this

theorem zero_mul_fin {x : Flt} (hx : Spec.F32.Finite x) : real (mul zero x) = 0 ∧ Spec.F32.Finite (mul zero x) := by
  have := mul_real finite_zero hx (by rw [real_zero]; norm_num)
  rw [real_zero] at this
  obtain ⟨s, m, q, rfl, hc⟩ := hx
  have e : mul zero (.fin s m q) = .fin s 0 0 := by
    show B32.round (false != s) (0 * 2 ^ 0 * (m * 2 ^ q)) (2 ^ 149) = _
    rw [show 0 * 2 ^ 0 * (m * 2 ^ q) = 0 by simp]
    cases s <;> decide +kernel
  rw [e]
  exact ⟨by rw [real_fin]; simp, ⟨_, _, _, rfl, by decide, by decide, .inl rfl⟩⟩

/-- The result is a zero for subnormal and for negative floats. -/
theorem C114_small {x : Flt} (hx : Spec.F32.Finite x) (h : real x < 1 / 2 ^ 126) :
    (∀ f, Spec.F32.Finite (Trig.sqrt f x) ∧ real (Trig.sqrt f x) = 0) ∧ sqrtPlain x = zero := by
  refine ⟨fun f => ?_, ?_⟩
  · unfold Trig.sqrt
    rw [small_lt hx h]
    exact ⟨(zero_mul_fin hx).2, (zero_mul_fin hx).1⟩
  · unfold sqrtPlain
    rw [small_lt hx h]
    rfl

/-- Of infinities and NaN: with SSE, `Sqrt` of infinity is NaN. -/
theorem C114_special {f : Flt → Flt} (hf : Rsqrt f) :
    Trig.sqrt f (.inf false) = .nan ∧ Trig.sqrt f (.inf true) = .nan ∧ Trig.sqrt f .nan = .nan ∧
    sqrtPlain (.inf false) = .inf false ∧ sqrtPlain (.inf true) = zero ∧ sqrtPlain .nan = .nan := by
  refine ⟨?_, ?_, ?_, by decide +kernel, by decide +kernel, by decide +kernel⟩
  · unfold Trig.sqrt newton
    rw [hf.infinite]
    decide +kernel
  · unfold Trig.sqrt
    rw [if_pos (by decide)]
    decide +kernel
  · unfold Trig.sqrt newton
    rw [hf.nan]
    decide +kernel

/-- An instruction that meets its documentation. -/
def someRsqrt (v : Flt) : Flt := if v = .inf false then zero else if v = .nan then .nan else newtonPlain v (newtonPlain v (guess v))

theorem someRsqrt_spec : Rsqrt someRsqrt where
  accurate v hv h := by
    have : someRsqrt v = newtonPlain v (newtonPlain v (guess v)) := by
      obtain ⟨s, m, q, rfl, -⟩ := hv
      unfold someRsqrt
      rw [if_neg (by simp), if_neg (by simp)]
    rw [this]
    have := guess_normal hv h
    exact ⟨this.1, this.2.trans (by norm_num)⟩
  infinite := rfl
  nan := rfl

theorem C114_violated : ¬ C114_statement := by
  intro h
  have := (h.1 _ someRsqrt_spec).2
  rw [(C114_special someRsqrt_spec).1] at this
  cases this

/-- The root of two is `0x3FB504F3` to the nearest float. -/
example : toBits (Trig.sqrt someRsqrt (const 0x40000000)) = 0x3FB504F4 ∧ toBits (sqrtPlain (const 0x40000000)) = 0x3FB504F3 := by
  constructor <;> decide +kernel

/-- **C115**: `InverseSqrt(x)` of a positive finite float is a finite float with a relative error of at most `10^(-5)`,
`InverseSqrt` of zero is infinity, and of infinity zero; both with SSE and without SIMD. -/
def C115_statement : Prop :=
  (∀ f, Rsqrt f → (∀ x, Spec.F32.Finite x → 0 < real x → Relative (inverseSqrt f x) (1 / √(real x)) (1 / 10 ^ 5)) ∧
    inverseSqrt f zero = .inf false ∧ inverseSqrt f (.inf false) = zero) ∧
  (∀ x, Spec.F32.Finite x → 0 < real x → Relative (inverseSqrtPlain x) (1 / √(real x)) (1 / 10 ^ 5)) ∧
    inverseSqrtPlain zero = .inf false ∧ inverseSqrtPlain (.inf false) = zero

/-- C115 for normal floats. -/
theorem C115_inverse_partial {x : Flt} (hx : Spec.F32.Finite x) (h : 1 / 2 ^ 126 ≤ real x) :
    (∀ f, Rsqrt f → Relative (inverseSqrt f x) (1 / √(real x)) (9 / 10 ^ 7)) ∧ Relative (inverseSqrtPlain x) (1 / √(real x)) (8 / 10 ^ 6) := by
  obtain ⟨r1, r2⟩ := root_normal hx h
  refine ⟨fun f hf => ?_, ?_⟩
  · unfold inverseSqrt
    rw [not_small hx h]
    exact near_relative r1.pos (newton_normal hf hx h)
  · unfold inverseSqrtPlain
    rw [not_small hx h]
    exact near_relative r1.pos (guess_normal hx h)

/-- The result is infinity for subnormal and for negative floats. -/
theorem C115_small {x : Flt} (hx : Spec.F32.Finite x) (h : real x < 1 / 2 ^ 126) :
    (∀ f, inverseSqrt f x = .inf false) ∧ inverseSqrtPlain x = .inf false := by
  unfold inverseSqrt inverseSqrtPlain
  rw [small_lt hx h]
  exact ⟨fun _ => rfl, rfl⟩

/-- Of infinity it is NaN with SSE, and infinity without SIMD. -/
theorem C115_special {f : Flt → Flt} (hf : Rsqrt f) :
    inverseSqrt f (.inf false) = .nan ∧ inverseSqrt f .nan = .nan ∧ inverseSqrt f (.inf true) = .inf false ∧
    inverseSqrtPlain (.inf false) = .inf false ∧ inverseSqrtPlain .nan = .nan ∧ inverseSqrtPlain (.inf true) = .inf false := by
  refine ⟨?_, ?_, ?_, by decide +kernel, by decide +kernel, by decide +kernel⟩
  · unfold inverseSqrt newton
    rw [hf.infinite]
    decide +kernel
  · unfold inverseSqrt newton
    rw [hf.nan]
    decide +kernel
  · unfold inverseSqrt
    rw [if_pos (by decide)]

theorem C115_violated : ¬ C115_statement := by
  intro h
  have := (h.1 _ someRsqrt_spec).2.2
  rw [(C115_special someRsqrt_spec).1] at this
  cases this

/-- The inverse root of four is about one half. -/
example : toBits (inverseSqrt someRsqrt (const 0x40800000)) = 0x3F000000 ∧ toBits (inverseSqrtPlain (const 0x40800000)) = 0x3EFFFFB7 := by
  constructor <;> decide +kernel

end Verif.Props
