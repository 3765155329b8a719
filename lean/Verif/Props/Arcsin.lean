import Mathlib.Analysis.SpecialFunctions.Trigonometric.Arctan
import Verif.Lemmas.ArcReal

/-!
# Properties of `Arcsin` and `Arccos` (C118 and C119)
-/

namespace Verif.Props

open Verif Verif.B32 Verif.MathFns Verif.Spec.F32 Verif.Trig
open Real (pi)

/-- What is needed of `InverseSqrt`. -/
structure GoodInverse (g : Flt → Flt) (d : ℝ) : Prop where
  small : ∀ w, Spec.F32.Finite w → real w < 1 / 2 ^ 126 → g w = .inf false
  good : ∀ w, Spec.F32.Finite w → 1 / 2 ^ 126 ≤ real w → Relative (g w) (1 / √(real w)) d

theorem mul_inf {y : Flt} (hy : Spec.F32.Finite y) (h : real y ≠ 0) : mul y (.inf false) = .inf (decide (real y < 0)) := by
  obtain ⟨-, m2, m3, -⟩ := special_mul y false false hy
  have d : (0 : ℝ) < 2 ^ 149 := by positivity
  rcases lt_trichotomy (val y) 0 with v | v | v
  · have : real y < 0 := div_neg_of_neg_of_pos (by exact_mod_cast v) d
    rw [(m3 v).2, decide_eq_true this]; rfl
  · exact absurd (by unfold real; rw [v]; simp) h
  · have : ¬ real y < 0 := not_lt.2 (div_nonneg (by exact_mod_cast v.le) d.le)
    rw [(m2 v).2, decide_eq_false this]

theorem atan_inf (s : Bool) : ∃ r, arctan (.inf s) = .ok r ∧ Approx r (if s then -(pi / 2) else pi / 2) (5 / 10 ^ 8) := by
  cases s
  · exact ⟨tauOver4, by decide +kernel, by simpa using tau4⟩
  · exact ⟨B32.neg tauOver4, by decide +kernel, by simpa using tau4.neg⟩

/-- Where the complement is not positive, the result is a quarter of a turn. -/
theorem arcsin_end {g : Flt → Flt} {d : ℝ} (hg : GoodInverse g d) {y : Flt} (hy : Spec.F32.Finite y) (h0 : real y ≠ 0)
    (f : Spec.F32.Finite (sub one (mul y y))) (hw : real (sub one (mul y y)) ≤ 0) :
    ∃ r, arcsinOf g y = .ok r ∧ Approx r (if real y < 0 then -(pi / 2) else pi / 2) (5 / 10 ^ 8) := by
  unfold arcsinOf
  rw [hg.small _ f (lt_of_le_of_lt hw (by positivity)), mul_inf hy h0]
  obtain ⟨r, e, a⟩ := atan_inf (decide (real y < 0))
  exact ⟨r, e, by simpa using a⟩

theorem arcsin_approx {g : Flt → Flt} {d : ℝ} (hg : GoodInverse g d) (d0 : 0 ≤ d) (hd : d ≤ 1 / 10 ^ 5) {y : Flt} (hy : Spec.F32.Finite y) (h : |real y| ≤ 1) :
    ∃ r, arcsinOf g y = .ok r ∧ Approx r (Real.arcsin (real y)) (d + 2 / 10 ^ 6) := by
  rcases lt_or_eq_of_le h with h | h
  · obtain ⟨f, big, sine, -⟩ := complement hy h
    obtain ⟨z1, z2⟩ := hg.good _ f big
    obtain ⟨r1, r2⟩ := root_normal f big
    unfold arcsinOf
    generalize sub one (mul y y) = w at *
    have rp := r1.pos
    have ri := r1.inv
    have e1 : |1 / √(real w)| = 1 / √(real w) := abs_of_pos (by positivity)
    rw [e1] at z2
    have zb : |real (g w)| ≤ 2 * (1 / √(real w)) := by
      have p : 0 < 1 / √(real w) := by positivity
      have := abs_le.1 z2
      norm_num at hd
      rw [abs_le]; constructor <;> nlinarith
    have hz : |real (g w)| ≤ 2 ^ 65 := by
      refine zb.trans ?_
      have : 1 / √(real w) ≤ 2 ^ 63 := by
        rw [div_le_iff₀ rp]
        have := r1.1
        norm_num at *
        linarith
      norm_num at *
      linarith
    have hm : |real y * real (g w)| ≤ 2 ^ 65 := by
      rw [abs_mul]
      have := mul_le_mul h.le hz (abs_nonneg _) (by norm_num)
      linarith
    obtain ⟨q1, q2⟩ := mul_real hy z1 (hm.trans (by norm_num))
    have t1 : |real y * real (g w) - real y / √(real w)| ≤ d * |real y / √(real w)| := by
      rw [show real y * real (g w) - real y / √(real w) = real y * (real (g w) - 1 / √(real w)) by ring, abs_mul, abs_div, abs_of_pos rp]
      calc _ ≤ |real y| * (d * (1 / √(real w))) := mul_le_mul_of_nonneg_left z2 (abs_nonneg _)
        _ = _ := by ring
    have t2 : |real y * real (g w)| ≤ (1 + d) * |real y / √(real w)| := by
      have := abs_sub_abs_le_abs_sub (real y * real (g w)) (real y / √(real w))
      linarith
    have e0 : 0 < eps := by unfold eps; positivity
    have t3 : |real (mul y (g w)) - real y / √(real w)| ≤ (d + eps * (1 + d)) * |real y / √(real w)| + tiny := by
      have := abs_sub_le (real (mul y (g w))) (real y * real (g w)) (real y / √(real w))
      have := mul_le_mul_of_nonneg_left t2 e0.le
      linarith
    have c1 : eps * (1 + d) ≤ 6 / 10 ^ 8 := by
      unfold eps
      norm_num at *
      linarith
    have c2 : 0 ≤ eps * (1 + d) := by positivity
    have t4 := atan_close (by linarith) (by norm_num at *; linarith) t3
    obtain ⟨r, e, a⟩ := C116_arctan.1 _ q1
    have arc : Real.arcsin (real y) = Real.arctan (real y / √(1 - real y ^ 2)) := Real.arcsin_eq_arctan (abs_lt.1 h)
    refine ⟨r, e, shifted (e := d + 16 / 10 ^ 7) a ?_ (by norm_num; linarith)⟩
    rw [arc]
    refine (abs_sub_le _ (Real.arctan (real y / √(real w))) _).trans ?_
    have ht : tiny ≤ 1 / 10 ^ 9 := by unfold tiny; norm_num
    have : 101 / 100 * (d + eps * (1 + d) + tiny) ≤ d + 3 / 10 ^ 7 := by
      norm_num at *
      linarith
    have : (13 : ℝ) / 10 ^ 7 + 3 / 10 ^ 7 = 16 / 10 ^ 7 := by norm_num
    linarith
  · obtain ⟨f, hw⟩ := complement_one hy h
    have h0 : real y ≠ 0 := by rw [← abs_pos, h]; norm_num
    obtain ⟨r, e, a⟩ := arcsin_end hg hy h0 f hw.le
    refine ⟨r, e, ?_⟩
    have : (5 : ℝ) / 10 ^ 8 ≤ d + 2 / 10 ^ 6 := by norm_num; linarith
    rcases le_total 0 (real y) with g | g
    · rw [abs_of_nonneg g] at h
      rw [if_neg (by linarith)] at a
      rw [h, Real.arcsin_one]
      exact a.mono this
    · rw [abs_of_nonpos g] at h
      rw [if_pos (by linarith)] at a
      rw [show real y = -1 by linarith, Real.arcsin_neg_one]
      exact a.mono this

theorem inverse_sse {f : Flt → Flt} (hf : Rsqrt f) : GoodInverse (inverseSqrt f) (9 / 10 ^ 7) :=
  ⟨fun _ hw h => (C115_small hw h).1 f, fun _ hw h => (C115_inverse_partial hw h).1 f hf⟩

theorem inverse_plain : GoodInverse inverseSqrtPlain (8 / 10 ^ 6) :=
  ⟨fun _ hw h => (C115_small hw h).2, fun _ hw h => (C115_inverse_partial hw h).2⟩

/-- **C118**: for every float between -1 and 1, `Arcsin` is defined and differs from the arcsine by at most `3 * 10^(-6)` with SSE and
`10^(-5)` without. -/
theorem C118_arcsin (y : Flt) (hy : Spec.F32.Finite y) (h : |real y| ≤ 1) :
    (∀ f, Rsqrt f → ∃ r, arcsin f y = .ok r ∧ Approx r (Real.arcsin (real y)) (3 / 10 ^ 6)) ∧
    (∃ r, arcsinPlain y = .ok r ∧ Approx r (Real.arcsin (real y)) (1 / 10 ^ 5)) := by
  refine ⟨fun f hf => ?_, ?_⟩
  · obtain ⟨r, e, a⟩ := arcsin_approx (inverse_sse hf) (by norm_num) (by norm_num) hy h
    exact ⟨r, e, a.mono (by norm_num)⟩
  · obtain ⟨r, e, a⟩ := arcsin_approx inverse_plain (by norm_num) (by norm_num) hy h
    exact ⟨r, e, a.mono (by norm_num)⟩

/-- Beyond the domain, `Arcsin` is half of pi, with the sign of the argument. -/
theorem C118_beyond (y : Flt) (hy : Spec.F32.Finite y) (h : 1 < |real y|) (h' : |real y| ≤ 2 ^ 63) :
    (∀ f, Rsqrt f → ∃ r, arcsin f y = .ok r ∧ Approx r (if real y < 0 then -(pi / 2) else pi / 2) (5 / 10 ^ 8)) ∧
    (∃ r, arcsinPlain y = .ok r ∧ Approx r (if real y < 0 then -(pi / 2) else pi / 2) (5 / 10 ^ 8)) := by
  obtain ⟨f, hw⟩ := complement_beyond hy h h'
  have h0 : real y ≠ 0 := by rw [← abs_pos]; linarith
  exact ⟨fun g hg => arcsin_end (inverse_sse hg) hy h0 f hw.le, arcsin_end inverse_plain hy h0 f hw.le⟩

/-- `Arcsin` of NaN converts a NaN to `int32`. -/
theorem C118_nan (f : Flt → Flt) : arcsin f .nan = .ub ∧ arcsinPlain .nan = .ub := by
  unfold arcsin arcsinPlain arcsinOf
  exact ⟨C116_nan, C116_nan⟩

/-- The arcsine of one half is a sixth of pi, 0.523598…; of one it is half of pi. -/
example : arcsinPlain (const 0x3F000000) = .ok (ofBits 0x3F060A8A) ∧ arcsinPlain one = .ok tauOver4 := by
  constructor <;> decide +kernel

/-- What is needed of `Sqrt`. -/
structure GoodRoot (g : Flt → Flt) (d : ℝ) : Prop where
  small : ∀ w, Spec.F32.Finite w → real w < 1 / 2 ^ 126 → Spec.F32.Finite (g w) ∧ real (g w) = 0
  good : ∀ w, Spec.F32.Finite w → 1 / 2 ^ 126 ≤ real w → Relative (g w) √(real w) d

theorem root_sse {f : Flt → Flt} (hf : Rsqrt f) : GoodRoot (Trig.sqrt f) (1 / 10 ^ 6) :=
  ⟨fun _ hw h => (C114_small hw h).1 f, fun _ hw h => (C114_sqrt_partial hw h).1 f hf⟩

theorem root_plain : GoodRoot sqrtPlain (9 / 10 ^ 6) :=
  ⟨fun _ hw h => by rw [(C114_small hw h).2]; exact ⟨finite_zero, real_zero⟩, fun _ hw h => (C114_sqrt_partial hw h).2⟩

/-- From the arctangent to the result. -/
theorem arccos_turn {g : Flt → Flt} {x : Flt} {θ e : ℝ} (hx : Spec.F32.Finite x) (hg : Spec.F32.Finite (g (sub one (mul x x)))) (h0 : real x ≠ 0)
    (hθ : |Real.arctan (real (g (sub one (mul x x))) / real x) - θ| ≤ e) (he : e ≤ 1 / 10 ^ 4) :
    ∃ r, arccosOf g x = .ok r ∧ Approx r (if real x < 0 then θ + pi else θ) (e + 11 / 10 ^ 7) := by
  unfold arccosOf
  obtain ⟨r, er, a⟩ := quot_arctan hg hx h0
  rw [er, Out.ok_bind]
  refine ⟨_, rfl, ?_⟩
  have e0 : 0 ≤ e := (abs_nonneg _).trans hθ
  have b : Approx r θ (e + 6 / 10 ^ 7) := shifted a hθ (by linarith)
  by_cases hn : real x < 0
  · have : lt x zero = true := by rw [lt_real hx finite_zero, real_zero]; exact hn
    rw [if_pos this, if_pos hn]
    have p1 := Real.pi_gt_three
    have p2 : pi < 315 / 100 := by have := Real.pi_lt_d20; norm_num at this ⊢; linarith
    have t1 := Real.arctan_lt_pi_div_two (real (g (sub one (mul x x))) / real x)
    have t2 := Real.neg_pi_div_two_lt_arctan (real (g (sub one (mul x x))) / real x)
    have t3 := abs_le.1 hθ
    refine b.add 5 _ tau2 ?_ ?_ ?_
    · rw [abs_le]
      norm_num at he
      constructor <;> linarith
    · norm_num at he ⊢
      linarith
    · unfold eps
      norm_num at he ⊢
      linarith
  · have : ¬ lt x zero = true := by rw [lt_real hx finite_zero, real_zero]; exact hn
    rw [if_neg this, if_neg hn]
    exact b.mono (by norm_num)

theorem arccos_approx {g : Flt → Flt} {d : ℝ} (hg : GoodRoot g d) (d0 : 0 ≤ d) (hd : d ≤ 1 / 10 ^ 5) {x : Flt} (hx : Spec.F32.Finite x) (h0 : real x ≠ 0)
    (h : |real x| ≤ 1) : ∃ r, arccosOf g x = .ok r ∧ Approx r (Real.arccos (real x)) (d + 26 / 10 ^ 7) := by
  have arc : Real.arccos (real x) = if real x < 0 then Real.arctan (√(1 - real x ^ 2) / real x) + pi else Real.arctan (√(1 - real x ^ 2) / real x) := by
    rcases lt_or_gt_of_ne h0 with s | s
    · rw [if_pos s]
      have := Real.arccos_eq_arctan (x := -real x) (by linarith)
      rw [Real.arccos_neg, neg_sq, div_neg, Real.arctan_neg] at this
      linarith
    · rw [if_neg (by linarith)]
      exact Real.arccos_eq_arctan s
  have main : Spec.F32.Finite (g (sub one (mul x x))) ∧
      |Real.arctan (real (g (sub one (mul x x))) / real x) - Real.arctan (√(1 - real x ^ 2) / real x)| ≤ d + 15 / 10 ^ 7 := by
    rcases lt_or_eq_of_le h with h | h
    · obtain ⟨f, big, -, cosine⟩ := complement hx h
      obtain ⟨z1, z2⟩ := hg.good _ f big
      generalize sub one (mul x x) = w at *
      refine ⟨z1, (abs_sub_le _ (Real.arctan (√(real w) / real x)) _).trans ?_⟩
      have ht : tiny ≤ 1 / 10 ^ 9 := by unfold tiny; norm_num
      have ht0 : 0 < tiny := by unfold tiny; positivity
      have t := atan_close (q := real (g w) / real x) (t := √(real w) / real x) d0 (by norm_num at *; linarith) (by
        rw [← sub_div, abs_div, abs_div, ← mul_div_assoc]
        have := div_le_div_of_nonneg_right z2 (abs_nonneg (real x))
        linarith)
      have c := cosine h0
      have : 101 / 100 * (d + tiny) ≤ d + 2 / 10 ^ 7 := by
        norm_num at *
        linarith
      have : (13 : ℝ) / 10 ^ 7 + 2 / 10 ^ 7 = 15 / 10 ^ 7 := by norm_num
      linarith
    · obtain ⟨f, hw⟩ := complement_one hx h
      obtain ⟨z1, z2⟩ := hg.small _ f (by rw [hw]; positivity)
      refine ⟨z1, ?_⟩
      rw [z2, ← sq_abs, h]
      norm_num
      linarith
  obtain ⟨r, e, a⟩ := arccos_turn hx main.1 h0 main.2 (by norm_num at *; linarith)
  rw [← arc] at a
  exact ⟨r, e, a.mono (by norm_num; linarith)⟩

/-- The statement of C119: for every float between -1 and 1, `Arccos` is defined and differs from the arccosine by at most
`2 * 10^(-5)`. -/
def C119_statement : Prop := ∀ x, Spec.F32.Finite x → |real x| ≤ 1 →
    (∀ f, Rsqrt f → ∃ r, arccos f x = .ok r ∧ Approx r (Real.arccos (real x)) (2 / 10 ^ 5)) ∧
    (∃ r, arccosPlain x = .ok r ∧ Approx r (Real.arccos (real x)) (2 / 10 ^ 5))

/-- C119 for every float between -1 and 1 but the zeros: the error is at most `4 * 10^(-6)` with SSE and `1.2 * 10^(-5)` without. -/
theorem C119_arccos_partial (x : Flt) (hx : Spec.F32.Finite x) (h0 : real x ≠ 0) (h : |real x| ≤ 1) :
    (∀ f, Rsqrt f → ∃ r, arccos f x = .ok r ∧ Approx r (Real.arccos (real x)) (4 / 10 ^ 6)) ∧
    (∃ r, arccosPlain x = .ok r ∧ Approx r (Real.arccos (real x)) (12 / 10 ^ 6)) := by
  refine ⟨fun f hf => ?_, ?_⟩
  · obtain ⟨r, e, a⟩ := arccos_approx (root_sse hf) (by norm_num) (by norm_num) hx h0 h
    exact ⟨r, e, a.mono (by norm_num)⟩
  · obtain ⟨r, e, a⟩ := arccos_approx root_plain (by norm_num) (by norm_num) hx h0 h
    exact ⟨r, e, a.mono (by norm_num)⟩

theorem arccos_zero {g : Flt → Flt} {d : ℝ} (hg : GoodRoot g d) (hd : d ≤ 1 / 10 ^ 5) :
    arccosOf g zero = .ok tauOver4 ∧ arccosOf g (B32.neg zero) = .ok (B32.neg tauOver4) := by
  have e1 : sub one (mul zero zero) = one := by decide +kernel
  have e2 : sub one (mul (B32.neg zero) (B32.neg zero)) = one := by decide +kernel
  obtain ⟨z1, z2⟩ := hg.good one finite_one (by rw [real_one]; norm_num)
  rw [real_one, Real.sqrt_one, abs_one, mul_one] at z2
  have pos : 0 < real (g one) := by
    have := (abs_le.1 z2).1
    norm_num at *
    linarith
  have vp : 0 < val (g one) := by
    unfold real at pos
    have := (div_pos_iff_of_pos_right (show (0 : ℝ) < 2 ^ 149 by positivity)).1 pos
    exact_mod_cast this
  have d1 := (special_div (g one) zero false false z1 finite_zero).2.2.1 vp (by decide)
  have d2 := (special_div (g one) (B32.neg zero) false false z1 (finite_neg finite_zero)).2.2.1 vp (by decide)
  have n1 : decide (2 ^ 31 ≤ toBits zero) = false := by decide
  have n2 : decide (2 ^ 31 ≤ toBits (B32.neg zero)) = true := by decide
  unfold arccosOf
  rw [e1, e2, d1, d2, n1, n2]
  constructor <;> decide +kernel

/-- Of zero, `Arccos` is half of pi; of the negative zero it is minus half of pi, which is not an arccosine of anything. -/
theorem C119_zero : (∀ f, Rsqrt f → arccos f zero = .ok tauOver4 ∧ arccos f (B32.neg zero) = .ok (B32.neg tauOver4)) ∧
    arccosPlain zero = .ok tauOver4 ∧ arccosPlain (B32.neg zero) = .ok (B32.neg tauOver4) :=
  ⟨fun _ hf => arccos_zero (root_sse hf) (by norm_num), arccos_zero root_plain (by norm_num)⟩

theorem C119_violated : ¬ C119_statement := by
  intro h
  have fz := finite_neg finite_zero
  have rz : real (B32.neg zero) = 0 := by rw [real_neg, real_zero, neg_zero]
  obtain ⟨r, e, a⟩ := (h _ fz (by rw [rz]; norm_num)).2
  rw [C119_zero.2.2] at e
  cases e
  rw [rz, Real.arccos_zero] at a
  have t := abs_le.1 tau4.2
  have a := abs_le.1 a.2
  rw [real_neg] at a
  have p := Real.pi_gt_three
  norm_num at *
  linarith

/-- Beyond the domain, `Arccos` is zero to the right and pi to the left. -/
theorem C119_beyond (x : Flt) (hx : Spec.F32.Finite x) (h : 1 < |real x|) (h' : |real x| ≤ 2 ^ 63) :
    (∀ f, Rsqrt f → ∃ r, arccos f x = .ok r ∧ Approx r (if real x < 0 then pi else 0) (12 / 10 ^ 7)) ∧
    (∃ r, arccosPlain x = .ok r ∧ Approx r (if real x < 0 then pi else 0) (12 / 10 ^ 7)) := by
  obtain ⟨f, hw⟩ := complement_beyond hx h h'
  have h0 : real x ≠ 0 := by rw [← abs_pos]; linarith
  have key : ∀ {g d}, GoodRoot g d → ∃ r, arccosOf g x = .ok r ∧ Approx r (if real x < 0 then pi else 0) (12 / 10 ^ 7) := by
    intro g d hg
    obtain ⟨z1, z2⟩ := hg.small _ f (lt_of_lt_of_le hw (by positivity))
    obtain ⟨r, e, a⟩ := arccos_turn (θ := 0) (e := 0) hx z1 h0 (by rw [z2]; simp) (by norm_num)
    rw [zero_add, zero_add] at a
    exact ⟨r, e, a.mono (by norm_num)⟩
  exact ⟨fun g hg => key (root_sse hg), key root_plain⟩

/-- The arccosine of one half is a third of pi, 1.04719…; of minus one it is pi. -/
example : arccosPlain (const 0x3F000000) = .ok (ofBits 0x3F860A8E) ∧ arccosPlain (B32.neg one) = .ok tauOver2 := by
  constructor <;> decide +kernel

end Verif.Props
