import Verif.Lemmas.Neon

/-!
# Division and square roots with the estimates of NEON
-/

namespace Verif.Neon

open Verif Verif.B32 Verif.MathFns Verif.Spec.F32 Verif.Simd
open Verif.Trig

theorem finite_notInf {x : Flt} (h : Spec.F32.Finite x) : isInf x = false := by
  obtain ⟨s, m, q, rfl, -⟩ := h; rfl

theorem two_exact : Spec.F32.Finite (const 0x40000000) ∧ real (const 0x40000000) = 2 := by
  have e : const 0x40000000 = .fin false (2 ^ 23) 127 := by decide
  rw [e]
  refine ⟨⟨_, _, _, rfl, by decide, by decide, .inr (by decide)⟩, ?_⟩
  rw [real_fin]
  norm_num

theorem three_exact : Spec.F32.Finite (const 0x40400000) ∧ real (const 0x40400000) = 3 := by
  have e : const 0x40400000 = .fin false (3 * 2 ^ 22) 127 := by decide
  rw [e]
  refine ⟨⟨_, _, _, rfl, by decide, by decide, .inr (by decide)⟩, ?_⟩
  rw [real_fin]
  norm_num

theorem recipStep_rounds {x y : Flt} (hx : Spec.F32.Finite x) (hy : Spec.F32.Finite y) (h : |2 - real x * real y| ≤ 2 ^ 127) :
    Rounds (recipStep x y) (2 - real x * real y) := by
  unfold recipStep
  rw [finite_notInf hx, finite_notInf hy, Bool.false_and, Bool.and_false, Bool.false_or]
  have e : real (neg x) * real y + real (const 0x40000000) = 2 - real x * real y := by rw [real_neg, two_exact.2]; ring
  have := fma_rounds (finite_neg hx) hy two_exact.1 (by rw [e]; exact h)
  rw [e] at this
  exact this

theorem rsqrtStep_rounds {x y : Flt} (hx : Spec.F32.Finite x) (hy : Spec.F32.Finite y) (h : |(3 - real x * real y) / 2| ≤ 2 ^ 127) :
    Rounds (rsqrtStep x y) ((3 - real x * real y) / 2) := by
  unfold rsqrtStep
  rw [finite_notInf hx, finite_notInf hy, Bool.false_and, Bool.and_false, Bool.false_or]
  have e : (real (neg x) * real y + real (const 0x40400000)) / (2 : Nat) = (3 - real x * real y) / 2 := by
    rw [real_neg, three_exact.2]; push_cast; ring
  have := fmaOver_rounds (d := 2) (by decide) (finite_neg hx) hy three_exact.1 (by rw [e]; exact h)
  rw [e] at this
  exact this

/-- The refined reciprocal. -/
def refine (x : Flt) : Flt := mul (recpe x) (recipStep x (recpe x))

theorem refine_near {x : Flt} (hx : Spec.F32.Finite x) (h : 1 / 2 ^ 126 ≤ |real x|) :
    Spec.F32.Finite (refine x) ∧ |real (refine x) * real x - 1| ≤ 86 / 10 ^ 7 := by
  obtain ⟨hf, h1⟩ := recpe_near hx h
  have hX : |real x| ≤ 2 ^ 128 := by
    obtain ⟨s, m, q, rfl, hc⟩ := hx
    rw [abs_real_fin]
    have : m * 2 ^ q ≤ 2 ^ 24 * 2 ^ 253 := Nat.mul_le_mul hc.1.le (Nat.pow_le_pow_right (by decide) hc.2.1)
    have : ((m * 2 ^ q : Nat) : ℝ) ≤ ((2 ^ 24 * 2 ^ 253 : Nat) : ℝ) := by exact_mod_cast this
    rw [div_le_iff₀ (by positivity), ← pow_add]
    rw [Nat.cast_mul (2 ^ 24), Nat.cast_pow, Nat.cast_pow, ← pow_add] at this
    exact this
  have st := recipStep_rounds hx hf (by
    rw [mul_comm]
    rw [abs_le] at h1 ⊢
    norm_num at *
    constructor <;> linarith)
  unfold refine
  generalize recpe x = f at *
  obtain ⟨⟨hs, -⟩, h2⟩ := st
  generalize recipStep x f = g at *
  rw [mul_comm (real x)] at h2
  set t := real f * real x - 1 with ht
  have e1 : real f * real x = 1 + t := by rw [ht]; ring
  rw [e1, show (2 : ℝ) - (1 + t) = 1 - t by ring] at h2
  set d := real g - (1 - t) with hd
  have e2 : real g = 1 - t + d := by rw [hd]; ring
  have hd' : |d| ≤ 7 / 10 ^ 8 := by
    refine h2.trans ?_
    have : |1 - t| ≤ 101 / 100 := by rw [abs_le] at h1 ⊢; norm_num at *; constructor <;> linarith
    unfold eps tiny
    norm_num at *
    linarith
  have tt : t * t ≤ 8146 / 10 ^ 9 := by
    have := mul_le_mul h1 h1 (abs_nonneg _) (by norm_num)
    rw [abs_mul_abs_self] at this
    norm_num at *
    linarith
  have tt0 := mul_self_nonneg t
  have X0 : 0 < |real x| := lt_of_lt_of_le (by positivity) h
  have fg : |real f * real g * real x - 1| ≤ 822 / 10 ^ 8 := by
    have e : real f * real g * real x - 1 = -(t * t) + (1 + t) * d := by
      rw [show real f * real g * real x = (real f * real x) * real g by ring, e1, e2]; ring
    rw [e]
    refine (abs_add_le _ _).trans ?_
    rw [abs_neg, abs_of_nonneg tt0, abs_mul]
    have : |1 + t| ≤ 101 / 100 := by rw [abs_le] at h1 ⊢; norm_num at *; constructor <;> linarith
    have := mul_le_mul this hd' (abs_nonneg _) (by norm_num)
    norm_num at *
    linarith
  have fg' : |real f * real g| * |real x| ≤ 101 / 100 := by
    rw [← abs_mul]
    rw [abs_le] at fg ⊢
    norm_num at *
    constructor <;> linarith
  have m := mul_real hf hs (by
    have : |real f * real g| * (1 / 2 ^ 126) ≤ |real f * real g| * |real x| := mul_le_mul_of_nonneg_left h (abs_nonneg _)
    have := this.trans fg'
    rw [mul_one_div, div_le_iff₀ (by positivity)] at this
    norm_num at *
    linarith)
  refine ⟨m.1, ?_⟩
  have m2 := m.2
  generalize real (mul f g) = z at *
  have e : z * real x - 1 = (z - real f * real g) * real x + (real f * real g * real x - 1) := by ring
  rw [e]
  refine (abs_add_le _ _).trans ?_
  rw [abs_mul]
  have k1 := mul_le_mul_of_nonneg_right m2 X0.le
  have k2 : tiny * |real x| ≤ 1 / 2 ^ 22 := by
    have := mul_le_mul_of_nonneg_left hX (show 0 ≤ tiny by unfold tiny; positivity)
    refine this.trans ?_
    unfold tiny
    norm_num
  have k4 : (eps * |real f * real g| + tiny) * |real x| = eps * (|real f * real g| * |real x|) + tiny * |real x| := by ring
  rw [k4] at k1
  unfold eps at *
  norm_num [-abs_mul] at *
  linarith

/-- Division. -/
theorem div_near {a x : Flt} (ha : Spec.F32.Finite a) (hx : Spec.F32.Finite x) (h : 1 / 2 ^ 126 ≤ |real x|) (hb : |real a / real x| ≤ 2 ^ 126) :
    Spec.F32.Finite (mul a (refine x)) ∧
    |real (mul a (refine x)) - real a / real x| ≤ 1 / 10 ^ 5 * |real a / real x| + tiny := by
  obtain ⟨hf, h1⟩ := refine_near hx h
  generalize refine x = f at *
  have X0 : real x ≠ 0 := by
    intro h0
    rw [h0, abs_zero] at h
    exact absurd h (by norm_num)
  set Q := real a / real x with hQ
  have e : real a * real f = Q + Q * (real f * real x - 1) := by rw [hQ]; field_simp; ring
  generalize real f * real x - 1 = t at *
  have Q0 := abs_nonneg Q
  have qt : |Q * t| ≤ 86 / 10 ^ 7 * |Q| := by rw [abs_mul, mul_comm]; exact mul_le_mul_of_nonneg_right h1 Q0
  have b : |real a * real f| ≤ 101 / 100 * |Q| := by
    rw [e]
    refine (abs_add_le _ _).trans ?_
    norm_num [-abs_mul] at qt ⊢
    linarith
  have m := mul_real ha hf (b.trans (by norm_num at *; linarith))
  refine ⟨m.1, ?_⟩
  have m2 := m.2
  generalize real (mul a f) = z at *
  have e' : z - Q = (z - real a * real f) + Q * t := by rw [e]; ring
  rw [e']
  refine (abs_add_le _ _).trans ?_
  have : eps * |real a * real f| ≤ eps * (101 / 100 * |Q|) := mul_le_mul_of_nonneg_left b (by unfold eps; positivity)
  unfold eps at *
  norm_num [-abs_mul] at qt m2 this ⊢
  linarith

/-! ## Square roots -/

theorem near_one {w : ℝ} (h0 : 0 ≤ w) (h : |w * w - 1| ≤ 220268 / 2 ^ 25) : |w - 1| ≤ 33 / 10 ^ 4 := by
  rw [abs_le] at h ⊢
  constructor
  · by_contra hc
    push Not at hc
    have : w ≤ 9967 / 10 ^ 4 := by norm_num at *; linarith
    have := mul_le_mul this this h0 (by norm_num)
    norm_num at *
    linarith
  · by_contra hc
    push Not at hc
    have : 10033 / 10 ^ 4 ≤ w := by norm_num at *; linarith
    have := mul_le_mul this this (by norm_num) h0
    norm_num at *
    linarith

/-- `vrsqrteq_f32` of a normal number. -/
theorem rsqrte_near {v : Flt} {s : ℝ} (hv : Spec.F32.Finite v) (h : Root s) (hs : real v = s * s) :
    Spec.F32.Finite (rsqrte v) ∧ |real (rsqrte v) * s - 1| ≤ 331 / 10 ^ 5 := by
  have hp := h.pos
  have hq := h.sq.1
  obtain ⟨b, m, q, rfl, hc⟩ := hv
  rw [real_fin] at hs
  have hb : b = false := by
    cases b
    · rfl
    · have : (0 : ℝ) ≤ ((m * 2 ^ q : Nat) : ℝ) / 2 ^ 149 := by positivity
      simp only [if_true] at hs
      have := mul_pos hp hp
      linarith
  subst hb
  simp only [Bool.false_eq_true, if_false, one_mul] at hs
  have hm : m ≠ 0 := by
    rintro rfl
    have := mul_pos hp hp
    rw [← hs] at this
    simp at this
  have he := finite_log2 hc
  obtain ⟨F, hF, ratio⟩ : ∃ F : Nat, rsqrte (.fin false m q) = B32.round false F 1 ∧
      |(F : ℝ) / 2 ^ 149 * ((F : ℝ) / 2 ^ 149) * (((m * 2 ^ q : Nat) : ℝ) / 2 ^ 149) - 1| ≤ 220268 / 2 ^ 25 := by
    refine ⟨_, by unfold rsqrte; dsimp only; rw [if_neg hm, if_neg (by decide)], ?_⟩
    by_cases hpar : (m.log2 + q) % 2 = 0
    · rw [if_pos hpar]
      exact rsqrt_ratio hm (.inr rfl) (by omega)
    · rw [if_neg hpar]
      exact rsqrt_ratio hm (.inl rfl) (by omega)
  rw [hF]
  rw [hs] at ratio
  have f0 : (0 : ℝ) ≤ (F : ℝ) / 2 ^ 149 := by positivity
  have r0 := fun hb => round_rounds false (num := F) Nat.one_pos (r := (F : ℝ) / 2 ^ 149) (by simp) hb
  generalize (F : ℝ) / 2 ^ 149 = f at *
  rw [show f * f * (s * s) = (f * s) * (f * s) by ring] at ratio
  have w0 : 0 ≤ f * s := by positivity
  have w1 := near_one w0 ratio
  have ff : f ≤ 2 ^ 127 := by
    have k : f * s ≤ 2 := by rw [abs_le] at w1; norm_num at *; linarith
    have := (mul_le_mul_of_nonneg_left h.1 f0).trans k
    rw [mul_one_div, div_le_iff₀ (by positivity)] at this
    norm_num at *
    linarith
  obtain ⟨⟨r1, -⟩, r2⟩ := r0 (by rwa [abs_of_nonneg f0])
  refine ⟨r1, ?_⟩
  generalize real (B32.round false F 1) = z at *
  rw [abs_of_nonneg f0] at r2
  have e : z * s - 1 = (z - f) * s + (f * s - 1) := by ring
  rw [e]
  refine (abs_add_le _ _).trans ?_
  rw [abs_mul, abs_of_pos hp]
  have k1 := mul_le_mul_of_nonneg_right r2 hp.le
  have k2 : tiny * s ≤ 1 / 10 ^ 9 := by
    have := mul_le_mul_of_nonneg_left h.2 (show 0 ≤ tiny by unfold tiny; positivity)
    refine this.trans ?_
    unfold tiny
    norm_num
  rw [show (eps * f + tiny) * s = eps * (f * s) + tiny * s by ring] at k1
  have k3 := abs_le.1 w1
  unfold eps at *
  norm_num at k1 k2 k3 w1 ⊢
  linarith

/-- The refined reciprocal of a square root. -/
def refineRoot (v : Flt) : Flt := mul (rsqrte v) (rsqrtStep v (mul (rsqrte v) (rsqrte v)))

theorem refineRoot_near {v : Flt} {s : ℝ} (hv : Spec.F32.Finite v) (h : Root s) (hs : real v = s * s) :
    Near (refineRoot v) s 1 (17 / 10 ^ 6) := by
  have hp := h.pos
  obtain ⟨q1, q2⟩ := h.sq
  obtain ⟨hf, hu⟩ := rsqrte_near hv h hs
  unfold refineRoot
  generalize rsqrte v = f at *
  have hr : Near f s (real f * s) 0 := ⟨hf, by simp⟩
  generalize real f * s = u at *
  have hu' := abs_le.1 hu
  have hu1 : |u| ≤ 1004 / 10 ^ 3 := by rw [abs_le]; norm_num at *; constructor <;> linarith
  have ts : tiny * (s * s) ≤ 24 / 10 ^ 8 := by
    have : tiny * (s * s) ≤ tiny * 2 ^ 128 := mul_le_mul_of_nonneg_left q2 (by unfold tiny; positivity)
    refine this.trans ?_
    unfold tiny
    norm_num
  have p := near_mul (1004 / 10 ^ 3) (1004 / 10 ^ 3) (31 / 10 ^ 8) hr hr hp hp hu1 hu1 (by norm_num at *; linarith)
    (by unfold eps at *; norm_num at ts ⊢; linarith)
  obtain ⟨p1, p2⟩ := p
  generalize mul f f = g at *
  have e : real g * (s * s) = real v * real g := by rw [hs]; ring
  rw [e] at p2
  have uu : u * u - 1 = (u - 1) * (u + 1) := by ring
  have sq : (u - 1) * (u - 1) ≤ 10957 / 10 ^ 9 := by
    have : |u - 1| * |u - 1| ≤ 331 / 10 ^ 5 * (331 / 10 ^ 5) := mul_le_mul hu hu (abs_nonneg _) (by norm_num)
    rw [abs_mul_abs_self] at this
    norm_num at *
    linarith
  have sq0 := mul_self_nonneg (u - 1)
  have u2 : u * u = 1 + 2 * (u - 1) + (u - 1) * (u - 1) := by ring
  have h3 : |(3 - u * u) / 2| ≤ 1004 / 10 ^ 3 := by
    rw [u2, abs_le]
    norm_num at *
    constructor <;> linarith
  have y3 : |(3 - real v * real g) / 2| ≤ 1005 / 10 ^ 3 := by
    rw [abs_le] at p2 h3 ⊢
    norm_num at p2 h3 ⊢
    constructor <;> linarith
  obtain ⟨⟨t1, -⟩, t2⟩ := rsqrtStep_rounds hv p1 (y3.trans (by norm_num))
  generalize rsqrtStep v g = t at *
  have st : Near t 1 ((3 - u * u) / 2) (22 / 10 ^ 8) := by
    refine ⟨t1, ?_⟩
    rw [mul_one]
    have e : real t - (3 - u * u) / 2 = (real t - (3 - real v * real g) / 2) + (u * u - real v * real g) / 2 := by ring
    rw [e]
    refine (abs_add_le _ _).trans ?_
    rw [abs_div, abs_sub_comm (u * u)]
    unfold eps tiny at t2
    norm_num [-abs_mul] at t2 p2 y3 ⊢
    linarith
  have tsm : tiny * s ≤ 1 / 10 ^ 9 := by
    have := mul_le_mul_of_nonneg_left h.2 (show 0 ≤ tiny by unfold tiny; positivity)
    refine this.trans ?_
    unfold tiny
    norm_num
  have n := near_mul (1004 / 10 ^ 3) (1004 / 10 ^ 3) (3 / 10 ^ 7) hr st hp one_pos hu1 h3
    (by rw [mul_one]; have := h.1; norm_num at *; linarith)
    (by rw [mul_one]; unfold eps at *; norm_num at tsm ⊢; linarith)
  rw [mul_one] at n
  refine ⟨n.1, ?_⟩
  have n2 := n.2
  generalize real (mul f t) * s = z at *
  have k : |u * ((3 - u * u) / 2) - 1| ≤ 166 / 10 ^ 7 := by
    have e : u * ((3 - u * u) / 2) - 1 = -((u - 1) * (u - 1)) * (3 / 2 + (u - 1) / 2) := by ring
    rw [e, abs_mul, abs_neg, abs_of_nonneg sq0]
    have : |3 / 2 + (u - 1) / 2| ≤ 151 / 100 := by rw [abs_le]; norm_num at *; constructor <;> linarith
    exact (mul_le_mul sq this (abs_nonneg _) (by norm_num)).trans (by norm_num)
  have := abs_add_le (z - u * ((3 - u * u) / 2)) (u * ((3 - u * u) / 2) - 1)
  rw [show z - u * ((3 - u * u) / 2) + (u * ((3 - u * u) / 2) - 1) = z - 1 by ring] at this
  norm_num at this n2 k ⊢
  linarith

/-- The square root. -/
theorem root_near {v : Flt} {s : ℝ} (hv : Spec.F32.Finite v) (h : Root s) (hs : real v = s * s) :
    Spec.F32.Finite (mul (refineRoot v) v) ∧ |real (mul (refineRoot v) v) - s| ≤ 18 / 10 ^ 6 * s := by
  have hp := h.pos
  obtain ⟨hf, h1⟩ := refineRoot_near hv h hs
  generalize refineRoot v = f at *
  have e : real f * real v = s + s * (real f * s - 1) := by rw [hs]; ring
  generalize real f * s - 1 = t at *
  have st : |s * t| ≤ 17 / 10 ^ 6 * s := by rw [abs_mul, abs_of_pos hp, mul_comm]; exact mul_le_mul_of_nonneg_right h1 hp.le
  have b : |real f * real v| ≤ 101 / 100 * s := by
    rw [e]
    refine (abs_add_le _ _).trans ?_
    rw [abs_of_pos hp]
    norm_num [-abs_mul] at st ⊢
    linarith
  have m := mul_real hf hv (b.trans (by have := h.2; norm_num at *; linarith))
  refine ⟨m.1, ?_⟩
  have m2 := m.2
  generalize real (mul f v) = z at *
  have e' : z - s = (z - real f * real v) + s * t := by rw [e]; ring
  rw [e']
  refine (abs_add_le _ _).trans ?_
  have : eps * |real f * real v| ≤ eps * (101 / 100 * s) := mul_le_mul_of_nonneg_left b (by unfold eps; positivity)
  have ht : tiny ≤ 1 / 10 ^ 8 * s := by
    have := h.1
    unfold tiny
    norm_num at *
    linarith
  unfold eps at *
  norm_num [-abs_mul] at st m2 this ht ⊢
  linarith

end Verif.Neon
