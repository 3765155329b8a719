import Verif.Lemmas.TrigReal

/-!
# Accuracy of the square roots

Newton's method for `1 / s` is compared with `u (3 - u^2) / 2`, where `u` is the approximation times `s`.
-/

namespace Verif.Trig

open Verif Verif.B32 Verif.MathFns Verif.Spec.F32

/-- `x` times `k` is near `a`. -/
def Near (x : Flt) (k a d : ℝ) : Prop := Spec.F32.Finite x ∧ |real x * k - a| ≤ d

/-- A product, with both factors scaled. -/
theorem near_mul {x y : Flt} {k l a b d e : ℝ} (A B f : ℝ) (hx : Near x k a d) (hy : Near y l b e) (hk : 0 < k) (hl : 0 < l)
    (hA : |a| ≤ A) (hB : |b| ≤ B) (hb : (A + d) * (B + e) ≤ 2 ^ 127 * (k * l))
    (hf : A * e + B * d + d * e + eps * ((A + d) * (B + e)) + tiny * (k * l) ≤ f) : Near (mul x y) (k * l) (a * b) f := by
  have hd0 : 0 ≤ d := (abs_nonneg _).trans hx.2
  have he0 : 0 ≤ e := (abs_nonneg _).trans hy.2
  have hA0 : 0 ≤ A := (abs_nonneg _).trans hA
  have hB0 : 0 ≤ B := (abs_nonneg _).trans hB
  have hkl : 0 < k * l := mul_pos hk hl
  have x1 : |real x * k| ≤ A + d := by
    have : real x * k = a + (real x * k - a) := by ring
    rw [this]; exact (abs_add_le _ _).trans (add_le_add hA hx.2)
  have y1 : |real y * l| ≤ B + e := by
    have : real y * l = b + (real y * l - b) := by ring
    rw [this]; exact (abs_add_le _ _).trans (add_le_add hB hy.2)
  have xy : |real x * real y| * (k * l) ≤ (A + d) * (B + e) := by
    have : |real x * real y| * (k * l) = |real x * k| * |real y * l| := by
      rw [abs_mul, abs_mul, abs_mul, abs_of_pos hk, abs_of_pos hl]; ring
    rw [this]
    exact mul_le_mul x1 y1 (abs_nonneg _) (by positivity)
  obtain ⟨m1, m2⟩ := mul_real hx.1 hy.1 (le_of_mul_le_mul_right (xy.trans hb) hkl)
  refine ⟨m1, ?_⟩
  have t1 : |real (mul x y) - real x * real y| * (k * l) ≤ eps * ((A + d) * (B + e)) + tiny * (k * l) := by
    have e0 : 0 ≤ eps := by unfold eps; positivity
    calc _ ≤ (eps * |real x * real y| + tiny) * (k * l) := mul_le_mul_of_nonneg_right m2 hkl.le
      _ = eps * (|real x * real y| * (k * l)) + tiny * (k * l) := by ring
      _ ≤ _ := by gcongr
  have t2 : |real x * k * (real y * l) - a * b| ≤ A * e + B * d + d * e := by
    have : real x * k * (real y * l) - a * b = a * (real y * l - b) + b * (real x * k - a) + (real x * k - a) * (real y * l - b) := by ring
    rw [this]
    refine (abs_add_le _ _).trans (add_le_add ((abs_add_le _ _).trans (add_le_add ?_ ?_)) ?_)
    · rw [abs_mul]; exact mul_le_mul hA hy.2 (abs_nonneg _) hA0
    · rw [abs_mul]; exact mul_le_mul hB hx.2 (abs_nonneg _) hB0
    · rw [abs_mul]; exact mul_le_mul hx.2 hy.2 (abs_nonneg _) hd0
  have : real (mul x y) * (k * l) - a * b = (real (mul x y) - real x * real y) * (k * l) + (real x * k * (real y * l) - a * b) := by ring
  rw [this]
  refine (abs_add_le _ _).trans ?_
  rw [abs_mul, abs_of_pos hkl]
  linarith

theorem near_approx {x : Flt} {a d : ℝ} : Near x 1 a d ↔ Approx x a d := by
  unfold Near Approx
  rw [mul_one]

theorem Near.mono {x : Flt} {k a d f : ℝ} (h : Near x k a d) (hf : d ≤ f) : Near x k a f := ⟨h.1, h.2.trans hf⟩

/-- The range of the square roots of normal floats. -/
def Root (s : ℝ) : Prop := 1 / 2 ^ 63 ≤ s ∧ s ≤ 2 ^ 64

theorem Root.pos {s : ℝ} (h : Root s) : 0 < s := lt_of_lt_of_le (by positivity) h.1

theorem Root.inv {s : ℝ} (h : Root s) : 1 / 2 ^ 64 ≤ s⁻¹ ∧ s⁻¹ ≤ 2 ^ 63 := by
  constructor
  · rw [one_div]; exact inv_anti₀ h.pos h.2
  · have := inv_anti₀ (by positivity) h.1
    simpa using this

theorem Root.sq {s : ℝ} (h : Root s) : 1 / 2 ^ 126 ≤ s * s ∧ s * s ≤ 2 ^ 128 := by
  have h0 := h.pos
  have a := mul_le_mul h.1 h.1 (by positivity) h0.le
  have b := mul_le_mul h.2 h.2 h0.le (by positivity)
  norm_num at *
  exact ⟨a, b⟩

theorem Root.invsq {s : ℝ} (h : Root s) : 1 / 2 ^ 128 ≤ s⁻¹ * s⁻¹ ∧ s⁻¹ * s⁻¹ ≤ 2 ^ 126 := by
  obtain ⟨i1, i2⟩ := h.inv
  have h0 : 0 < s⁻¹ := inv_pos.2 h.pos
  have a := mul_le_mul i1 i1 (by positivity) h0.le
  have b := mul_le_mul i2 i2 h0.le (by positivity)
  norm_num at *
  exact ⟨a, b⟩

theorem three0 : Approx (const 0x40400000) 3 0 :=
  const_of (m := 12582912) (q := 127) (by decide) ⟨by decide, by decide, .inr (by decide)⟩ (by decide)
    (by norm_num)

theorem halfUp : Approx (const 0x3F000001) (1 / 2) (6 / 10 ^ 8) :=
  const_of (m := 8388609) (q := 125) (by decide) ⟨by decide, by decide, .inr (by decide)⟩ (by decide)
    (by rw [abs_le]; constructor <;> norm_num)

/-- The value of a float with the given root. -/
theorem near_value {v : Flt} {s : ℝ} (hv : Spec.F32.Finite v) (h : Root s) (hs : real v = s * s) : Near v (s⁻¹ * s⁻¹) 1 0 := by
  have := h.pos.ne'
  refine ⟨hv, ?_⟩
  rw [hs, show s * s * (s⁻¹ * s⁻¹) - 1 = (s * s⁻¹) * (s * s⁻¹) - 1 by ring, mul_inv_cancel₀ this]
  norm_num

theorem kk {s : ℝ} (h : Root s) : s⁻¹ * s⁻¹ * (s * s) = 1 := by
  have := h.pos.ne'
  rw [show s⁻¹ * s⁻¹ * (s * s) = (s * s⁻¹) * (s * s⁻¹) by ring, mul_inv_cancel₀ this]; norm_num

/-- The step with SSE. -/
theorem newton_sse {rsqrt : Flt → Flt} {v : Flt} {s u : ℝ} (hv : Spec.F32.Finite v) (h : Root s) (hs : real v = s * s)
    (hr : Near (rsqrt v) s u 0) (hu : |u - 1| ≤ 367 / 10 ^ 6) : Near (newton rsqrt v) s 1 (9 / 10 ^ 7) := by
  have hp := h.pos
  obtain ⟨q1, q2⟩ := h.sq
  rw [abs_le] at hu
  have hu1 : |u| ≤ 1000367 / 10 ^ 6 := by rw [abs_le]; norm_num at *; constructor <;> linarith
  have uu : |u * u| ≤ 10008 / 10 ^ 4 := by
    rw [abs_mul]
    exact (mul_le_mul hu1 hu1 (abs_nonneg _) (by norm_num)).trans (by norm_num)
  -- r * r
  have p := near_mul (1000367 / 10 ^ 6) (1000367 / 10 ^ 6) (6 / 10 ^ 8 + tiny * (s * s)) hr hr hp hp hu1 hu1 (by norm_num at *; linarith)
    (by unfold eps; norm_num)
  have ts : tiny * (s * s) ≤ 24 / 10 ^ 8 := by
    have : tiny * (s * s) ≤ tiny * 2 ^ 128 := mul_le_mul_of_nonneg_left q2 (by unfold tiny; positivity)
    refine this.trans ?_
    unfold tiny
    norm_num
  have p' := p.mono (f := 3 / 10 ^ 7) (by norm_num at *; linarith)
  -- v * (r * r)
  have hi : 0 < s⁻¹ * s⁻¹ := by positivity
  have w := near_mul 1 (10008 / 10 ^ 4) (37 / 10 ^ 8) (near_value hv h hs) p' hi (by positivity) (by norm_num) uu
    (by rw [kk h]; norm_num) (by rw [kk h]; unfold eps tiny; norm_num)
  rw [kk h, near_approx, one_mul] at w
  -- 3 - ...
  have m1 : |3 - u * u| ≤ 201 / 100 := by
    have := mul_self_nonneg u
    rw [abs_le] at uu ⊢
    norm_num at *
    constructor <;> nlinarith
  have m := Approx.sub (201 / 100) (5 / 10 ^ 7) three0 w m1 (by norm_num) (by unfold eps; norm_num)
  -- r * 0.5
  have g := near_mul (1000367 / 10 ^ 6) (1 / 2) (91 / 10 ^ 9) hr (near_approx.2 halfUp) hp one_pos hu1 (by norm_num)
    (by rw [mul_one]; have := h.1; norm_num at *; linarith)
    (by rw [mul_one]; have := mul_le_mul_of_nonneg_left h.2 (show 0 ≤ tiny by unfold tiny; positivity)
        unfold eps tiny at *; norm_num at *; linarith)
  rw [mul_one] at g
  have hg : |u * (1 / 2)| ≤ 501 / 1000 := by rw [abs_le] at hu1 ⊢; norm_num at *; constructor <;> linarith
  have n := near_mul (201 / 100) (501 / 1000) (6 / 10 ^ 7) (near_approx.2 m) g one_pos hp m1 hg
    (by rw [one_mul]; have := h.1; norm_num at *; linarith)
    (by rw [one_mul]; have := mul_le_mul_of_nonneg_left h.2 (show 0 ≤ tiny by unfold tiny; positivity)
        unfold eps tiny at *; norm_num at *; linarith)
  rw [one_mul] at n
  refine ⟨n.1, ?_⟩
  have e : (3 - u * u) * (u * (1 / 2)) - 1 = -((u - 1) * (u - 1)) * (3 / 2 + (u - 1) / 2) := by ring
  have sq : (u - 1) * (u - 1) ≤ 1347 / 10 ^ 10 := by
    have : |u - 1| * |u - 1| ≤ 367 / 10 ^ 6 * (367 / 10 ^ 6) := mul_le_mul (abs_le.2 hu) (abs_le.2 hu) (abs_nonneg _) (by norm_num)
    rw [abs_mul_abs_self] at this
    norm_num at *
    linarith
  have k : |(3 - u * u) * (u * (1 / 2)) - 1| ≤ 21 / 10 ^ 8 := by
    rw [e, abs_mul, abs_neg, abs_of_nonneg (mul_self_nonneg _)]
    have : |3 / 2 + (u - 1) / 2| ≤ 151 / 100 := by rw [abs_le]; norm_num at *; constructor <;> linarith
    exact (mul_le_mul sq this (abs_nonneg _) (by norm_num)).trans (by norm_num)
  have := abs_add_le (real (newton rsqrt v) * s - (3 - u * u) * (u * (1 / 2))) ((3 - u * u) * (u * (1 / 2)) - 1)
  rw [show real (newton rsqrt v) * s - (3 - u * u) * (u * (1 / 2)) + ((3 - u * u) * (u * (1 / 2)) - 1) = real (newton rsqrt v) * s - 1 by ring] at this
  have n2 : |real (newton rsqrt v) * s - (3 - u * u) * (u * (1 / 2))| ≤ 6 / 10 ^ 7 := n.2
  norm_num at *
  linarith

/-- The last product of `Sqrt`. -/
theorem near_root {v n : Flt} {s d : ℝ} (hv : Spec.F32.Finite v) (h : Root s) (hs : real v = s * s) (hn : Near n s 1 d) (hd : d ≤ 1 / 100) :
    Near (mul n v) s⁻¹ 1 (d + 7 / 10 ^ 8) := by
  have hp := h.pos
  have d0 : 0 ≤ d := (abs_nonneg _).trans hn.2
  have e : s * (s⁻¹ * s⁻¹) = s⁻¹ := by rw [← mul_assoc, mul_inv_cancel₀ hp.ne', one_mul]
  obtain ⟨i1, i2⟩ := h.inv
  have := near_mul 1 1 (d + 7 / 10 ^ 8) hn (near_value hv h hs) hp (by positivity) (by norm_num) (by norm_num)
    (by rw [e]; norm_num at *; linarith)
    (by rw [e]; have := mul_le_mul_of_nonneg_left i2 (show 0 ≤ tiny by unfold tiny; positivity)
        unfold eps tiny at *; norm_num at *; linarith)
  rwa [e, one_mul] at this

/-- A step without SSE. -/
theorem newton_plain {v r : Flt} {s u : ℝ} (hv : Spec.F32.Finite v) (h : Root s) (hs : real v = s * s)
    (hr : Near r s u 0) (hu : |u - 1| ≤ 36 / 1000) : Near (newtonPlain v r) s (1 / 2 * u * (3 - u * u)) (4 / 10 ^ 7) := by
  have hp := h.pos
  rw [abs_le] at hu
  have hu1 : |u| ≤ 1036 / 1000 := by rw [abs_le]; norm_num at *; constructor <;> linarith
  have uu : |u * u| ≤ 1074 / 1000 := by
    rw [abs_mul]
    exact (mul_le_mul hu1 hu1 (abs_nonneg _) (by norm_num)).trans (by norm_num)
  have e : s⁻¹ * s⁻¹ * s = s⁻¹ := by rw [mul_assoc, inv_mul_cancel₀ hp.ne', mul_one]
  obtain ⟨i1, i2⟩ := h.inv
  have p := near_mul 1 (1036 / 1000) (7 / 10 ^ 8) (near_value hv h hs) hr (by positivity) hp (by norm_num) hu1
    (by rw [e]; norm_num at *; linarith)
    (by rw [e]; have := mul_le_mul_of_nonneg_left i2 (show 0 ≤ tiny by unfold tiny; positivity)
        unfold eps tiny at *; norm_num at *; linarith)
  rw [e, one_mul] at p
  have w := near_mul (1036 / 1000) (1036 / 1000) (14 / 10 ^ 8) p hr (by positivity) hp hu1 hu1
    (by rw [inv_mul_cancel₀ hp.ne']; norm_num) (by rw [inv_mul_cancel₀ hp.ne']; unfold eps tiny; norm_num)
  rw [inv_mul_cancel₀ hp.ne', near_approx] at w
  have m1 : |3 - u * u| ≤ 21 / 10 := by
    rw [abs_le] at uu ⊢
    norm_num at *
    constructor <;> nlinarith
  have m := Approx.sub (21 / 10) (3 / 10 ^ 7) three0 w m1 (by norm_num) (by unfold eps; norm_num)
  have g := near_mul (1 / 2) (1036 / 1000) (4 / 10 ^ 8) (near_approx.2 half0) hr one_pos hp (by norm_num) hu1
    (by rw [one_mul]; have := h.1; norm_num at *; linarith)
    (by rw [one_mul]; have := mul_le_mul_of_nonneg_left h.2 (show 0 ≤ tiny by unfold tiny; positivity)
        unfold eps tiny at *; norm_num at *; linarith)
  rw [one_mul] at g
  have hg : |1 / 2 * u| ≤ 519 / 1000 := by rw [abs_le] at hu1 ⊢; norm_num at *; constructor <;> linarith
  have n := near_mul (519 / 1000) (21 / 10) (4 / 10 ^ 7) g (near_approx.2 m) hp one_pos hg m1
    (by rw [mul_one]; have := h.1; norm_num at *; linarith)
    (by rw [mul_one]; have := mul_le_mul_of_nonneg_left h.2 (show 0 ≤ tiny by unfold tiny; positivity)
        unfold eps tiny at *; norm_num at *; linarith)
  rwa [mul_one] at n

/-- The error of the method itself. -/
theorem newton_error {u e : ℝ} (h : |u - 1| ≤ e) (he : e ≤ 1 / 10) : |1 / 2 * u * (3 - u * u) - 1| ≤ 16 / 10 * (e * e) := by
  have e0 : 0 ≤ e := (abs_nonneg _).trans h
  have i : 1 / 2 * u * (3 - u * u) - 1 = -((u - 1) * (u - 1)) * (3 / 2 + (u - 1) / 2) := by ring
  have sq : (u - 1) * (u - 1) ≤ e * e := by
    have := mul_le_mul h h (abs_nonneg _) e0
    rwa [abs_mul_abs_self] at this
  rw [i, abs_mul, abs_neg, abs_of_nonneg (mul_self_nonneg _)]
  have : |3 / 2 + (u - 1) / 2| ≤ 16 / 10 := by rw [abs_le] at h ⊢; norm_num at *; constructor <;> linarith
  calc _ ≤ e * e * (16 / 10) := mul_le_mul sq this (abs_nonneg _) (by positivity)
    _ = _ := by ring

/-- Both steps. -/
theorem newton_twice {v r : Flt} {s u : ℝ} (hv : Spec.F32.Finite v) (h : Root s) (hs : real v = s * s)
    (hr : Near r s u 0) (hu : |u - 1| ≤ 36 / 1000) : Near (newtonPlain v (newtonPlain v r)) s 1 (8 / 10 ^ 6) := by
  have a := newton_plain hv h hs hr hu
  have b := newton_error hu (by norm_num)
  have c : |real (newtonPlain v r) * s - 1| ≤ 2075 / 10 ^ 6 := by
    have := abs_add_le (real (newtonPlain v r) * s - 1 / 2 * u * (3 - u * u)) (1 / 2 * u * (3 - u * u) - 1)
    rw [show real (newtonPlain v r) * s - 1 / 2 * u * (3 - u * u) + (1 / 2 * u * (3 - u * u) - 1) = real (newtonPlain v r) * s - 1 by ring] at this
    have a2 := a.2
    norm_num at *
    linarith
  have hr' : Near (newtonPlain v r) s (real (newtonPlain v r) * s) 0 := ⟨a.1, by rw [sub_self, abs_zero]⟩
  have a' := newton_plain hv h hs hr' (c.trans (by norm_num))
  have b' := newton_error c (by norm_num)
  refine ⟨a'.1, ?_⟩
  generalize real (newtonPlain v r) * s = w at *
  have := abs_add_le (real (newtonPlain v (newtonPlain v r)) * s - 1 / 2 * w * (3 - w * w)) (1 / 2 * w * (3 - w * w) - 1)
  rw [show real (newtonPlain v (newtonPlain v r)) * s - 1 / 2 * w * (3 - w * w) + (1 / 2 * w * (3 - w * w) - 1) = real (newtonPlain v (newtonPlain v r)) * s - 1 by ring] at this
  have a2 := a'.2
  norm_num at *
  linarith

/-! ## The magic constant -/

theorem magic_a {t o : ℝ} (h0 : 0 ≤ t) (h1 : t ≤ 3627654 / 2 ^ 23) (o0 : 0 ≤ o) (o1 : o ≤ 1 / 2 ^ 23) :
    93 / 100 ≤ (1 + (3627654 / 2 ^ 23 - t)) ^ 2 * (1 + (2 * t + o)) / 2 ∧
    (1 + (3627654 / 2 ^ 23 - t)) ^ 2 * (1 + (2 * t + o)) / 2 ≤ 107 / 100 := by
  norm_num at *
  constructor <;> nlinarith [mul_nonneg (mul_nonneg h0 (sub_nonneg.2 h1)) (by linarith : 0 ≤ 2 - t), mul_nonneg (sq_nonneg (t - 1 / 7)) (by linarith : 0 ≤ 2 - t),
    mul_nonneg o0 (sq_nonneg (1 + (1813827 / 4194304 - t))), mul_nonneg h0 o0]

theorem magic_b {t o : ℝ} (h0 : 3627654 / 2 ^ 23 ≤ t) (h1 : t ≤ 1 / 2) (o0 : 0 ≤ o) (o1 : o ≤ 1 / 2 ^ 23) :
    93 / 100 ≤ (1 + (1 + 3627654 / 2 ^ 23 - t)) ^ 2 * (1 + (2 * t + o)) / 8 ∧
    (1 + (1 + 3627654 / 2 ^ 23 - t)) ^ 2 * (1 + (2 * t + o)) / 8 ≤ 107 / 100 := by
  norm_num at *
  constructor <;> nlinarith [mul_nonneg (mul_nonneg (sub_nonneg.2 h0) (sub_nonneg.2 h1)) (by linarith : 0 ≤ 2 - t), mul_nonneg (sq_nonneg (t - 1 / 2)) (by linarith : 0 ≤ 2 - t),
    mul_nonneg o0 (sq_nonneg (1 + (1 + 1813827 / 4194304 - t))), mul_nonneg (sub_nonneg.2 h0) o0]

theorem magic_c {t o : ℝ} (h0 : 0 ≤ t) (h1 : t ≤ 1 / 2) (o0 : 0 ≤ o) (o1 : o ≤ 1 / 2 ^ 23) :
    93 / 100 ≤ (1 + (1 / 2 + 3627654 / 2 ^ 23 - t)) ^ 2 * (1 + (2 * t + o)) / 4 ∧
    (1 + (1 / 2 + 3627654 / 2 ^ 23 - t)) ^ 2 * (1 + (2 * t + o)) / 4 ≤ 107 / 100 := by
  norm_num at *
  constructor <;> nlinarith [mul_nonneg (mul_nonneg h0 (sub_nonneg.2 h1)) (by linarith : 0 ≤ 2 - t), mul_nonneg (sq_nonneg (t - 5 / 16)) (by linarith : 0 ≤ 2 - t),
    mul_nonneg o0 (sq_nonneg (1 + (1 / 2 + 1813827 / 4194304 - t))), mul_nonneg h0 o0]

theorem powers (k : Int) : (2 : ℝ) ^ (63 - k) * 2 ^ (63 - k) * 2 ^ (2 * k - 127) = 1 / 2 ∧
    (2 : ℝ) ^ (62 - k) * 2 ^ (62 - k) * 2 ^ (2 * k - 127) = 1 / 8 ∧
    (2 : ℝ) ^ (62 - k) * 2 ^ (62 - k) * 2 ^ (2 * k + 1 - 127) = 1 / 4 := by
  have h : (2 : ℝ) ≠ 0 := by norm_num
  refine ⟨?_, ?_, ?_⟩ <;> rw [← zpow_add₀ h, ← zpow_add₀ h]
  · rw [show 63 - k + (63 - k) + (2 * k - 127) = -1 by ring]; norm_num
  · rw [show 62 - k + (62 - k) + (2 * k - 127) = -3 by ring]; norm_num
  · rw [show 62 - k + (62 - k) + (2 * k + 1 - 127) = -2 by ring]; norm_num

/-- The first guess has an error of at most 3.6 percent. -/
theorem guess_spec {b : Nat} (h1 : 2 ^ 23 ≤ b) (h2 : b < 255 * 2 ^ 23) :
    Spec.F32.Finite (ofBits (0x5F375A86 - b / 2)) ∧ 0 ≤ real (ofBits (0x5F375A86 - b / 2)) ∧
    93 / 100 ≤ real (ofBits (0x5F375A86 - b / 2)) * real (ofBits (0x5F375A86 - b / 2)) * real (ofBits b) ∧
    real (ofBits (0x5F375A86 - b / 2)) * real (ofBits (0x5F375A86 - b / 2)) * real (ofBits b) ≤ 107 / 100 := by
  have c1 : 2 ^ 23 ≤ 0x5F375A86 - b / 2 := by omega
  have c2 : 0x5F375A86 - b / 2 < 255 * 2 ^ 23 := by omega
  refine ⟨normal_finite c1 c2, ?_, ?_⟩
  · rw [normal_real c1 c2]; positivity
  rw [normal_real c1 c2, normal_real h1 h2]
  obtain ⟨k, hk⟩ : ∃ k, b / 2 ^ 23 = 2 * k ∨ b / 2 ^ 23 = 2 * k + 1 := ⟨b / 2 ^ 23 / 2, by omega⟩
  obtain ⟨h, o, hM, ho⟩ : ∃ h o, b % 2 ^ 23 = 2 * h + o ∧ o ≤ 1 := ⟨b % 2 ^ 23 / 2, b % 2 ^ 23 % 2, by omega, by omega⟩
  have hl : h < 2 ^ 22 := by omega
  have ho0 : (0 : ℝ) ≤ (o : ℝ) / 2 ^ 23 := by positivity
  have ho1 : (o : ℝ) / 2 ^ 23 ≤ 1 / 2 ^ 23 := by
    have : (o : ℝ) ≤ 1 := by exact_mod_cast ho
    gcongr
  have ht0 : (0 : ℝ) ≤ (h : ℝ) / 2 ^ 23 := by positivity
  have ht1 : (h : ℝ) / 2 ^ 23 ≤ 1 / 2 := by
    have : (h : ℝ) ≤ 2 ^ 22 := by exact_mod_cast hl.le
    rw [div_le_iff₀ (by positivity)]
    norm_num at *
    linarith
  rcases hk with hk | hk
  · by_cases hs : h ≤ 3627654
    · have d1 : (0x5F375A86 - b / 2) / 2 ^ 23 = 190 - k := by omega
      have d2 : (0x5F375A86 - b / 2) % 2 ^ 23 = 3627654 - h := by omega
      rw [d1, d2, hk, hM, Nat.cast_sub hs, Nat.cast_sub (show k ≤ 190 by omega)]
      have hm := magic_a (t := (h : ℝ) / 2 ^ 23) (o := (o : ℝ) / 2 ^ 23) ht0
        (by have : (h : ℝ) ≤ 3627654 := by exact_mod_cast hs
            gcongr) ho0 ho1
      have e : (1 + (((3627654 : Nat) : ℝ) - (h : ℝ)) / 2 ^ 23) * (2 : ℝ) ^ (((190 : Nat) : Int) - (k : Int) - 127) * ((1 + (((3627654 : Nat) : ℝ) - (h : ℝ)) / 2 ^ 23) * (2 : ℝ) ^ (((190 : Nat) : Int) - (k : Int) - 127)) *
          ((1 + (((2 * h + o : Nat) : Nat) : ℝ) / 2 ^ 23) * (2 : ℝ) ^ (((2 * k : Nat) : Int) - 127)) =
          (1 + (3627654 / 2 ^ 23 - (h : ℝ) / 2 ^ 23)) ^ 2 * (1 + (2 * ((h : ℝ) / 2 ^ 23) + (o : ℝ) / 2 ^ 23)) / 2 := by
        have pw := (powers k).1
        rw [show ((190 : Nat) : Int) - (k : Int) - 127 = 63 - k by push_cast; ring, show ((2 * k : Nat) : Int) - 127 = 2 * k - 127 by push_cast; ring]
        push_cast
        linear_combination (1 + (3627654 - (h : ℝ)) / 2 ^ 23) * (1 + (3627654 - (h : ℝ)) / 2 ^ 23) * (1 + (2 * h + (o : ℝ)) / 2 ^ 23) * pw
      rw [e]
      exact hm
    · have d1 : (0x5F375A86 - b / 2) / 2 ^ 23 = 189 - k := by omega
      have d2 : (0x5F375A86 - b / 2) % 2 ^ 23 = 2 ^ 23 + 3627654 - h := by omega
      rw [d1, d2, hk, hM, Nat.cast_sub (show h ≤ 2 ^ 23 + 3627654 by omega), Nat.cast_sub (show k ≤ 189 by omega)]
      have hm := magic_b (t := (h : ℝ) / 2 ^ 23) (o := (o : ℝ) / 2 ^ 23)
        (by have : (3627654 : ℝ) ≤ h := by exact_mod_cast (Nat.lt_of_not_le hs).le
            gcongr) ht1 ho0 ho1
      have e : (1 + (((2 ^ 23 + 3627654 : Nat) : ℝ) - (h : ℝ)) / 2 ^ 23) * (2 : ℝ) ^ (((189 : Nat) : Int) - (k : Int) - 127) * ((1 + (((2 ^ 23 + 3627654 : Nat) : ℝ) - (h : ℝ)) / 2 ^ 23) * (2 : ℝ) ^ (((189 : Nat) : Int) - (k : Int) - 127)) *
          ((1 + (((2 * h + o : Nat) : Nat) : ℝ) / 2 ^ 23) * (2 : ℝ) ^ (((2 * k : Nat) : Int) - 127)) =
          (1 + (1 + 3627654 / 2 ^ 23 - (h : ℝ) / 2 ^ 23)) ^ 2 * (1 + (2 * ((h : ℝ) / 2 ^ 23) + (o : ℝ) / 2 ^ 23)) / 8 := by
        have pw := (powers k).2.1
        rw [show ((189 : Nat) : Int) - (k : Int) - 127 = 62 - k by push_cast; ring, show ((2 * k : Nat) : Int) - 127 = 2 * k - 127 by push_cast; ring]
        push_cast
        linear_combination (1 + (2 ^ 23 + 3627654 - (h : ℝ)) / 2 ^ 23) * (1 + (2 ^ 23 + 3627654 - (h : ℝ)) / 2 ^ 23) * (1 + (2 * h + (o : ℝ)) / 2 ^ 23) * pw
      rw [e]
      exact hm
  · have d1 : (0x5F375A86 - b / 2) / 2 ^ 23 = 189 - k := by omega
    have d2 : (0x5F375A86 - b / 2) % 2 ^ 23 = 2 ^ 22 + 3627654 - h := by omega
    rw [d1, d2, hk, hM, Nat.cast_sub (show h ≤ 2 ^ 22 + 3627654 by omega), Nat.cast_sub (show k ≤ 189 by omega)]
    have hm := magic_c (t := (h : ℝ) / 2 ^ 23) (o := (o : ℝ) / 2 ^ 23) ht0 ht1 ho0 ho1
    have e : (1 + (((2 ^ 22 + 3627654 : Nat) : ℝ) - (h : ℝ)) / 2 ^ 23) * (2 : ℝ) ^ (((189 : Nat) : Int) - (k : Int) - 127) * ((1 + (((2 ^ 22 + 3627654 : Nat) : ℝ) - (h : ℝ)) / 2 ^ 23) * (2 : ℝ) ^ (((189 : Nat) : Int) - (k : Int) - 127)) *
        ((1 + (((2 * h + o : Nat) : Nat) : ℝ) / 2 ^ 23) * (2 : ℝ) ^ (((2 * k + 1 : Nat) : Int) - 127)) =
        (1 + (1 / 2 + 3627654 / 2 ^ 23 - (h : ℝ) / 2 ^ 23)) ^ 2 * (1 + (2 * ((h : ℝ) / 2 ^ 23) + (o : ℝ) / 2 ^ 23)) / 4 := by
      have pw := (powers k).2.2
      rw [show ((189 : Nat) : Int) - (k : Int) - 127 = 62 - k by push_cast; ring, show ((2 * k + 1 : Nat) : Int) - 127 = 2 * k + 1 - 127 by push_cast; ring]
      push_cast
      linear_combination (1 + (2 ^ 22 + 3627654 - (h : ℝ)) / 2 ^ 23) * (1 + (2 ^ 22 + 3627654 - (h : ℝ)) / 2 ^ 23) * (1 + (2 * h + (o : ℝ)) / 2 ^ 23) * pw
    rw [e]
    exact hm

end Verif.Trig
