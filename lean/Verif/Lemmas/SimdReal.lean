import Verif.Lemmas.SqrtReal
import Verif.Lemmas.Simd

/-!
# Sums of products of floats
-/

namespace Verif.Simd

open Verif Verif.B32 Verif.MathFns Verif.Spec.F32

/-- A product of two floats. -/
theorem approx_product {x y : Flt} (hx : Spec.F32.Finite x) (hy : Spec.F32.Finite y) (h : |real x * real y| ≤ 2 ^ 127) :
    Approx (mul x y) (real x * real y) (eps * |real x * real y| + tiny) := mul_real hx hy h

/-- A sum of approximations, bounded by the absolute values. -/
theorem approx_sum {x y : Flt} {a b d e : ℝ} (hx : Approx x a d) (hy : Approx y b e) (h : |a| + |b| + (d + e) ≤ 2 ^ 127) :
    Approx (add x y) (a + b) (d + e + eps * (|a| + |b| + (d + e))) :=
  Approx.add (|a| + |b|) _ hx hy (abs_add_le _ _) h le_rfl

/-- A difference of approximations, bounded by the absolute values. -/
theorem approx_diff {x y : Flt} {a b d e : ℝ} (hx : Approx x a d) (hy : Approx y b e) (h : |a| + |b| + (d + e) ≤ 2 ^ 127) :
    Approx (sub x y) (a - b) (d + e + eps * (|a| + |b| + (d + e))) :=
  Approx.sub (|a| + |b|) _ hx hy (abs_sub _ _) h le_rfl

/-- Three products. -/
theorem approx_three {x1 y1 x2 y2 x3 y3 : Flt} (hx1 : Spec.F32.Finite x1) (hy1 : Spec.F32.Finite y1) (hx2 : Spec.F32.Finite x2)
    (hy2 : Spec.F32.Finite y2) (hx3 : Spec.F32.Finite x3) (hy3 : Spec.F32.Finite y3)
    (h : |real x1 * real y1| + |real x2 * real y2| + |real x3 * real y3| ≤ 2 ^ 126) :
    Approx (add (add (mul x1 y1) (mul x2 y2)) (mul x3 y3)) (real x1 * real y1 + real x2 * real y2 + real x3 * real y3)
      (7 / 2 * eps * (|real x1 * real y1| + |real x2 * real y2| + |real x3 * real y3|) + 7 / 2 * tiny) := by
  have n1 := abs_nonneg (real x1 * real y1)
  have n2 := abs_nonneg (real x2 * real y2)
  have n3 := abs_nonneg (real x3 * real y3)
  have p1 := approx_product hx1 hy1 (by norm_num at *; linarith)
  have p2 := approx_product hx2 hy2 (by norm_num at *; linarith)
  have p3 := approx_product hx3 hy3 (by norm_num at *; linarith)
  generalize real x1 * real y1 = a at *
  generalize real x2 * real y2 = b at *
  generalize real x3 * real y3 = c at *
  have s1 := approx_sum p1 p2 (by unfold eps tiny; norm_num at h ⊢; linarith)
  have ab := abs_add_le a b
  have s2 := approx_sum s1 p3 (by unfold eps tiny; norm_num at h ⊢; linarith)
  refine s2.mono ?_
  unfold eps tiny
  norm_num
  linarith

/-- One more term, which is exact. -/
theorem approx_more {s z : Flt} {a d : ℝ} (hs : Approx s a d) (hz : Spec.F32.Finite z) (h : |a| + |real z| + d ≤ 2 ^ 127) :
    Approx (add s z) (a + real z) (d + eps * (|a| + |real z| + d)) := by
  have := approx_sum hs (Approx.exact hz) (by rw [add_zero]; exact h)
  rwa [add_zero] at this

/-- The constant one half. -/
theorem half_exact : Approx (const 0x3F000000) (1 / 2) 0 := Trig.half0

open Trig in
/-- Newton's method in `VecInverseSqrt`. -/
theorem newton_vec {f v : Flt} {s u : ℝ} (hv : Spec.F32.Finite v) (h : Root s) (hs : real v = s * s)
    (hr : Near f s u 0) (hu : |u - 1| ≤ 367 / 10 ^ 6) :
    Near (mul (mul (sub (const 0x40400000) (mul v (mul f f))) f) (const 0x3F000000)) s 1 (9 / 10 ^ 7) := by
  have hp := h.pos
  obtain ⟨q1, q2⟩ := h.sq
  rw [abs_le] at hu
  have hu1 : |u| ≤ 1000367 / 10 ^ 6 := by rw [abs_le]; norm_num at *; constructor <;> linarith
  have uu : |u * u| ≤ 10008 / 10 ^ 4 := by
    rw [abs_mul]
    exact (mul_le_mul hu1 hu1 (abs_nonneg _) (by norm_num)).trans (by norm_num)
  have p := near_mul (1000367 / 10 ^ 6) (1000367 / 10 ^ 6) (6 / 10 ^ 8 + tiny * (s * s)) hr hr hp hp hu1 hu1 (by norm_num at *; linarith)
    (by unfold eps; norm_num)
  have ts : tiny * (s * s) ≤ 24 / 10 ^ 8 := by
    have : tiny * (s * s) ≤ tiny * 2 ^ 128 := mul_le_mul_of_nonneg_left q2 (by unfold tiny; positivity)
    refine this.trans ?_
    unfold tiny
    norm_num
  have p' := p.mono (f := 3 / 10 ^ 7) (by norm_num at *; linarith)
  have hi : 0 < s⁻¹ * s⁻¹ := by positivity
  have w := near_mul 1 (10008 / 10 ^ 4) (37 / 10 ^ 8) (near_value hv h hs) p' hi (by positivity) (by norm_num) uu
    (by rw [kk h]; norm_num) (by rw [kk h]; unfold eps tiny; norm_num)
  rw [kk h, near_approx, one_mul] at w
  have m1 : |3 - u * u| ≤ 201 / 100 := by
    have := mul_self_nonneg u
    rw [abs_le] at uu ⊢
    norm_num at *
    constructor <;> nlinarith
  have m := Approx.sub (201 / 100) (5 / 10 ^ 7) three0 w m1 (by norm_num) (by unfold eps; norm_num)
  have tsm : tiny * s ≤ 1 / 10 ^ 9 := by
    have := mul_le_mul_of_nonneg_left h.2 (show 0 ≤ tiny by unfold tiny; positivity)
    refine this.trans ?_
    unfold tiny
    norm_num
  have g := near_mul (201 / 100) (1000367 / 10 ^ 6) (65 / 10 ^ 8) (near_approx.2 m) hr one_pos hp m1 hu1
    (by rw [one_mul]; have := h.1; norm_num at *; linarith)
    (by rw [one_mul]; unfold eps at *; norm_num at *; linarith)
  rw [one_mul] at g
  have hg : |(3 - u * u) * u| ≤ 202 / 100 := by
    rw [abs_mul]
    exact (mul_le_mul m1 hu1 (abs_nonneg _) (by norm_num)).trans (by norm_num)
  have n := near_mul (202 / 100) (1 / 2) (6 / 10 ^ 7) g (near_approx.2 half_exact) hp one_pos hg (by norm_num)
    (by rw [mul_one]; have := h.1; norm_num at *; linarith)
    (by rw [mul_one]; unfold eps at *; norm_num at *; linarith)
  rw [mul_one] at n
  refine ⟨n.1, ?_⟩
  have e : (3 - u * u) * u * (1 / 2) - 1 = -((u - 1) * (u - 1)) * (3 / 2 + (u - 1) / 2) := by ring
  have sq : (u - 1) * (u - 1) ≤ 1347 / 10 ^ 10 := by
    have : |u - 1| * |u - 1| ≤ 367 / 10 ^ 6 * (367 / 10 ^ 6) := mul_le_mul (abs_le.2 hu) (abs_le.2 hu) (abs_nonneg _) (by norm_num)
    rw [abs_mul_abs_self] at this
    norm_num at *
    linarith
  have k : |(3 - u * u) * u * (1 / 2) - 1| ≤ 21 / 10 ^ 8 := by
    rw [e, abs_mul, abs_neg, abs_of_nonneg (mul_self_nonneg _)]
    have : |3 / 2 + (u - 1) / 2| ≤ 151 / 100 := by rw [abs_le]; norm_num at *; constructor <;> linarith
    exact (mul_le_mul sq this (abs_nonneg _) (by norm_num)).trans (by norm_num)
  have n2 := n.2
  generalize real (mul (mul (sub (const 0x40400000) (mul v (mul f f))) f) (const 0x3F000000)) * s = z at *
  have := abs_add_le (z - (3 - u * u) * u * (1 / 2)) ((3 - u * u) * u * (1 / 2) - 1)
  rw [show z - (3 - u * u) * u * (1 / 2) + ((3 - u * u) * u * (1 / 2) - 1) = z - 1 by ring] at this
  norm_num at *
  linarith

/-- A float is its own rounding. -/
theorem round_self (s : Bool) {m q : Nat} (h : Canonical m q) : B32.round s (m * 2 ^ q) 1 = .fin s m q := by
  obtain ⟨h1, h2, h3⟩ := h
  have k : (m * 2 ^ q).log2 - 23 = q := by
    rcases h3 with rfl | h3
    · rw [Nat.pow_zero, Nat.mul_one]
      rcases Nat.eq_zero_or_pos m with rfl | hm
      · decide
      · have := (Nat.log2_lt (by omega : m ≠ 0)).2 h1
        omega
    · have : (m * 2 ^ q).log2 = q + 23 := by
        have hne : m * 2 ^ q ≠ 0 := Nat.mul_ne_zero (by omega) (Nat.two_pow_pos q).ne'
        rw [Nat.log2_eq_iff hne]
        constructor
        · rw [Nat.pow_add, Nat.mul_comm]; exact Nat.mul_le_mul_right _ h3
        · rw [show q + 23 + 1 = 24 + q by omega, Nat.pow_add]; exact Nat.mul_lt_mul_of_pos_right h1 (Nat.two_pow_pos q)
      omega
  unfold B32.round
  rw [Nat.div_one, k, Nat.one_mul]
  have r : B64.rne (m * 2 ^ q) (2 ^ q) = m := by
    unfold B64.rne
    rw [Nat.mul_mod_left, Nat.mul_zero, if_pos (Nat.two_pow_pos q), Nat.mul_div_cancel _ (Nat.two_pow_pos q)]
  rw [r]
  unfold pack
  rw [if_neg (by omega), if_pos h2]

end Verif.Simd
