import Verif.Props.Sqrt
import Verif.Props.Arctan

/-!
# The complement `1 - y * y`
-/

namespace Verif.B32

open Verif Verif.MathFns Verif.Spec.F32 Verif.Trig Verif.Props

/-- The square of a float between `1/√2` and one, and its complement. -/
theorem square_near {s : Bool} {m : Nat} (h1 : 2 ^ 47 ≤ m * m) (h2 : m < 2 ^ 24) :
    ∃ A : Nat, A ≤ 2 ^ 24 ∧ 2 * (A * 2 ^ 24) ≤ 2 * (m * m) + 2 ^ 24 ∧ 2 * (m * m) ≤ 2 * (A * 2 ^ 24) + 2 ^ 24 ∧
      A * 2 ^ 24 ≤ m * m + (2 ^ 24 - m) * (2 ^ 24 - m) ∧ m * m ≤ A * 2 ^ 24 + (2 ^ 24 - m) * (2 ^ 24 - m) ∧
      Spec.F32.Finite (sub one (mul (.fin s m 125) (.fin s m 125))) ∧
      val (sub one (mul (.fin s m 125) (.fin s m 125))) = (((2 ^ 24 - A) * 2 ^ 125 : Nat) : Int) := by
  have hm2 : m * m < 2 ^ 48 := by
    have := Nat.mul_lt_mul'' h2 h2
    omega
  have e0 : mul (.fin s m 125) (.fin s m 125) = B32.round false (m * 2 ^ 125 * (m * 2 ^ 125)) (2 ^ 149) := by
    show B32.round (s != s) _ _ = _
    rw [show (s != s) = false by cases s <;> rfl]
  have en : m * 2 ^ 125 * (m * 2 ^ 125) = m * m * 2 ^ 101 * 2 ^ 149 := by
    rw [show (2 : Nat) ^ 101 = 2 ^ 50 * 2 ^ 51 by rw [← Nat.pow_add], show (2 : Nat) ^ 149 = 2 ^ 75 * 2 ^ 74 by rw [← Nat.pow_add],
      show (2 : Nat) ^ 125 = 2 ^ 50 * 2 ^ 75 by rw [← Nat.pow_add]]
    have : (2 : Nat) ^ 50 * 2 ^ 75 = 2 ^ 51 * 2 ^ 74 := by rw [← Nat.pow_add, ← Nat.pow_add]
    calc m * (2 ^ 50 * 2 ^ 75) * (m * (2 ^ 50 * 2 ^ 75)) = m * (2 ^ 50 * 2 ^ 75) * (m * (2 ^ 51 * 2 ^ 74)) := by rw [this]
      _ = _ := by ring
  rw [e0, en]
  obtain ⟨M, Q, k, a1, a2, a3, a4, a5, a6, a7⟩ := round_spec false (num := m * m * 2 ^ 101 * 2 ^ 149) (den := 2 ^ 149) (Nat.two_pow_pos _) (by
    rw [Nat.mul_comm]
    rw [Nat.mul_comm (2 ^ 276)]
    refine Nat.mul_le_mul_left _ ?_
    calc m * m * 2 ^ 101 ≤ 2 ^ 48 * 2 ^ 101 := Nat.mul_le_mul_right _ hm2.le
      _ ≤ 2 ^ 276 := by rw [← Nat.pow_add]; exact Nat.pow_le_pow_right (by decide) (by decide))
  rw [a1]
  have c4 : 2 * (M * 2 ^ Q) ≤ 2 * (m * m * 2 ^ 101) + 2 ^ k := by
    refine Nat.le_of_mul_le_mul_right ?_ (Nat.two_pow_pos 149)
    calc _ = 2 * (M * 2 ^ Q * 2 ^ 149) := by ring
      _ ≤ _ := a4
      _ = _ := by ring
  have c5 : 2 * (m * m * 2 ^ 101) ≤ 2 * (M * 2 ^ Q) + 2 ^ k := by
    refine Nat.le_of_mul_le_mul_right ?_ (Nat.two_pow_pos 149)
    calc _ = 2 * (m * m * 2 ^ 101 * 2 ^ 149) := by ring
      _ ≤ _ := a5
      _ = _ := by ring
  have c7 : m * m * 2 ^ 101 < 2 ^ 24 * 2 ^ k := by
    refine Nat.lt_of_mul_lt_mul_right (a := 2 ^ 149) ?_
    calc _ < _ := a7
      _ = _ := by ring
  have hk : k = 125 := by
    have k1 : 124 < k := by
      refine Nat.lt_of_not_le fun h => ?_
      have : 2 ^ 24 * 2 ^ k ≤ 2 ^ 47 * 2 ^ 101 := by
        rw [← Nat.pow_add, ← Nat.pow_add]; exact Nat.pow_le_pow_right (by decide) (by omega)
      have := Nat.mul_le_mul_right (2 ^ 101) h1
      omega
    have k2 : k < 126 := by
      rcases a6 with h | h
      · omega
      · refine Nat.lt_of_not_le fun g => ?_
        have c6 : 2 ^ 23 * 2 ^ k ≤ m * m * 2 ^ 101 := by
          refine Nat.le_of_mul_le_mul_right ?_ (Nat.two_pow_pos 149)
          calc _ = 2 ^ 23 * (2 ^ 149 * 2 ^ k) := by ring
            _ ≤ _ := h
        have : 2 ^ 48 * 2 ^ 101 ≤ 2 ^ 23 * 2 ^ k := by
          rw [← Nat.pow_add, ← Nat.pow_add]; exact Nat.pow_le_pow_right (by decide) (by omega)
        have := Nat.mul_lt_mul_of_pos_right hm2 (Nat.two_pow_pos 101)
        omega
    omega
  subst hk
  obtain ⟨A, hA⟩ := a3
  have e125 : (2 : Nat) ^ 125 = 2 ^ 24 * 2 ^ 101 := by rw [← Nat.pow_add]
  have d4 : 2 * (A * 2 ^ 24) ≤ 2 * (m * m) + 2 ^ 24 := by
    refine Nat.le_of_mul_le_mul_right ?_ (Nat.two_pow_pos 101)
    calc _ = 2 * (2 ^ 24 * 2 ^ 101 * A) := by ring
      _ = 2 * (M * 2 ^ Q) := by rw [hA, ← e125]
      _ ≤ _ := c4
      _ = _ := by rw [e125]; ring
  have d5 : 2 * (m * m) ≤ 2 * (A * 2 ^ 24) + 2 ^ 24 := by
    refine Nat.le_of_mul_le_mul_right ?_ (Nat.two_pow_pos 101)
    calc _ = 2 * (m * m * 2 ^ 101) := by ring
      _ ≤ _ := c5
      _ = 2 * (2 ^ 125 * A) + 2 ^ 125 := by rw [hA]
      _ = _ := by rw [e125]; ring
  have hA24 : A ≤ 2 ^ 24 := by omega
  obtain ⟨K, hK⟩ : ∃ K, m + K = 2 ^ 24 := ⟨2 ^ 24 - m, by omega⟩
  have hKm : 2 ^ 24 - m = K := by omega
  have hsq : m * m + 2 ^ 25 * K = 2 ^ 48 + K * K := by
    have : (m + K) * (m + K) = 2 ^ 24 * 2 ^ 24 := by rw [hK]
    have e : (m + K) * K = 2 ^ 24 * K := by rw [hK]
    have e1 : (m + K) * (m + K) = m * m + 2 * (m * K) + K * K := by ring
    have e2 : (m + K) * K = m * K + K * K := by ring
    omega
  rw [hKm]
  refine ⟨A, hA24, d4, d5, ?_, ?_, ?_⟩
  · generalize K * K = P at *
    generalize m * m = N at *
    omega
  · generalize K * K = P at *
    generalize m * m = N at *
    omega
  · have e1 : val one = ((2 ^ 24 * 2 ^ 125 : Nat) : Int) := by decide
    have f : Spec.F32.Finite (.fin false M Q) := ⟨_, _, _, rfl, a2⟩
    have ev : val (.fin false M Q) = ((A * 2 ^ 125 : Nat) : Int) := by
      rw [val_fin, hA, Nat.mul_comm]; rfl
    have hle : A * 2 ^ 125 ≤ 2 ^ 24 * 2 ^ 125 := Nat.mul_le_mul_right _ hA24
    have ed : val one - val (.fin false M Q) = (((2 ^ 24 - A) * 2 ^ 125 : Nat) : Int) := by
      rw [e1, ev, Nat.sub_mul]
      omega
    obtain ⟨g1, g2⟩ := sub_spec (x := one) finite_one f (by
      rw [ed, Int.natAbs_natCast]
      calc (2 ^ 24 - A) * 2 ^ 125 ≤ 2 ^ 24 * 2 ^ 125 := Nat.mul_le_mul_right _ (Nat.sub_le _ _)
        _ ≤ 2 ^ 276 := by rw [← Nat.pow_add]; exact Nat.pow_le_pow_right (by decide) (by decide))
    have g3 := rounded_exact g2 (j := 125) (c := 2 ^ 24 - A) (by rw [ed, Int.natAbs_natCast]) (by omega)
    exact ⟨g1, by rw [g3, ed]⟩

/-- The complement of the square, near one. -/
theorem comp_near {y : Flt} (hy : Spec.F32.Finite y) (h1 : 3 / 4 ≤ |real y|) (h2 : |real y| ≤ 1) :
    Approx (sub one (mul y y)) (1 - real y ^ 2) (1 / 2 ^ 25) ∧ Approx (sub one (mul y y)) (1 - real y ^ 2) ((1 - |real y|) ^ 2) ∧
      (real (sub one (mul y y)) ≤ 0 ∨ 1 / 2 ^ 24 ≤ real (sub one (mul y y))) := by
  rcases lt_or_eq_of_le h2 with h2 | h2
  · obtain ⟨s, m, q, rfl, c1, c2, c3⟩ := hy
    rw [abs_real_fin] at *
    rw [le_div_iff₀ (by positivity)] at h1
    rw [div_lt_one (by positivity)] at h2
    have n1 : 3 * 2 ^ 149 ≤ 4 * (m * 2 ^ q) := by
      have : (3 : ℝ) * 2 ^ 149 ≤ 4 * ((m * 2 ^ q : Nat) : ℝ) := by linarith
      exact_mod_cast this
    have n2 : m * 2 ^ q < 2 ^ 149 := by exact_mod_cast h2
    have hq : q = 125 := by
      have k1 : 124 < q := by
        refine Nat.lt_of_not_le fun h => ?_
        have : m * 2 ^ q ≤ 2 ^ 24 * 2 ^ 124 := Nat.mul_le_mul c1.le (Nat.pow_le_pow_right (by decide) h)
        have e : (2 : Nat) ^ 149 = 2 * (2 ^ 24 * 2 ^ 124) := by rw [← Nat.pow_add, ← Nat.pow_succ']
        have := Nat.two_pow_pos 149
        omega
      have k2 : q < 126 := by
        refine Nat.lt_of_not_le fun h => ?_
        have hm : 2 ^ 23 ≤ m := by omega
        have : 2 ^ 23 * 2 ^ 126 ≤ m * 2 ^ q := Nat.mul_le_mul hm (Nat.pow_le_pow_right (by decide) h)
        rw [← Nat.pow_add] at this
        omega
      omega
    subst hq
    have hm : 3 * 2 ^ 22 ≤ m := by
      refine Nat.le_of_mul_le_mul_right (c := 4 * 2 ^ 125) ?_ (by positivity)
      calc _ = 3 * 2 ^ 149 := by ring
        _ ≤ _ := n1
        _ = _ := by ring
    have hmm : 2 ^ 47 ≤ m * m := by
      have := Nat.mul_le_mul hm hm
      omega
    obtain ⟨A, a1, a2, a3, a4, a5, f, e⟩ := square_near (s := s) hmm c1
    have er : real (sub one (mul (.fin s m 125) (.fin s m 125))) = 1 - (A : ℝ) / 2 ^ 24 := by
      unfold real
      rw [e]
      rw [Int.cast_natCast, Nat.cast_mul, Nat.cast_sub a1, Nat.cast_pow, Nat.cast_pow, show (2 : ℝ) ^ 149 = 2 ^ 24 * 2 ^ 125 by rw [← pow_add]]
      field_simp
      push_cast
      norm_num
      try ring
    have ey : ((m * 2 ^ 125 : Nat) : ℝ) / 2 ^ 149 = (m : ℝ) / 2 ^ 24 := by
      rw [Nat.cast_mul, Nat.cast_pow, show (2 : ℝ) ^ 149 = 2 ^ 24 * 2 ^ 125 by rw [← pow_add]]
      field_simp
      norm_num
    have ey2 : real (.fin s m 125) ^ 2 = ((m : ℝ) / 2 ^ 24) ^ 2 := by
      rw [← sq_abs, abs_real_fin, ey]
    rw [ey, ey2]
    have r2 : 2 * ((A : ℝ) * 2 ^ 24) ≤ 2 * ((m : ℝ) * m) + 2 ^ 24 := by exact_mod_cast a2
    have r3 : 2 * ((m : ℝ) * m) ≤ 2 * ((A : ℝ) * 2 ^ 24) + 2 ^ 24 := by exact_mod_cast a3
    have hmr : ((2 ^ 24 - m : Nat) : ℝ) = 2 ^ 24 - (m : ℝ) := by rw [Nat.cast_sub c1.le]; norm_num
    have r4 : (A : ℝ) * 2 ^ 24 ≤ (m : ℝ) * m + (2 ^ 24 - (m : ℝ)) * (2 ^ 24 - (m : ℝ)) := by rw [← hmr]; exact_mod_cast a4
    have r5 : (m : ℝ) * m ≤ (A : ℝ) * 2 ^ 24 + (2 ^ 24 - (m : ℝ)) * (2 ^ 24 - (m : ℝ)) := by rw [← hmr]; exact_mod_cast a5
    have ed : (1 - (A : ℝ) / 2 ^ 24) - (1 - ((m : ℝ) / 2 ^ 24) ^ 2) = ((m : ℝ) * m - A * 2 ^ 24) / 2 ^ 48 := by
      field_simp; ring
    refine ⟨⟨f, ?_⟩, ⟨f, ?_⟩, ?_⟩
    · rw [er, ed, abs_div, abs_of_nonneg (show (0 : ℝ) ≤ 2 ^ 48 by positivity), div_le_iff₀ (by positivity), abs_le]
      constructor <;> norm_num at * <;> linarith
    · rw [er, ed, abs_div, abs_of_nonneg (show (0 : ℝ) ≤ 2 ^ 48 by positivity), div_le_iff₀ (by positivity), abs_le]
      rw [show (1 - (m : ℝ) / 2 ^ 24) ^ 2 * 2 ^ 48 = (2 ^ 24 - (m : ℝ)) * (2 ^ 24 - (m : ℝ)) by field_simp]
      constructor <;> linarith
    · rw [er]
      rcases Nat.lt_or_ge A (2 ^ 24) with g | g
      · right
        have : (A : ℝ) + 1 ≤ 2 ^ 24 := by exact_mod_cast g
        rw [le_sub_iff_add_le, ← add_div, div_le_one (by positivity)]
        linarith
      · left
        have : (2 : ℝ) ^ 24 ≤ A := by exact_mod_cast g
        rw [sub_nonpos, le_div_iff₀ (by positivity)]
        linarith
  · have hv : y = .fin false (2 ^ 23) 126 ∨ y = .fin true (2 ^ 23) 126 := by
      obtain ⟨s, m, q, rfl, c1, c2, c3⟩ := hy
      rw [abs_real_fin, div_eq_one_iff_eq (by positivity)] at h2
      have n : m * 2 ^ q = 2 ^ 149 := by exact_mod_cast h2
      have k1 : 125 < q := by
        refine Nat.lt_of_not_le fun h => ?_
        have : m * 2 ^ q < 2 ^ 24 * 2 ^ 125 :=
          Nat.lt_of_lt_of_le (Nat.mul_lt_mul_of_pos_right c1 (Nat.two_pow_pos _)) (Nat.mul_le_mul_left _ (Nat.pow_le_pow_right (by decide) h))
        rw [← Nat.pow_add] at this
        omega
      have hm : 2 ^ 23 ≤ m := by omega
      have k2 : q < 127 := by
        refine Nat.lt_of_not_le fun h => ?_
        have : 2 ^ 23 * 2 ^ 127 ≤ m * 2 ^ q := Nat.mul_le_mul hm (Nat.pow_le_pow_right (by decide) h)
        rw [← Nat.pow_add, n] at this
        exact absurd this (by decide)
      obtain rfl : q = 126 := by omega
      obtain rfl : m = 2 ^ 23 := Nat.eq_of_mul_eq_mul_right (Nat.two_pow_pos 126) (by rw [n, ← Nat.pow_add])
      cases s
      · exact .inl rfl
      · exact .inr rfl
    have hw : sub one (mul y y) = zero := by
      rcases hv with rfl | rfl <;> decide +kernel
    have hy2 : real y ^ 2 = 1 := by rw [← sq_abs, h2, one_pow]
    rw [hw, hy2, h2, sub_self]
    have := Approx.exact finite_zero
    rw [real_zero] at this
    exact ⟨this.mono (by positivity), this.mono (by positivity), .inl real_zero.le⟩

/-- The complement of the square of a number which is not near one. -/
theorem comp_far {y : Flt} (hy : Spec.F32.Finite y) (h : |real y| ≤ 3 / 4) : Approx (sub one (mul y y)) (1 - real y ^ 2) (13 / 10 ^ 8) := by
  have m := Approx.mul (3 / 4) (3 / 4) (6 / 10 ^ 8) (.exact hy) (.exact hy) h h (by norm_num) (by unfold eps tiny; norm_num)
  have a : |1 - real y * real y| ≤ 1 := by
    have := mul_self_nonneg (real y)
    have := abs_le.1 h
    rw [abs_le]; constructor <;> nlinarith
  have := Approx.sub 1 (13 / 10 ^ 8) one0 m a (by norm_num) (by unfold eps; norm_num)
  rwa [← pow_two] at this

open Real (pi)

/-- A small relative error changes the arctangent little. -/
theorem atan_close {q t δ : ℝ} (h0 : 0 ≤ δ) (hδ : δ ≤ 1 / 200) (h : |q - t| ≤ δ * |t| + tiny) :
    |Real.arctan q - Real.arctan t| ≤ 101 / 100 * (δ + tiny) := by
  have ht : (0 : ℝ) < tiny := by unfold tiny; positivity
  have ht' : tiny ≤ 1 / 10 ^ 9 := by unfold tiny; norm_num
  have pos : ∀ {q t : ℝ}, 1 ≤ t → |q - t| ≤ δ * t + tiny → |Real.arctan q - Real.arctan t| ≤ 101 / 100 * (δ + tiny) := by
    intro q t h1 h
    have h2 : |q - t| ≤ (δ + tiny) * t := by nlinarith
    have h' := abs_le.1 h2
    have hq : 199 / 201 * t ≤ q := by
      have := h'.1
      norm_num at ht'
      nlinarith
    have ht0 : 0 < t := by linarith
    have hq0 : 0 < q := by linarith
    have i1 := Real.arctan_inv_of_pos hq0
    have i2 := Real.arctan_inv_of_pos ht0
    have l := atan_lip t⁻¹ q⁻¹
    rw [show Real.arctan q - Real.arctan t = Real.arctan t⁻¹ - Real.arctan q⁻¹ by rw [i1, i2]; ring]
    refine l.trans ?_
    rw [show t⁻¹ - q⁻¹ = (q - t) / (t * q) by field_simp, abs_div, abs_of_pos (mul_pos ht0 hq0), div_le_iff₀ (mul_pos ht0 hq0)]
    refine h2.trans ?_
    have hs : 0 < δ + tiny := by linarith
    have : t ≤ 101 / 100 * (t * q) := by nlinarith
    nlinarith
  rcases le_total |t| 1 with g | g
  · refine (atan_lip q t).trans (h.trans ?_)
    nlinarith
  · rcases le_total 0 t with s | s
    · rw [abs_of_nonneg s] at g h
      exact pos g h
    · rw [abs_of_nonpos s] at g h
      have := pos (q := -q) (t := -t) g (by rw [← abs_neg]; convert h using 2; ring)
      rw [Real.arctan_neg, Real.arctan_neg, ← abs_neg] at this
      convert this using 2
      ring

/-- Bounds of the difference of two roots. -/
theorem root_diff {v w c d : ℝ} (hv : 0 ≤ v) (hw : 0 ≤ w) (hc : 0 < c) (h1 : c ≤ √v + √w) (h : |w - v| ≤ d) : |√w - √v| ≤ d / c := by
  have e : (√w - √v) * (√v + √w) = w - v := by
    have a := Real.mul_self_sqrt hv
    have b := Real.mul_self_sqrt hw
    linear_combination b - a
  have hs : 0 < √v + √w := lt_of_lt_of_le hc h1
  rw [le_div_iff₀ hc]
  calc |√w - √v| * c ≤ |√w - √v| * (√v + √w) := mul_le_mul_of_nonneg_left h1 (abs_nonneg _)
    _ = |w - v| := by rw [← e, abs_mul, abs_of_pos hs]
    _ ≤ d := h

/-- What the complement is good for: its root, and two arctangents. -/
structure Complement (y w : Flt) : Prop where
  fin : Spec.F32.Finite w
  big : 1 / 2 ^ 126 ≤ real w
  sine : |Real.arctan (real y / √(real w)) - Real.arctan (real y / √(1 - real y ^ 2))| ≤ 13 / 10 ^ 7
  cosine : real y ≠ 0 → |Real.arctan (√(real w) / real y) - Real.arctan (√(1 - real y ^ 2) / real y)| ≤ 13 / 10 ^ 7

theorem arctan_sign (y s : ℝ) : |Real.arctan (y / s)| = |Real.arctan (|y| / s)| := by
  rcases le_total 0 y with h | h
  · rw [abs_of_nonneg h]
  · rw [abs_of_nonpos h, neg_div, Real.arctan_neg, abs_neg]

theorem complement_far {y : Flt} (hy : Spec.F32.Finite y) (h : |real y| ≤ 3 / 4) : Complement y (sub one (mul y y)) := by
  obtain ⟨f, d⟩ := comp_far hy h
  generalize sub one (mul y y) = w at *
  have y2 : real y ^ 2 ≤ 9 / 16 := by
    rw [← sq_abs]
    have := abs_nonneg (real y)
    nlinarith
  have y0 : 0 ≤ real y ^ 2 := sq_nonneg _
  have d' := abs_le.1 d
  have v1 : 7 / 16 ≤ 1 - real y ^ 2 := by linarith
  generalize hv : 1 - real y ^ 2 = v at *
  have w1 : 4374 / 10000 ≤ real w := by
    have := d'.1
    norm_num at this
    linarith
  have sv : 66 / 100 ≤ √v := Real.le_sqrt_of_sq_le (by norm_num; linarith)
  have sw : 66 / 100 ≤ √(real w) := Real.le_sqrt_of_sq_le (by norm_num; linarith)
  have rd : |√(real w) - √v| ≤ 1 / 10 ^ 7 :=
    (root_diff (c := 132 / 100) (by linarith) (by linarith) (by norm_num) (by linarith) d).trans (by norm_num)
  have ht' : tiny ≤ 1 / 10 ^ 9 := by unfold tiny; norm_num
  have ht : (0 : ℝ) < tiny := by unfold tiny; positivity
  refine ⟨f, le_trans (by norm_num) w1, ?_, fun h0 => ?_⟩
  · rw [hv]
    refine (atan_lip _ _).trans ?_
    have p : 0 < √(real w) * √v := by positivity
    rw [show real y / √(real w) - real y / √v = real y * (√v - √(real w)) / (√(real w) * √v) by field_simp, abs_div, abs_of_pos p,
      div_le_iff₀ p, abs_mul, abs_sub_comm]
    have : (66 / 100 : ℝ) * (66 / 100) ≤ √(real w) * √v := mul_le_mul sw sv (by norm_num) (by positivity)
    have := mul_le_mul h rd (abs_nonneg _) (by norm_num)
    norm_num at *
    linarith
  · rw [hv]
    have hc := atan_close (q := √(real w) / real y) (t := √v / real y) (δ := 2 / 10 ^ 7) (by norm_num) (by norm_num) (by
      rw [← sub_div, abs_div, abs_div, ← mul_div_assoc, abs_of_nonneg (Real.sqrt_nonneg v)]
      have hp := abs_pos.2 h0
      have : |√(real w) - √v| / |real y| ≤ 2 / 10 ^ 7 * √v / |real y| :=
        div_le_div_of_nonneg_right (rd.trans (by norm_num at *; linarith)) hp.le
      linarith)
    refine hc.trans ?_
    norm_num at ht' ⊢
    linarith

theorem complement_near {y : Flt} (hy : Spec.F32.Finite y) (h1 : 3 / 4 ≤ |real y|) (h2 : |real y| < 1) : Complement y (sub one (mul y y)) := by
  obtain ⟨⟨f, d1⟩, ⟨-, d2⟩, w2⟩ := comp_near hy h1 h2.le
  generalize sub one (mul y y) = w at *
  rw [← sq_abs] at d1 d2
  have key : ∀ a : ℝ, a = |real y| → |√(real w) - √(1 - a ^ 2)| ≤ 97 / 10 ^ 8 ∧ 0 < real w ∧ 0 < 1 - a ^ 2 := by
    intro a ha
    rw [← ha] at h1 h2 d1 d2
    obtain ⟨u, rfl⟩ : ∃ u, a = 1 - u := ⟨1 - a, by ring⟩
    have u0 : 0 < u := by linarith
    have u1 : u ≤ 1 / 4 := by linarith
    rw [show 1 - (1 - u) = u by ring] at d2
    have hv : 175 / 100 * u ≤ 1 - (1 - u) ^ 2 := by nlinarith
    generalize 1 - (1 - u) ^ 2 = v at *
    have hw : 15 / 10 * u ≤ real w := by
      have := (abs_le.1 d2).1
      nlinarith
    have v0 : 0 < v := by linarith
    have w0 : 0 < real w := by linarith
    refine ⟨?_, w0, v0⟩
    have su : √u * √u = u := Real.mul_self_sqrt u0.le
    have su0 : 0 < √u := Real.sqrt_pos.2 u0
    have sv : 132 / 100 * √u ≤ √v := by
      apply Real.le_sqrt_of_sq_le
      nlinarith
    have sw : 122 / 100 * √u ≤ √(real w) := by
      apply Real.le_sqrt_of_sq_le
      nlinarith
    rcases le_total u (1735 / 10 ^ 7) with g | g
    · have r := root_diff (c := 254 / 100 * √u) (d := u ^ 2) v0.le w0.le (by positivity) (by linarith) d2
      refine r.trans ?_
      rw [div_le_iff₀ (by positivity)]
      have s1 : √u ≤ 1318 / 10 ^ 5 := Real.sqrt_le_iff.2 ⟨by norm_num, by norm_num at *; linarith⟩
      have s2 : u * √u ≤ 2287 / 10 ^ 9 := by
        have := mul_le_mul g s1 su0.le (by norm_num)
        norm_num at *
        linarith
      have s3 : u ^ 2 = u * √u * √u := by rw [mul_assoc, su]; ring
      rw [s3]
      have s4 := mul_le_mul_of_nonneg_right s2 su0.le
      norm_num at s4 ⊢
      linarith
    · have s1 : 1317 / 10 ^ 5 ≤ √u := Real.le_sqrt_of_sq_le (by norm_num at *; linarith)
      have r := root_diff (c := 254 / 100 * √u) (d := 1 / 2 ^ 25) v0.le w0.le (by positivity) (by linarith) d1
      refine r.trans ?_
      rw [div_le_iff₀ (by positivity)]
      norm_num at *
      linarith
  obtain ⟨k1, k2, k3⟩ := key _ rfl
  have hb : 1 / 2 ^ 126 ≤ real w := le_trans (by norm_num) (w2.resolve_left (by linarith))
  rw [sq_abs] at k1 k3
  have hy0 : 0 < |real y| := by linarith
  generalize hv : 1 - real y ^ 2 = v at *
  have sw : 0 < √(real w) := Real.sqrt_pos.2 k2
  have sv : 0 < √v := Real.sqrt_pos.2 k3
  have lip : ∀ b : ℝ, |b| = |real y| → |Real.arctan (√(real w) / b) - Real.arctan (√v / b)| ≤ 13 / 10 ^ 7 := by
    intro b hb
    refine (atan_lip _ _).trans ?_
    rw [← sub_div, abs_div, hb, div_le_iff₀ hy0]
    norm_num at *
    linarith
  refine ⟨f, hb, ?_, fun _ => by rw [hv]; exact lip _ rfl⟩
  rw [hv]
  have inv : ∀ s : ℝ, 0 < s → Real.arctan (|real y| / s) = pi / 2 - Real.arctan (s / |real y|) := by
    intro s hs
    rw [← Real.arctan_inv_of_pos (by positivity), inv_div]
  have main : |Real.arctan (|real y| / √(real w)) - Real.arctan (|real y| / √v)| ≤ 13 / 10 ^ 7 := by
    rw [inv _ sw, inv _ sv]
    have := lip |real y| (abs_abs _)
    rw [abs_sub_comm] at this
    convert this using 2
    ring
  rcases le_total 0 (real y) with g | g
  · rwa [abs_of_nonneg g] at main
  · rw [abs_of_nonpos g, neg_div, neg_div, Real.arctan_neg, Real.arctan_neg, ← abs_neg] at main
    convert main using 2
    ring

theorem complement {y : Flt} (hy : Spec.F32.Finite y) (h : |real y| < 1) : Complement y (sub one (mul y y)) := by
  rcases le_total |real y| (3 / 4) with g | g
  · exact complement_far hy g
  · exact complement_near hy g h

/-- The complement is zero for `-1` and `1`. -/
theorem complement_one {y : Flt} (hy : Spec.F32.Finite y) (h : |real y| = 1) :
    Spec.F32.Finite (sub one (mul y y)) ∧ real (sub one (mul y y)) = 0 := by
  obtain ⟨-, ⟨f, d⟩, -⟩ := comp_near hy (by rw [h]; norm_num) h.le
  rw [h, ← sq_abs, h] at d
  norm_num at d
  exact ⟨f, d⟩

/-- The complement is negative beyond. -/
theorem complement_beyond {y : Flt} (hy : Spec.F32.Finite y) (h : 1 < |real y|) (h' : |real y| ≤ 2 ^ 63) :
    Spec.F32.Finite (sub one (mul y y)) ∧ real (sub one (mul y y)) < 0 := by
  have hu : 1 + 1 / 2 ^ 23 ≤ |real y| := by
    obtain ⟨s, m, q, rfl, c1, c2, c3⟩ := hy
    rw [abs_real_fin] at *
    rw [lt_div_iff₀ (by positivity), one_mul] at h
    rw [le_div_iff₀ (by positivity)]
    have n : 2 ^ 149 < m * 2 ^ q := by exact_mod_cast h
    have hq : 126 ≤ q := by
      refine Nat.le_of_not_lt fun g => ?_
      have : m * 2 ^ q ≤ 2 ^ 24 * 2 ^ 125 := Nat.mul_le_mul c1.le (Nat.pow_le_pow_right (by decide) (by omega))
      rw [← Nat.pow_add] at this
      omega
    obtain ⟨j, rfl⟩ : ∃ j, q = 126 + j := ⟨q - 126, by omega⟩
    rw [Nat.pow_add, Nat.mul_comm (2 ^ 126), ← Nat.mul_assoc] at n
    have n2 : 2 ^ 23 < m * 2 ^ j := by
      refine Nat.lt_of_mul_lt_mul_right (a := 2 ^ 126) ?_
      rw [← Nat.pow_add]
      exact n
    have n3 : (2 ^ 23 + 1) * 2 ^ 126 ≤ m * 2 ^ (126 + j) := by
      rw [Nat.pow_add, Nat.mul_comm (2 ^ 126), ← Nat.mul_assoc]
      exact Nat.mul_le_mul_right _ n2
    have n4 : ((2 : ℝ) ^ 23 + 1) * 2 ^ 126 ≤ ((m * 2 ^ (126 + j) : Nat) : ℝ) := by exact_mod_cast n3
    refine le_trans (le_of_eq ?_) n4
    rw [show (2 : ℝ) ^ 149 = 2 ^ 23 * 2 ^ 126 by rw [← pow_add]]
    field_simp
  have e : real y * real y = |real y| * |real y| := (abs_mul_abs_self _).symm
  have l1 : 1 + 1 / 2 ^ 22 ≤ real y * real y := by
    rw [e]
    have := mul_le_mul hu hu (by positivity) (by positivity)
    norm_num at *
    linarith
  have l2 : real y * real y ≤ 2 ^ 126 := by
    rw [e]
    have := mul_le_mul h' h' (by positivity) (by positivity)
    norm_num at *
    linarith
  have l0 : 0 ≤ real y * real y := by linarith [show (0 : ℝ) ≤ 1 / 2 ^ 22 by positivity]
  obtain ⟨f1, m1⟩ := mul_real hy hy (by rw [abs_of_nonneg l0]; norm_num at *; linarith)
  rw [abs_of_nonneg l0] at m1
  have m2 := abs_le.1 m1
  unfold eps tiny at m2
  have z1 : 1 < real (mul y y) := by
    have := m2.1
    norm_num at *
    linarith
  have z2 : real (mul y y) ≤ 2 ^ 126 + 2 ^ 103 := by
    have := m2.2
    norm_num at *
    linarith
  obtain ⟨f2, s1⟩ := sub_real (x := one) (y := mul y y) finite_one f1 (by
    rw [real_one, abs_of_neg (by linarith)]
    norm_num at *
    linarith)
  refine ⟨f2, ?_⟩
  rw [real_one, abs_of_neg (show 1 - real (mul y y) < 0 by linarith)] at s1
  have s2 := (abs_le.1 s1).2
  unfold eps at s2
  norm_num at *
  linarith

end Verif.B32
