import Verif.Lemmas.LogReal

/-!
# Properties of `Exp` and `Log` (C96, C97)
-/

namespace Verif.Props

open Verif Verif.B32 Verif.MathFns Verif.Spec.F32

/-! ## C96 -/

/-- **C96**: `Exp` of a finite float is the exponential, with a relative error of at most one millionth and an absolute error
of at most `2^(-125)`, as far as the result is in range; from 89 on it is infinite. -/
def C96_statement : Prop := ∀ x, Spec.F32.Finite x → ∃ y, exp x = .ok y ∧
  (real x ≤ 88 → Finite y ∧ |real y - Real.exp (real x)| ≤ 1 / 10 ^ 6 * Real.exp (real x) + 1 / 2 ^ 125) ∧
  (89 ≤ real x → y = .inf false)

theorem poly_pos {y : Flt} (y1 : Finite y) (y2 : 0 ≤ real y) (y3 : real y ≤ 1) :
    ∃ m q, expPoly y = .fin false m q ∧ m ≠ 0 := by
  obtain ⟨⟨s, m, q, hp, -⟩, p2⟩ := expPoly_exp y1 y2 y3
  have h1 : 1 ≤ Real.exp (real y) := Real.one_le_exp y2
  have hpos : 0 < real (expPoly y) := by
    rw [abs_le] at p2
    norm_num at p2
    linarith [p2.1]
  rw [hp, real_fin] at hpos
  refine ⟨m, q, ?_, ?_⟩
  · rw [hp]
    cases s
    · rfl
    · exfalso
      have : (0 : ℝ) ≤ ((m * 2 ^ q : Nat) : ℝ) / 2 ^ 149 := by positivity
      simp only [if_true] at hpos
      linarith
  · rintro rfl
    simp at hpos

/-- **C96** from `-2^31` to 90. Missing are smaller arguments, where the conversion to `int32` is undefined, and larger ones,
where the result is wrong. -/
theorem C96_exp_partial (x : Flt) (hx : Spec.F32.Finite x) (h1 : -2147483648 ≤ real x) (h2 : real x < 90) :
    ∃ y, exp x = .ok y ∧
      (real x ≤ 88 → Finite y ∧ |real y - Real.exp (real x)| ≤ 1 / 10 ^ 6 * Real.exp (real x) + 1 / 2 ^ 125) ∧
      (89 ≤ real x → y = .inf false) := by
  by_cases h : real x < -87
  · obtain ⟨n, y, n1, n2, -, -, -, -, he⟩ := exp_cases hx
    have m1 : -2147483648 ≤ n := by
      have : ((-2147483649 : Int) : ℝ) < n := by push_cast; linarith
      have := Int.cast_lt.1 this
      omega
    have m2 : n < -87 := by
      have : (n : ℝ) < ((-87 : Int) : ℝ) := by push_cast; linarith
      exact Int.cast_lt.1 this
    rw [if_pos (by omega), if_neg (by omega)] at he
    refine ⟨zero, he, fun _ => ⟨finite_zero, ?_⟩, fun h => by linarith⟩
    rw [real_zero, zero_sub, abs_neg, abs_of_pos (Real.exp_pos _)]
    have e1 : Real.exp (real x) ≤ Real.exp (-87) := Real.exp_le_exp.2 (by linarith)
    have e2 : Real.exp (-87) ≤ 1 / 2 ^ 125 := by
      rw [Real.exp_neg, show (87 : ℝ) = (87 : Nat) * 1 by norm_num, Real.exp_nat_mul]
      have : (27182818283 / 10 ^ 10 : ℝ) ^ 87 ≤ Real.exp 1 ^ 87 := by
        have := exp_one_bounds.1
        gcongr
      have : (2 : ℝ) ^ 125 ≤ Real.exp 1 ^ 87 := le_trans (by norm_num) this
      rw [inv_eq_one_div]
      gcongr
    have := Real.exp_pos (real x)
    linarith
  · push Not at h
    by_cases h' : real x ≤ 88
    · obtain ⟨y, e1, e2, e3⟩ := exp_accurate hx h h'
      refine ⟨y, e1, fun _ => ⟨e2, e3.trans ?_⟩, fun h => by linarith⟩
      have : (0 : ℝ) ≤ 1 / 2 ^ 125 := by positivity
      linarith
    · push Not at h'
      obtain ⟨n, y, n1, n2, y1, y2, y3, -, he⟩ := exp_cases hx
      have m1 : 88 ≤ n := by
        have : ((87 : Int) : ℝ) < n := by push_cast; linarith
        have := Int.cast_lt.1 this
        omega
      have m2 : n < 90 := by
        have : (n : ℝ) < ((90 : Int) : ℝ) := by push_cast; linarith
        exact Int.cast_lt.1 this
      rw [if_pos (by omega), if_pos (by omega), if_pos (by omega)] at he
      refine ⟨_, he, fun h => by linarith, fun h => ?_⟩
      have m3 : n = 89 := by
        have : ((88 : Int) : ℝ) < n := by push_cast; linarith
        have := Int.cast_lt.1 this
        omega
      subst m3
      obtain ⟨m, q, hp, hm⟩ := poly_pos y1 y2 y3
      have : expEntry ((89 : Int) + 88).toNat = .inf false := by decide
      rw [hp, this, mul, if_neg hm]
      rfl

/-- From -87 to 88 there is no absolute error. -/
theorem C96_relative_partial (x : Flt) (hx : Spec.F32.Finite x) (h1 : -87 ≤ real x) (h2 : real x ≤ 88) :
    ∃ y, exp x = .ok y ∧ Finite y ∧ |real y - Real.exp (real x)| ≤ 1 / 10 ^ 6 * Real.exp (real x) :=
  exp_accurate hx h1 h2

/-- From 90 on `Exp` is zero: two of the 180 elements of the table have no initializer. -/
theorem C96_zero (x : Flt) (hx : Spec.F32.Finite x) (h1 : 90 ≤ real x) (h2 : real x < 2147483560) : exp x = .ok zero := by
  obtain ⟨n, y, n1, n2, y1, y2, y3, -, he⟩ := exp_cases hx
  have m1 : 90 ≤ n := by
    have : ((89 : Int) : ℝ) < n := by push_cast; linarith
    have := Int.cast_lt.1 this
    omega
  have m2 : n < 2147483560 := by
    have : (n : ℝ) < ((2147483560 : Int) : ℝ) := by push_cast; linarith
    exact Int.cast_lt.1 this
  rw [he, if_pos (by omega), if_pos (by omega)]
  obtain ⟨m, q, hp, hm⟩ := poly_pos y1 y2 y3
  have : expEntry (if n + 88 < 179 then (n + 88).toNat else 179) = .fin false 0 0 := by
    split
    · have : (n + 88).toNat = 178 := by omega
      rw [this]; decide
    · decide
  rw [hp, this, mul, Nat.zero_mul, Nat.mul_zero]
  decide +kernel

/-- **C96 is violated**: `Exp(90.0F)` is zero. -/
theorem C96_violated : ¬ C96_statement := by
  intro h
  have f := ofInt_spec (n := 90) (by decide)
  have r := real_ofInt (n := 90) (by decide)
  obtain ⟨y, h1, -, h2⟩ := h (ofInt 90) f.1
  rw [C96_zero (ofInt 90) f.1 (by rw [r]; norm_num) (by rw [r]; norm_num)] at h1
  cases h1
  have := h2 (by rw [r]; norm_num)
  exact absurd this (by decide)

/-- The conversion to `int32`, or the sum with 88, is undefined for large arguments, infinities and NaN. -/
theorem C96_undefined (x : Flt) (h : (Finite x ∧ (real x < -2147483648 ∨ 2147483560 ≤ real x)) ∨ (∃ s, x = .inf s) ∨ x = .nan) :
    exp x = .ub := by
  rcases h with ⟨hx, h⟩ | ⟨s, rfl⟩ | rfl
  · obtain ⟨n, y, n1, n2, -, -, -, -, he⟩ := exp_cases hx
    rw [he, if_neg]
    rintro ⟨a, b⟩
    rcases h with h | h
    · have : (n : ℝ) < ((-2147483648 : Int) : ℝ) := by push_cast; linarith
      have := Int.cast_lt.1 this
      omega
    · have : ((2147483559 : Int) : ℝ) < n := by push_cast; linarith
      have := Int.cast_lt.1 this
      omega
  · cases s <;> rfl
  · rfl

/-- `Exp(1.0F)` is the float nearest to e, `Exp(-1.0F)` is the float above the nearest one; `Exp(89.0F)` is infinite. -/
example : exp (ofBits 0x3F800000) = .ok (ofBits 0x402DF854) ∧ exp (ofBits 0xBF800000) = .ok (ofBits 0x3EBC5AB2) ∧
    exp (ofInt 89) = .ok (.inf false) ∧ exp (ofInt (-88)) = .ok zero ∧ exp (ofInt 100) = .ok zero ∧
    exp (ofInt 3000000000) = .ub := by decide +kernel

/-! ## C97 -/

/-- The bits of infinity. -/
def infBits : Nat := 0x7F800000

/-- **C97**: `Log` of a positive finite float is the natural logarithm, with an error of at most `4e-7` and `1.3e-7` times the
absolute value of the result. `Log` of a zero is minus infinity, `Log` of infinity is infinity; otherwise the result is NaN. -/
def C97_statement : Prop := ∀ b, b < 2 ^ 32 →
  (0 < b ∧ b < infBits → Finite (logBits b) ∧ |real (logBits b) - Real.log (real (ofBits b))| ≤
    4 / 10 ^ 7 + 13 / 10 ^ 8 * |Real.log (real (ofBits b))|) ∧
  (b % 2 ^ 31 = 0 → logBits b = .inf true) ∧ (b = infBits → logBits b = .inf false) ∧
  ((infBits < b ∧ b < 2 ^ 31) ∨ 2 ^ 31 < b → logBits b = .nan)

/-- **C97** for normal floats, zeros and floats with a sign bit. Missing are subnormal floats, infinity and NaN without a sign
bit. -/
theorem C97_log_partial (b : Nat) (h : b < 2 ^ 32) :
    (2 ^ 23 ≤ b ∧ b < infBits → Finite (logBits b) ∧ |real (logBits b) - Real.log (real (ofBits b))| ≤
      4 / 10 ^ 7 + 13 / 10 ^ 8 * |Real.log (real (ofBits b))|) ∧
    (b % 2 ^ 31 = 0 → logBits b = .inf true) ∧ (2 ^ 31 < b → logBits b = .nan) := by
  refine ⟨fun h => ?_, fun h => ?_, fun h' => ?_⟩
  · exact log_accurate h.1 (by have : infBits = 255 * 2 ^ 23 := by decide
                               omega)
  · have : b = 0 ∨ b = 2 ^ 31 := by omega
    rcases this with rfl | rfl <;> decide
  · have hz : eq (ofBits b) zero = false := by
      have hs : decide (2 ^ 31 ≤ b % 2 ^ 32) = true := by rw [decide_eq_true_eq]; omega
      unfold ofBits
      simp only [hs]
      split
      · split <;> decide
      · split
        · have hm : b % 2 ^ 23 ≠ 0 := by omega
          generalize b % 2 ^ 23 = m at *
          have : lt (.fin true m 0) zero = true := by
            show decide (scaled true m 0 < scaled false 0 0) = true
            rw [decide_eq_true_eq]
            simp only [scaled, if_true, Bool.false_eq_true, if_false]
            omega
          unfold eq
          rw [this]
          simp
        · generalize b / 2 ^ 23 % 256 - 1 = q
          generalize b % 2 ^ 23 = m
          have : lt (.fin true (2 ^ 23 + m) q) zero = true := by
            show decide (scaled true (2 ^ 23 + m) q < scaled false 0 0) = true
            rw [decide_eq_true_eq]
            simp only [scaled, if_true, Bool.false_eq_true, if_false]
            have : 0 < (2 ^ 23 + m) * 2 ^ q := Nat.mul_pos (by omega) (Nat.two_pow_pos _)
            omega
          unfold eq
          rw [this]
          simp
    rw [logBits, if_neg (by omega), hz]
    rfl

/-- The least positive float is taken for `2^(-127) * (1 + 2^(-23))`: its logarithm, which is -103.28, is found to be
-88.03. -/
theorem C97_subnormal : Finite (logBits 1) ∧ 15 < |real (logBits 1) - Real.log (real (ofBits 1))| := by
  have e : logBits 1 = .fin true 11538228 132 := by decide +kernel
  have f : Finite (logBits 1) := by rw [e]; exact ⟨_, _, _, rfl, by decide, by decide, .inr (by decide)⟩
  refine ⟨f, ?_⟩
  have e1 : ofBits 1 = .fin false 1 0 := by decide
  have r1 : real (ofBits 1) = (2 ^ 149)⁻¹ := by
    rw [e1, real_fin]
    norm_num
  have r2 : real (logBits 1) = -(11538228 / 2 ^ 17) := by
    rw [e, real_fin]
    push_cast
    norm_num
  have a := Real.log_two_gt_d9
  rw [r1, r2, Real.log_inv, Real.log_pow, lt_abs]
  left
  norm_num at a ⊢
  linarith

/-- **C97 is violated** by the least positive float, and by infinity (whose logarithm is found to be about 88.7). -/
theorem C97_violated : ¬ C97_statement ∧ logBits infBits = ofBits 0x42B17218 := by
  refine ⟨fun h => ?_, by decide +kernel⟩
  obtain ⟨-, -, h1, -⟩ := h infBits (by decide)
  have := h1 rfl
  revert this
  decide +kernel

/-- `Log(2.0F)` and `Log(0.5F)` are nearest, `Log(1.0F)` is zero. -/
example : logBits 0x40000000 = ofBits 0x3F317218 ∧ logBits 0x3F000000 = ofBits 0xBF317218 ∧ logBits 0x3F800000 = zero ∧
    logBits 0xBF800000 = .nan ∧ logBits 0x80000000 = .inf true := by decide +kernel

end Verif.Props
