import Verif.Props.ExpLog
import Verif.Lemmas.Ieee32

/-!
# Properties of `Pow` (C110)
-/

namespace Verif.Props

open Verif Verif.B32 Verif.MathFns Verif.Spec.F32

/-- **C110**: `Pow(x, y)` of a positive finite `x` is `x` to the power of `y`, with a relative error of at most one percent, if
the result is between `e^(-80)` and `e^80`; `Pow(0, y)` is zero for positive `y`; and `Pow` is defined for all numbers. -/
def C110_statement : Prop := ∀ x y, Spec.F32.Finite x → Spec.F32.Finite y →
  (0 < real x → |real y * Real.log (real x)| ≤ 80 →
    ∃ z, pow x y = .ok z ∧ Finite z ∧ |real z - real x ^ real y| ≤ 1 / 100 * real x ^ real y) ∧
  (real x = 0 → 0 < real y → ∃ z, pow x y = .ok z ∧ real z = 0) ∧
  ∃ z, pow x y = .ok z

/-- The bits of a normal float without a sign bit. -/
theorem normal_bits {x : Flt} (hx : Finite x) (h : 1 / 2 ^ 126 ≤ real x) :
    2 ^ 23 ≤ toBits x ∧ toBits x < 255 * 2 ^ 23 ∧ ofBits (toBits x) = x := by
  refine ⟨?_, ?_, (ofBits_toBits (.inl hx)).2⟩ <;> obtain ⟨s, m, q, rfl, h1, h2, h3⟩ := hx
  · have hs : s = false := by
      cases s
      · rfl
      · exfalso
        rw [real_fin] at h
        have : (0 : ℝ) ≤ ((m * 2 ^ q : Nat) : ℝ) / 2 ^ 149 := by positivity
        have : (0 : ℝ) < 1 / 2 ^ 126 := by positivity
        simp only [if_true] at h
        linarith
    subst hs
    rw [toBits_fin]
    simp only [Bool.false_eq_true, if_false]
    split
    · exfalso
      rename_i hm
      have hq : q = 0 := by omega
      subst hq
      rw [real_fin] at h
      have : (m : ℝ) < 2 ^ 23 := by exact_mod_cast hm
      simp only [Bool.false_eq_true, if_false, Nat.pow_zero, Nat.mul_one, one_mul] at h
      rw [le_div_iff₀ (by positivity)] at h
      norm_num at h this
      linarith
    · omega
  · have hs : s = false := by
      cases s
      · rfl
      · exfalso
        rw [real_fin] at h
        have : (0 : ℝ) ≤ ((m * 2 ^ q : Nat) : ℝ) / 2 ^ 149 := by positivity
        have : (0 : ℝ) < 1 / 2 ^ 126 := by positivity
        simp only [if_true] at h
        linarith
    subst hs
    rw [toBits_fin]
    simp only [Bool.false_eq_true, if_false]
    split <;> omega

/-- The relative error of `Pow`. -/
noncomputable def powError (x y : Flt) : ℝ :=
  41 / 10 ^ 8 * |real y| + 2 / 10 ^ 7 * |real y * Real.log (real x)| + 1 / 10 ^ 9

/-- **C110** for normal `x`: the relative error grows with the exponent. Missing are subnormal `x`, large exponents and zero. -/
theorem C110_pow_partial (x y : Flt) (hx : Finite x) (hy : Finite y) (h0 : 1 / 2 ^ 126 ≤ real x)
    (h1 : |real y * Real.log (real x)| ≤ 80) (h2 : powError x y ≤ 1) :
    ∃ z, pow x y = .ok z ∧ Finite z ∧ |real z - real x ^ real y| ≤ (2 * powError x y + 3 / 10 ^ 6) * real x ^ real y := by
  obtain ⟨n1, n2, n3⟩ := normal_bits hx h0
  obtain ⟨l1, l2⟩ := log_accurate n1 n2
  rw [n3] at l2
  have hpos : 0 < real x := lt_of_lt_of_le (by positivity) h0
  unfold powError at h2 ⊢
  set L := Real.log (real x) with hL
  set e := real y with he
  change Finite (log x) at l1
  change |real (log x) - L| ≤ _ at l2
  set l := real (log x) with hl
  have a1 : |e * L| = |e| * |L| := abs_mul _ _
  have a2 : |l * e - e * L| ≤ 4 / 10 ^ 7 * |e| + 13 / 10 ^ 8 * |e * L| := by
    rw [show l * e - e * L = (l - L) * e by ring, abs_mul, a1]
    have := mul_le_mul_of_nonneg_right l2 (abs_nonneg e)
    linarith
  have a3 : |l * e| ≤ 81 := by
    have : l * e = (l * e - e * L) + e * L := by ring
    rw [this]
    refine (abs_add_le _ _).trans ?_
    have := abs_nonneg (e * L)
    have := abs_nonneg e
    norm_num at a2 h2 ⊢
    linarith
  obtain ⟨m1, m2⟩ := mul_real l1 hy (a3.trans (by norm_num))
  rw [← hl, ← he] at m2
  set p := real (mul (log x) y) with hp
  set D := 41 / 10 ^ 8 * |e| + 2 / 10 ^ 7 * |e * L| + 1 / 10 ^ 9 with hD
  have a4 : |p - e * L| ≤ D := by
    have b1 : |l * e| ≤ |e * L| + (4 / 10 ^ 7 * |e| + 13 / 10 ^ 8 * |e * L|) := by
      have : l * e = e * L + (l * e - e * L) := by ring
      rw [this]
      exact (abs_add_le _ _).trans (by linarith)
    have b2 : |p - e * L| ≤ |p - l * e| + |l * e - e * L| := by
      have : p - e * L = (p - l * e) + (l * e - e * L) := by ring
      rw [this]
      exact abs_add_le _ _
    have b3 : |p - l * e| ≤ 6 / 10 ^ 8 * |l * e| + 1 / 10 ^ 9 := by
      refine m2.trans (add_le_add (mul_le_mul_of_nonneg_right ?_ (abs_nonneg _)) ?_)
      · unfold eps; norm_num
      · unfold tiny; norm_num
    have b4 := abs_nonneg e
    have b5 := abs_nonneg (e * L)
    rw [hD]
    norm_num at a2 b1 b3 ⊢
    linarith
  have a5 := abs_le.1 h1
  have a6 := abs_le.1 (a4.trans h2)
  obtain ⟨z, z1, z2, z3⟩ := exp_accurate m1 (by rw [← hp]; linarith) (by rw [← hp]; linarith)
  refine ⟨z, z1, z2, ?_⟩
  rw [Real.rpow_def_of_pos hpos, ← hL, mul_comm L e]
  rw [← hp] at z3
  have hE := Real.exp_pos (e * L)
  have c1 : |Real.exp p - Real.exp (e * L)| ≤ 2 * D * Real.exp (e * L) := by
    have : Real.exp p - Real.exp (e * L) = (Real.exp (p - e * L) - 1) * Real.exp (e * L) := by
      rw [sub_mul, ← Real.exp_add, one_mul]; congr 2; ring
    rw [this, abs_mul, abs_of_pos hE]
    refine mul_le_mul_of_nonneg_right ?_ hE.le
    have := Real.abs_exp_sub_one_le (a4.trans h2)
    linarith
  have c2 : |real z - Real.exp (e * L)| ≤ |real z - Real.exp p| + |Real.exp p - Real.exp (e * L)| := by
    have : real z - Real.exp (e * L) = (real z - Real.exp p) + (Real.exp p - Real.exp (e * L)) := by ring
    rw [this]
    exact abs_add_le _ _
  have c3 : Real.exp p ≤ (1 + 2 * D) * Real.exp (e * L) := by
    have := (abs_le.1 c1).2
    linarith
  have c4 : (1 + 2 * D) * Real.exp (e * L) ≤ 3 * Real.exp (e * L) := mul_le_mul_of_nonneg_right (by linarith) hE.le
  have c5 : 1 / 10 ^ 6 * Real.exp p ≤ 3 / 10 ^ 6 * Real.exp (e * L) := by
    norm_num
    linarith
  linarith

theorem mul_zero_right {x : Flt} (hx : Finite x) (s : Bool) : ∃ t, mul x (.fin s 0 0) = .fin t 0 0 := by
  obtain ⟨u, m, q, rfl, -⟩ := hx
  refine ⟨u != s, ?_⟩
  rw [mul, Nat.zero_mul, Nat.mul_zero]
  cases u != s <;> decide +kernel

theorem mul_zero_left {x : Flt} (hx : Finite x) (s : Bool) : ∃ t, mul (.fin s 0 0) x = .fin t 0 0 := by
  obtain ⟨u, m, q, rfl, -⟩ := hx
  refine ⟨s != u, ?_⟩
  rw [mul, Nat.zero_mul]
  cases s != u <;> decide +kernel

theorem exp_zero (t : Bool) : exp (.fin t 0 0) = .ok one := by cases t <;> decide +kernel

/-- `Pow(x, 0)` is one for normal `x`, and `Pow(1, y)` is one. -/
theorem C110_one (x : Flt) (hx : Finite x) (s : Bool) : (1 / 2 ^ 126 ≤ real x → pow x (.fin s 0 0) = .ok one) ∧ pow one x = .ok one := by
  constructor
  · intro h
    obtain ⟨n1, n2, -⟩ := normal_bits hx h
    obtain ⟨t, ht⟩ := mul_zero_right (log_accurate n1 n2).1 s
    change exp (mul (logBits (toBits x)) _) = _
    rw [ht, exp_zero]
  · have e : log one = .fin false 0 0 := by decide +kernel
    obtain ⟨t, ht⟩ := mul_zero_left hx false
    rw [pow, e, ht, exp_zero]

theorem exp_nonfinite {x : Flt} (h : (∃ s, x = .inf s) ∨ x = .nan) : exp x = .ub := C96_undefined x (.inr h)

theorem mul_nonfinite {x : Flt} (y : Flt) (h : (∃ s, x = .inf s) ∨ x = .nan) : (∃ s, mul x y = .inf s) ∨ mul x y = .nan := by
  rcases h with ⟨s, rfl⟩ | rfl
  · cases y with
    | nan => exact .inr rfl
    | inf t => exact .inl ⟨_, rfl⟩
    | fin t m q =>
      rw [mul]
      split
      · exact .inr rfl
      · exact .inl ⟨_, rfl⟩
  · cases y <;> exact .inr rfl

/-- `Pow` of zero and of a negative number is undefined, whatever the exponent: the result of `Log`, infinite or NaN, is
converted to `int32`. -/
theorem C110_undefined (x y : Flt) (h : (Spec.F32.Finite x ∧ real x ≤ 0) ∨ x = .inf true) : pow x y = .ub := by
  refine exp_nonfinite (mul_nonfinite y ?_)
  change (∃ s, logBits (toBits x) = .inf s) ∨ logBits (toBits x) = .nan
  rcases h with ⟨hx, h⟩ | rfl
  · have hb := (ofBits_toBits (.inl hx)).1
    obtain ⟨-, c2, c3⟩ := C97_log_partial _ hb
    obtain ⟨s, m, q, rfl, h1, h2, h3⟩ := hx
    have hbits := toBits_fin s m q
    cases s
    · have hm : m = 0 := by
        rw [real_fin] at h
        simp only [Bool.false_eq_true, if_false, one_mul] at h
        by_contra hm
        have : (0 : ℝ) < ((m * 2 ^ q : Nat) : ℝ) := by
          have : 0 < m * 2 ^ q := Nat.mul_pos (by omega) (Nat.two_pow_pos _)
          exact_mod_cast this
        have : (0 : ℝ) < ((m * 2 ^ q : Nat) : ℝ) / 2 ^ 149 := by positivity
        linarith
      subst hm
      simp only [Bool.false_eq_true, if_false, show (0 : Nat) < 2 ^ 23 by decide, if_true] at hbits
      exact .inl ⟨true, c2 (by rw [hbits]; decide)⟩
    · simp only [if_true] at hbits
      rcases Nat.eq_or_lt_of_le (show 2 ^ 31 ≤ toBits (.fin true m q) by omega) with e | e
      · exact .inl ⟨true, c2 (by rw [← e]; decide)⟩
      · exact .inr (c3 e)
  · right
    exact (C97_log_partial _ (by decide)).2.2 (by decide)

theorem power_bound : (1 / 4 : ℝ) ≤ (1 - 1 / 2 ^ 24) ^ (2 ^ 24) := by
  have h : (1 / 2 : ℝ) ≤ (1 - 1 / 2 ^ 24) ^ (2 ^ 23) := by
    have := one_add_mul_le_pow (a := (-(1 / 2 ^ 24) : ℝ)) (by norm_num) (2 ^ 23)
    rw [← sub_eq_add_neg] at this
    refine le_trans ?_ this
    norm_num
  have e : ((1 - 1 / 2 ^ 24 : ℝ)) ^ (2 ^ 24) = ((1 - 1 / 2 ^ 24) ^ (2 ^ 23)) ^ 2 := by
    rw [← pow_mul]; congr 1
  rw [e]
  refine le_trans ?_ (pow_le_pow_left₀ (by norm_num) h 2)
  norm_num

/-- **C110 is violated**: `Pow(0, 1)` is undefined. And `Pow(1 - 2^(-24), 2^24)`, about `1 / e`, is found to be `1 / e^2`. -/
theorem C110_violated : ¬ C110_statement ∧ ∃ x y z : Flt, Spec.F32.Finite x ∧ Spec.F32.Finite y ∧ 0 < real x ∧
    |real y * Real.log (real x)| ≤ 80 ∧ pow x y = .ok z ∧ real z < 1 / 7 ∧ 1 / 4 ≤ real x ^ real y := by
  constructor
  · intro h
    obtain ⟨-, -, z, hz⟩ := h zero one finite_zero finite_one
    rw [C110_undefined zero one (.inl ⟨finite_zero, real_zero.le⟩)] at hz
    cases hz
  · have hx : Spec.F32.Finite (.fin false (2 ^ 24 - 1) 125) := ⟨_, _, _, rfl, by decide, by decide, .inr (by decide)⟩
    have rx : real (.fin false (2 ^ 24 - 1) 125) = 1 - 1 / 2 ^ 24 := by
      rw [real_fin]
      push_cast
      norm_num
    have hy := ofInt_spec (n := 2 ^ 24) (by decide)
    have ry : real (ofInt (2 ^ 24)) = 2 ^ 24 := by rw [real_ofInt (by decide)]; norm_num
    refine ⟨.fin false (2 ^ 24 - 1) 125, ofInt (2 ^ 24), .fin false 9082197 123, hx, hy.1, ?_, ?_, by decide +kernel, ?_, ?_⟩
    · rw [rx]; norm_num
    · rw [rx, ry]
      have l1 : Real.log (1 - 1 / 2 ^ 24) ≤ 0 := Real.log_nonpos (by norm_num) (by norm_num)
      have l2 := Real.one_sub_inv_le_log_of_pos (show (0 : ℝ) < 1 - 1 / 2 ^ 24 by norm_num)
      generalize Real.log (1 - 1 / 2 ^ 24) = l at *
      rw [abs_le]
      norm_num at l2 ⊢
      constructor <;> linarith
    · rw [real_fin]
      push_cast
      norm_num
    · rw [rx, ry]
      have := power_bound
      have e : ((1 - 1 / 2 ^ 24 : ℝ)) ^ ((2 : ℝ) ^ 24) = (1 - 1 / 2 ^ 24) ^ (2 ^ 24) := by
        rw [← Real.rpow_natCast]; norm_num
      rw [e]
      exact this

/-- `Pow(2, 10)` is 1024 and `Pow(10, -2)` is the float below 0.01. -/
example : pow (ofInt 2) (ofInt 10) = .ok (ofInt 1024) ∧ pow (ofInt 10) (ofInt (-2)) = .ok (.fin false 10737417 119) ∧ pow zero (ofInt 2) = .ub ∧
    pow (ofInt (-2)) (ofInt 2) = .ub := by
  decide +kernel

end Verif.Props
