import Verif.Lemmas.RoundNearest
import Verif.Lemmas.SimdReal
import Verif.Model.SimdNeon

/-!
# Instructions of NEON and real numbers
-/

namespace Verif.Neon

open Verif Verif.B32 Verif.MathFns Verif.Spec.F32 Verif.Simd

/-! ## Validity -/

theorem fmaOver_valid {d : Nat} (hd : 0 < d) (x y z : Flt) : Valid (fmaOver d x y z) := by
  have hp : 0 < d * 2 ^ 149 := Nat.mul_pos hd (Nat.two_pow_pos _)
  unfold fmaOver
  split
  any_goals exact nan_valid
  · dsimp only
    repeat' split
    all_goals first | exact round_valid _ hp | exact zero_valid _
  · exact inf_valid _
  · exact add_valid _ _

theorem const_valid (w : Nat) (h : w < 2 ^ 32) : Valid (const w) := (toBits_ofBits h).1

theorem neg_valid {x : Flt} (h : Valid x) : Valid (neg x) := by
  rcases h with ⟨s, m, q, rfl, h⟩ | ⟨s, rfl⟩ | rfl
  · exact .inl ⟨_, _, _, rfl, h⟩
  · exact .inr (.inl ⟨_, rfl⟩)
  · exact nan_valid

theorem recipStep_valid (x y : Flt) : Valid (recipStep x y) := by
  unfold recipStep
  split
  · exact const_valid _ (by decide)
  · exact fmaOver_valid Nat.one_pos _ _ _

theorem rsqrtStep_valid (x y : Flt) : Valid (rsqrtStep x y) := by
  unfold rsqrtStep
  split
  · exact const_valid _ (by decide)
  · exact fmaOver_valid (by decide) _ _ _

theorem recpe_valid (x : Flt) : Valid (recpe x) := by
  unfold recpe
  split
  · exact nan_valid
  · exact zero_valid _
  · repeat' split
    all_goals first | exact inf_valid _ | exact round_valid _ Nat.one_pos

theorem rsqrte_valid (x : Flt) : Valid (rsqrte x) := by
  unfold rsqrte
  split
  · exact nan_valid
  · split
    · exact nan_valid
    · exact zero_valid _
  · dsimp only
    repeat' split
    all_goals first | exact inf_valid _ | exact nan_valid | exact round_valid _ Nat.one_pos

theorem vmin_valid {x y : Flt} (hx : Valid x) (hy : Valid y) : Valid (vmin x y) := by
  unfold vmin
  split
  · exact nan_valid
  · exact nan_valid
  · exact zero_valid _
  · split
    · exact hx
    · exact hy

theorem vmax_valid {x y : Flt} (hx : Valid x) (hy : Valid y) : Valid (vmax x y) := by
  unfold vmax
  split
  · exact nan_valid
  · exact nan_valid
  · exact zero_valid _
  · split
    · exact hx
    · exact hy

@[simp] theorem fl_vminW (a b : Word) : fl (vminW a b) = vmin (fl a) (fl b) := fl_wd (vmin_valid (fl_valid a) (fl_valid b))
@[simp] theorem fl_vmaxW (a b : Word) : fl (vmaxW a b) = vmax (fl a) (fl b) := fl_wd (vmax_valid (fl_valid a) (fl_valid b))
@[simp] theorem fl_fmaW (c a b : Word) : fl (fmaW c a b) = fma (fl a) (fl b) (fl c) := fl_wd (fmaOver_valid Nat.one_pos _ _ _)
@[simp] theorem fl_fmsW (c a b : Word) : fl (fmsW c a b) = fma (neg (fl a)) (fl b) (fl c) := fl_wd (fmaOver_valid Nat.one_pos _ _ _)
@[simp] theorem fl_recpeW (a : Word) : fl (recpeW a) = recpe (fl a) := fl_wd (recpe_valid _)
@[simp] theorem fl_recpsW (a b : Word) : fl (recpsW a b) = recipStep (fl a) (fl b) := fl_wd (recipStep_valid _ _)
@[simp] theorem fl_rsqrteW (a : Word) : fl (rsqrteW a) = rsqrte (fl a) := fl_wd (rsqrte_valid _)
@[simp] theorem fl_rsqrtsW (a b : Word) : fl (rsqrtsW a b) = rsqrtStep (fl a) (fl b) := fl_wd (rsqrtStep_valid _ _)

/-! ## Fused operations -/

/-- A rounded number is nearest and within half a unit. -/
def Rounds (x : Flt) (r : ℝ) : Prop := Closest x r ∧ |real x - r| ≤ eps * |r| + tiny

theorem round_rounds (s : Bool) {num den : Nat} {r : ℝ} (hd : 0 < den) (hr : (if s then -1 else 1) * ((num : ℝ) / den / 2 ^ 149) = r)
    (hb : |r| ≤ 2 ^ 127) : Rounds (B32.round s num den) r := by
  refine ⟨round_closest s hd hr hb, ?_⟩
  have hd' : (0 : ℝ) < den := by exact_mod_cast hd
  have e : |r| = (num : ℝ) / den / 2 ^ 149 := by
    rw [← hr, abs_mul, abs_of_nonneg (show 0 ≤ (num : ℝ) / den / 2 ^ 149 by positivity)]
    cases s <;> simp
  have hn : num ≤ 2 ^ 276 * den := by
    rw [e, div_div, div_le_iff₀ (by positivity)] at hb
    have e : (2 : ℝ) ^ 127 * (den * 2 ^ 149) = 2 ^ 276 * den := by
      rw [mul_comm (den : ℝ), ← mul_assoc, ← pow_add]
    rw [e] at hb
    exact_mod_cast hb
  have := (round_real s hd hn).2
  rw [hr, ← e] at this
  exact this

theorem rounds_zero : Rounds (.fin false 0 0) 0 := by
  refine ⟨closest_zero, ?_⟩
  rw [real_fin]
  simp [tiny]

/-- A fused multiplication and addition is rounded once. -/
theorem fmaOver_rounds {d : Nat} (hd : 0 < d) {x y z : Flt} (hx : Spec.F32.Finite x) (hy : Spec.F32.Finite y) (hz : Spec.F32.Finite z)
    (h : |(real x * real y + real z) / d| ≤ 2 ^ 127) : Rounds (fmaOver d x y z) ((real x * real y + real z) / d) := by
  obtain ⟨s, m, q, rfl, -⟩ := hx
  obtain ⟨s', m', q', rfl, -⟩ := hy
  obtain ⟨t, n, r, rfl, -⟩ := hz
  unfold fmaOver
  dsimp only
  have hp : 0 < d * 2 ^ 149 := Nat.mul_pos hd (Nat.two_pow_pos _)
  have hd' : (d : ℝ) ≠ 0 := by exact_mod_cast hd.ne'
  rw [real_fin, real_fin, real_fin] at *
  generalize m * 2 ^ q = a at *
  generalize m' * 2 ^ q' = b at *
  generalize n * 2 ^ r = c at *
  have σ := sign_mul s s'
  have e0 : ∀ v : ℝ, v / ((d * 2 ^ 149 : Nat) : ℝ) / 2 ^ 149 = v / 2 ^ 149 / 2 ^ 149 / d := fun v => by
    rw [Nat.cast_mul, cast_unit]
    field_simp
  have e1 : ((a * b : Nat) : ℝ) / 2 ^ 149 / 2 ^ 149 = (a : ℝ) / 2 ^ 149 * ((b : ℝ) / 2 ^ 149) := by rw [Nat.cast_mul]; ring
  have e2 : ((c * 2 ^ 149 : Nat) : ℝ) / 2 ^ 149 / 2 ^ 149 = (c : ℝ) / 2 ^ 149 := by
    rw [Nat.cast_mul, cast_unit, mul_div_assoc, div_self (by positivity), mul_one]
  have e3 : (if s then (-1 : ℝ) else 1) * ((a : ℝ) / 2 ^ 149) * ((if s' then -1 else 1) * ((b : ℝ) / 2 ^ 149)) =
      (if s != s' then -1 else 1) * (((a * b : Nat) : ℝ) / 2 ^ 149 / 2 ^ 149) := by rw [e1, σ]; ring
  rw [e3, ← e2] at h ⊢
  clear e1 e2 e3 σ
  generalize (s != s') = p at h ⊢
  generalize a * b = P at h ⊢
  obtain ⟨Z, hZ⟩ : ∃ Z, Z = c * 2 ^ 149 := ⟨_, rfl⟩
  rw [← hZ] at h ⊢
  by_cases h1 : p = t
  · rw [if_pos h1]
    subst h1
    exact round_rounds p hp (by rw [e0, Nat.cast_add]; ring) h
  rw [if_neg h1]
  have e : (if t then (-1 : ℝ) else 1) = -(if p then -1 else 1) := by cases p <;> cases t <;> simp at h1 ⊢
  by_cases h2 : P = Z
  · rw [if_pos h2]
    subst h2
    rw [e]
    have : ((if p then (-1 : ℝ) else 1) * ((P : ℝ) / 2 ^ 149 / 2 ^ 149) + -(if p then -1 else 1) * ((P : ℝ) / 2 ^ 149 / 2 ^ 149)) / d = 0 := by ring
    rw [this]
    exact rounds_zero
  rw [if_neg h2]
  by_cases h3 : Z < P
  · rw [if_pos h3]
    exact round_rounds p hp (by rw [e, e0, Nat.cast_sub h3.le]; ring) h
  · rw [if_neg h3]
    exact round_rounds t hp (by rw [e, e0, Nat.cast_sub (by omega)]; ring) h

theorem fma_rounds {x y z : Flt} (hx : Spec.F32.Finite x) (hy : Spec.F32.Finite y) (hz : Spec.F32.Finite z)
    (h : |real x * real y + real z| ≤ 2 ^ 127) : Rounds (fma x y z) (real x * real y + real z) := by
  have := fmaOver_rounds Nat.one_pos hx hy hz (by rw [Nat.cast_one, div_one]; exact h)
  rwa [Nat.cast_one, div_one] at this

/-! ## Estimates -/

theorem recipEstimate_spec : ∀ a < 512, 256 ≤ a → 2 ^ 17 - 374 ≤ recipEstimate a * a ∧ recipEstimate a * (a + 1) ≤ 2 ^ 17 + 374 := by
  decide +kernel

theorem rsqrtEstimate_spec : ∀ a < 512, 128 ≤ a →
    2 ^ 25 - 220268 ≤ rsqrtEstimate a * rsqrtEstimate a * a ∧ rsqrtEstimate a * rsqrtEstimate a * (a + 1) ≤ 2 ^ 25 + 220268 := by
  decide +kernel

/-- The leading bits of a significand. -/
theorem leading {m : Nat} (hm : m ≠ 0) (j : Nat) :
    2 ^ j ≤ m * 2 ^ j / 2 ^ m.log2 ∧ m * 2 ^ j / 2 ^ m.log2 < 2 ^ (j + 1) ∧
    m * 2 ^ j / 2 ^ m.log2 * 2 ^ m.log2 ≤ m * 2 ^ j ∧ m * 2 ^ j ≤ (m * 2 ^ j / 2 ^ m.log2 + 1) * 2 ^ m.log2 := by
  have h1 := Nat.log2_self_le hm
  have h2 : m < 2 ^ (m.log2 + 1) := Nat.lt_log2_self
  have hp := Nat.two_pow_pos m.log2
  generalize m.log2 = L at *
  refine ⟨?_, ?_, Nat.div_mul_le_self _ _, ?_⟩
  · rw [Nat.le_div_iff_mul_le hp, Nat.mul_comm]
    exact Nat.mul_le_mul_right _ h1
  · rw [Nat.div_lt_iff_lt_mul hp, ← Nat.pow_add, show j + 1 + L = L + 1 + j by omega, Nat.pow_add]
    exact Nat.mul_lt_mul_of_pos_right h2 (Nat.two_pow_pos _)
  · have := Nat.div_add_mod' (m * 2 ^ j) (2 ^ L)
    have := Nat.mod_lt (m * 2 ^ j) hp
    rw [Nat.add_mul, Nat.one_mul]
    omega

/-- The product of a number and the estimate of its reciprocal, in units. -/
theorem recip_units {m q : Nat} (hm : m ≠ 0) (hq : m.log2 + q ≤ 289) :
    (2 ^ 17 - 374) * 2 ^ 281 ≤ recipEstimate (m * 2 ^ 8 / 2 ^ m.log2) * 2 ^ (289 - (m.log2 + q)) * (m * 2 ^ q) ∧
    recipEstimate (m * 2 ^ 8 / 2 ^ m.log2) * 2 ^ (289 - (m.log2 + q)) * (m * 2 ^ q) ≤ (2 ^ 17 + 374) * 2 ^ 281 := by
  obtain ⟨a1, a2, a3, a4⟩ := leading hm 8
  obtain ⟨e1, e2⟩ := recipEstimate_spec _ a2 a1
  generalize m * 2 ^ 8 / 2 ^ m.log2 = a at *
  generalize recipEstimate a = A at *
  generalize m.log2 = L at *
  obtain ⟨k, hk⟩ : ∃ k, k + (L + q) = 289 := ⟨289 - (L + q), by omega⟩
  rw [show 289 - (L + q) = k by omega]
  have e : A * 2 ^ k * (m * 2 ^ q) * 2 ^ 8 = A * (m * 2 ^ 8) * (2 ^ k * 2 ^ q) := by
    ring
  have e' : ∀ b, A * (b * 2 ^ L) * (2 ^ k * 2 ^ q) = A * b * 2 ^ 281 * 2 ^ 8 := fun b => by
    have : 2 ^ 281 * 2 ^ 8 = 2 ^ L * (2 ^ k * 2 ^ q) := by rw [← Nat.pow_add, ← Nat.pow_add, ← Nat.pow_add]; congr 1; omega
    rw [Nat.mul_assoc (A * b), this]
    simp only [Nat.mul_assoc]
  constructor
  · refine Nat.le_of_mul_le_mul_right (c := 2 ^ 8) ?_ (Nat.two_pow_pos _)
    rw [e]
    refine Nat.le_trans ?_ (Nat.mul_le_mul_right _ (Nat.mul_le_mul_left A a3))
    rw [e']
    exact Nat.mul_le_mul_right _ (Nat.mul_le_mul_right _ e1)
  · refine Nat.le_of_mul_le_mul_right (c := 2 ^ 8) ?_ (Nat.two_pow_pos _)
    rw [e]
    refine Nat.le_trans (Nat.mul_le_mul_right _ (Nat.mul_le_mul_left A a4)) ?_
    rw [e']
    exact Nat.mul_le_mul_right _ (Nat.mul_le_mul_right _ e2)

/-- The same for the estimate of the reciprocal of the square root. -/
theorem rsqrt_units {m q j K : Nat} (hm : m ≠ 0) (hj : j = 7 ∨ j = 8) (hK : 2 * K + (m.log2 + q) = 422 + j) :
    (2 ^ 25 - 220268) * 2 ^ 422 ≤ (rsqrtEstimate (m * 2 ^ j / 2 ^ m.log2) * 2 ^ K) * (rsqrtEstimate (m * 2 ^ j / 2 ^ m.log2) * 2 ^ K) * (m * 2 ^ q) ∧
    (rsqrtEstimate (m * 2 ^ j / 2 ^ m.log2) * 2 ^ K) * (rsqrtEstimate (m * 2 ^ j / 2 ^ m.log2) * 2 ^ K) * (m * 2 ^ q) ≤ (2 ^ 25 + 220268) * 2 ^ 422 := by
  obtain ⟨a1, a2, a3, a4⟩ := leading hm j
  obtain ⟨e1, e2⟩ := rsqrtEstimate_spec (m * 2 ^ j / 2 ^ m.log2)
    (by rcases hj with rfl | rfl <;> omega) (by rcases hj with rfl | rfl <;> omega)
  clear a1 a2
  generalize m * 2 ^ j / 2 ^ m.log2 = a at *
  generalize rsqrtEstimate a = A at *
  generalize m.log2 = L at *
  have e : A * 2 ^ K * (A * 2 ^ K) * (m * 2 ^ q) * 2 ^ j = A * A * (m * 2 ^ j) * (2 ^ K * 2 ^ K * 2 ^ q) := by
    ring
  have e' : ∀ b, A * A * (b * 2 ^ L) * (2 ^ K * 2 ^ K * 2 ^ q) = A * A * b * 2 ^ 422 * 2 ^ j := fun b => by
    have : 2 ^ 422 * 2 ^ j = 2 ^ L * (2 ^ K * 2 ^ K * 2 ^ q) := by rw [← Nat.pow_add, ← Nat.pow_add, ← Nat.pow_add, ← Nat.pow_add]; congr 1; omega
    rw [Nat.mul_assoc (A * A * b), this]
    simp only [Nat.mul_assoc]
  constructor
  · refine Nat.le_of_mul_le_mul_right (c := 2 ^ j) ?_ (Nat.two_pow_pos _)
    rw [e]
    refine Nat.le_trans ?_ (Nat.mul_le_mul_right _ (Nat.mul_le_mul_left (A * A) a3))
    rw [e']
    exact Nat.mul_le_mul_right _ (Nat.mul_le_mul_right _ e1)
  · refine Nat.le_of_mul_le_mul_right (c := 2 ^ j) ?_ (Nat.two_pow_pos _)
    rw [e]
    refine Nat.le_trans (Nat.mul_le_mul_right _ (Nat.mul_le_mul_left (A * A) a4)) ?_
    rw [e']
    exact Nat.mul_le_mul_right _ (Nat.mul_le_mul_right _ e2)

theorem recip_ratio {m q : Nat} (hm : m ≠ 0) (hq : m.log2 + q ≤ 289) :
    |((recipEstimate (m * 2 ^ 8 / 2 ^ m.log2) * 2 ^ (289 - (m.log2 + q)) : Nat) : ℝ) / 2 ^ 149 * (((m * 2 ^ q : Nat) : ℝ) / 2 ^ 149) - 1| ≤
      374 / 2 ^ 17 := by
  obtain ⟨h1, h2⟩ := recip_units hm hq
  generalize recipEstimate (m * 2 ^ 8 / 2 ^ m.log2) * 2 ^ (289 - (m.log2 + q)) = F at *
  generalize m * 2 ^ q = X at *
  have g1 : ((2 : ℝ) ^ 17 - 374) * 2 ^ 281 ≤ F * X := by
    have : (((2 ^ 17 - 374) * 2 ^ 281 : Nat) : ℝ) ≤ ((F * X : Nat) : ℝ) := by exact_mod_cast h1
    rw [Nat.cast_mul, Nat.cast_mul, Nat.cast_sub (by norm_num)] at this
    push_cast at this
    refine le_of_eq_of_le ?_ this
    norm_num
  have g2 : (F : ℝ) * X ≤ ((2 : ℝ) ^ 17 + 374) * 2 ^ 281 := by exact_mod_cast h2
  have e : (F : ℝ) / 2 ^ 149 * ((X : ℝ) / 2 ^ 149) = (F : ℝ) * X / (2 ^ 281 * 2 ^ 17) := by
    rw [div_mul_div_comm, ← pow_add, ← pow_add]
  rw [e]
  generalize (F : ℝ) * X = y at *
  have hp : (0 : ℝ) < 2 ^ 281 := pow_pos (by norm_num) _
  generalize (2 : ℝ) ^ 281 = D at *
  rw [abs_le]
  constructor
  · rw [neg_le_sub_iff_le_add, ← sub_le_iff_le_add, le_div_iff₀ (by positivity)]
    norm_num at *
    linarith
  · rw [sub_le_iff_le_add, div_le_iff₀ (by positivity)]
    norm_num at *
    linarith

theorem rsqrt_ratio {m q j K : Nat} (hm : m ≠ 0) (hj : j = 7 ∨ j = 8) (hK : 2 * K + (m.log2 + q) = 422 + j) :
    |((rsqrtEstimate (m * 2 ^ j / 2 ^ m.log2) * 2 ^ K : Nat) : ℝ) / 2 ^ 149 * (((rsqrtEstimate (m * 2 ^ j / 2 ^ m.log2) * 2 ^ K : Nat) : ℝ) / 2 ^ 149) *
      (((m * 2 ^ q : Nat) : ℝ) / 2 ^ 149) - 1| ≤ 220268 / 2 ^ 25 := by
  obtain ⟨h1, h2⟩ := rsqrt_units hm hj hK
  generalize rsqrtEstimate (m * 2 ^ j / 2 ^ m.log2) * 2 ^ K = F at *
  generalize m * 2 ^ q = X at *
  have g1 : ((2 : ℝ) ^ 25 - 220268) * 2 ^ 422 ≤ F * F * X := by
    have : (((2 ^ 25 - 220268) * 2 ^ 422 : Nat) : ℝ) ≤ ((F * F * X : Nat) : ℝ) := by exact_mod_cast h1
    rw [Nat.cast_mul, Nat.cast_mul, Nat.cast_mul, Nat.cast_sub (by norm_num), Nat.cast_pow 2 422] at this
    push_cast at this
    refine le_of_eq_of_le ?_ this
    norm_num
  have g2 : (F : ℝ) * F * X ≤ ((2 : ℝ) ^ 25 + 220268) * 2 ^ 422 := by
    have : ((F * F * X : Nat) : ℝ) ≤ (((2 ^ 25 + 220268) * 2 ^ 422 : Nat) : ℝ) := by exact_mod_cast h2
    rw [Nat.cast_mul, Nat.cast_mul, Nat.cast_mul, Nat.cast_pow 2 422] at this
    push_cast at this
    refine le_of_le_of_eq this ?_
    norm_num
  have e : (F : ℝ) / 2 ^ 149 * ((F : ℝ) / 2 ^ 149) * ((X : ℝ) / 2 ^ 149) = (F : ℝ) * F * X / (2 ^ 422 * 2 ^ 25) := by
    rw [div_mul_div_comm, div_mul_div_comm, ← pow_add, ← pow_add, ← pow_add]
  rw [e]
  generalize (F : ℝ) * F * X = y at *
  have hp : (0 : ℝ) < 2 ^ 422 := pow_pos (by norm_num) _
  generalize (2 : ℝ) ^ 422 = D at *
  rw [abs_le]
  constructor
  · rw [neg_le_sub_iff_le_add, ← sub_le_iff_le_add, le_div_iff₀ (by positivity)]
    norm_num at *
    linarith
  · rw [sub_le_iff_le_add, div_le_iff₀ (by positivity)]
    norm_num at *
    linarith

/-- The exponent of a float that is not too small. -/
theorem finite_log2 {m q : Nat} (hc : Canonical m q) : m.log2 + q ≤ 276 := by
  obtain ⟨h1, h2, -⟩ := hc
  by_cases h : m = 0
  · subst h; rw [Nat.log2_zero]; omega
  · have := (Nat.log2_lt h).2 h1
    omega

/-- `vrecpeq_f32` of a normal number. -/
theorem recpe_near {x : Flt} (hx : Spec.F32.Finite x) (h : 1 / 2 ^ 126 ≤ |real x|) :
    Spec.F32.Finite (recpe x) ∧ |real (recpe x) * real x - 1| ≤ 2854 / 10 ^ 6 := by
  obtain ⟨s, m, q, rfl, hc⟩ := hx
  have hX := abs_real_fin s m q
  rw [hX] at h
  have hX2 : ((m * 2 ^ q : Nat) : ℝ) / 2 ^ 149 ≤ 2 ^ 128 := by
    have : m * 2 ^ q ≤ 2 ^ 24 * 2 ^ 253 := Nat.mul_le_mul hc.1.le (Nat.pow_le_pow_right (by decide) hc.2.1)
    have : ((m * 2 ^ q : Nat) : ℝ) ≤ ((2 ^ 24 * 2 ^ 253 : Nat) : ℝ) := by exact_mod_cast this
    rw [div_le_iff₀ (by positivity), ← pow_add]
    rw [Nat.cast_mul (2 ^ 24), Nat.cast_pow, Nat.cast_pow, ← pow_add] at this
    exact this
  have hn : 2 ^ 23 ≤ m * 2 ^ q := by
    rw [le_div_iff₀ (by positivity)] at h
    have e : (1 : ℝ) / 2 ^ 126 * 2 ^ 149 = ((2 ^ 23 : Nat) : ℝ) := by norm_num
    rw [e] at h
    exact_mod_cast h
  have hm : m ≠ 0 := by rintro rfl; simp at hn
  have ratio := recip_ratio (q := q) hm ((finite_log2 hc).trans (by decide))
  unfold recpe
  dsimp only
  rw [if_neg hm, if_neg (by omega)]
  generalize recipEstimate (m * 2 ^ 8 / 2 ^ m.log2) * 2 ^ (289 - (m.log2 + q)) = F at *
  rw [real_fin]
  generalize ((m * 2 ^ q : Nat) : ℝ) / 2 ^ 149 = X at *
  have X0 : 0 < X := lt_of_lt_of_le (by positivity) h
  rw [abs_le] at ratio
  have F1 : (F : ℝ) / 2 ^ 149 ≤ 2 ^ 127 := by
    have k : (F : ℝ) / 2 ^ 149 * X ≤ 2 := by norm_num at *; linarith
    have : (F : ℝ) / 2 ^ 149 * (1 / 2 ^ 126) ≤ (F : ℝ) / 2 ^ 149 * X := mul_le_mul_of_nonneg_left h (by positivity)
    have := this.trans k
    rw [mul_one_div, div_le_iff₀ (by positivity)] at this
    norm_num at *
    linarith
  have r := round_rounds s (num := F) Nat.one_pos (r := (if s then -1 else 1) * ((F : ℝ) / 2 ^ 149)) (by rw [Nat.cast_one, div_one]) (by
    rw [abs_mul, abs_of_nonneg (show (0 : ℝ) ≤ (F : ℝ) / 2 ^ 149 by positivity)]
    cases s <;> simpa using F1)
  refine ⟨r.1.1, ?_⟩
  have r2 := r.2
  rw [abs_mul, abs_of_nonneg (show (0 : ℝ) ≤ (F : ℝ) / 2 ^ 149 by positivity), show |(if s then (-1 : ℝ) else 1)| = 1 by cases s <;> simp, one_mul] at r2
  generalize real (B32.round s F 1) = z at *
  generalize (F : ℝ) / 2 ^ 149 = f at *
  have σ : (if s then (-1 : ℝ) else 1) * (if s then (-1 : ℝ) else 1) = 1 := by cases s <;> simp
  have e : z * ((if s then -1 else 1) * X) - 1 = (if s then -1 else 1) * ((z - (if s then -1 else 1) * f) * X) + (f * X - 1) := by
    have : (if s then (-1 : ℝ) else 1) * ((z - (if s then -1 else 1) * f) * X) =
      z * ((if s then -1 else 1) * X) - ((if s then (-1 : ℝ) else 1) * (if s then (-1 : ℝ) else 1)) * (f * X) := by ring
    rw [this, σ]
    ring
  rw [e]
  refine (abs_add_le _ _).trans ?_
  rw [abs_mul, show |(if s then (-1 : ℝ) else 1)| = 1 by cases s <;> simp, one_mul, abs_mul, abs_of_pos X0]
  have k1 : |z - (if s then -1 else 1) * f| * X ≤ (eps * f + tiny) * X := mul_le_mul_of_nonneg_right r2 X0.le
  have k2 : tiny * X ≤ 1 / 2 ^ 22 := by
    have := mul_le_mul_of_nonneg_left hX2 (show 0 ≤ tiny by unfold tiny; positivity)
    refine this.trans ?_
    unfold tiny
    norm_num
  have k3 : |f * X - 1| ≤ 374 / 2 ^ 17 := abs_le.2 ratio
  have k4 : (eps * f + tiny) * X = eps * (f * X) + tiny * X := by ring
  rw [k4] at k1
  unfold eps at *
  norm_num at *
  linarith

end Verif.Neon
