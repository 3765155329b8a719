import Mathlib.Tactic.Ring
import Mathlib.Tactic.FieldSimp
import Mathlib.Tactic.NormNum
import Mathlib.Tactic.Linarith
import Mathlib.Tactic.Positivity
import Mathlib.Tactic.GCongr
import Verif.Spec.FloatReal
import Verif.Lemmas.Binary32

/-!
# Rounding errors of floats
-/

namespace Verif.B32

open Verif Verif.Spec.F32

/-- Half a unit in the last place, relatively. -/
noncomputable def eps : ℝ := 1 / 2 ^ 24

/-- Half of the least positive float. -/
noncomputable def tiny : ℝ := 1 / 2 ^ 150

theorem real_neg (x : Flt) : real (neg x) = - real x := by
  unfold real; rw [val_neg]; push_cast; ring

theorem round_real (s : Bool) {num den : Nat} (hd : 0 < den) (hb : num ≤ 2 ^ 276 * den) :
    Finite (round s num den) ∧
      |real (round s num den) - (if s then -1 else 1) * ((num : ℝ) / den / 2 ^ 149)| ≤ eps * ((num : ℝ) / den / 2 ^ 149) + tiny := by
  obtain ⟨m, q, k, h1, h2, -, h4, h5, h6, -⟩ := round_spec s hd hb
  refine ⟨⟨s, m, q, h1, h2⟩, ?_⟩
  rw [h1]
  have hd' : (0 : ℝ) < den := by exact_mod_cast hd
  have g4 : 2 * (((m * 2 ^ q : Nat) : ℝ) * den) ≤ 2 * num + den * 2 ^ k := by exact_mod_cast h4
  have g5 : 2 * (num : ℝ) ≤ 2 * (((m * 2 ^ q : Nat) : ℝ) * den) + den * 2 ^ k := by exact_mod_cast h5
  have g6 : (den : ℝ) * 2 ^ k ≤ den + num / 2 ^ 23 := by
    rcases h6 with rfl | h6
    · have : (0 : ℝ) ≤ num / 2 ^ 23 := by positivity
      linarith
    · have : (2 : ℝ) ^ 23 * (den * 2 ^ k) ≤ num := by exact_mod_cast h6
      have : (den : ℝ) * 2 ^ k ≤ num / 2 ^ 23 := by rw [le_div_iff₀ (by positivity)]; linarith
      linarith
  have hr : (num : ℝ) = (num / den) * den := by field_simp
  have key : |((m * 2 ^ q : Nat) : ℝ) - num / den| ≤ 1 / 2 + num / den / 2 ^ 24 := by
    generalize ((m * 2 ^ q : Nat) : ℝ) = N at *
    generalize (num : ℝ) / den = r at *
    rw [hr] at g4 g5 g6
    rw [abs_le]
    constructor
    · have : (r - N - 1 / 2 - r / 2 ^ 24) * den ≤ 0 := by nlinarith
      have := nonpos_of_mul_nonpos_left this hd'
      linarith
    · have : (N - r - 1 / 2 - r / 2 ^ 24) * den ≤ 0 := by nlinarith
      have := nonpos_of_mul_nonpos_left this hd'
      linarith
  have hv : real (.fin s m q) = (if s then -1 else 1) * (((m * 2 ^ q : Nat) : ℝ) / 2 ^ 149) := by
    unfold real val
    cases s <;> simp
    ring
  have e : real (.fin s m q) - (if s then -1 else 1) * ((num : ℝ) / den / 2 ^ 149) =
      (if s then -1 else 1) * ((((m * 2 ^ q : Nat) : ℝ) - num / den) / 2 ^ 149) := by rw [hv]; ring
  rw [e, abs_mul, show |(if s then (-1 : ℝ) else 1)| = 1 by cases s <;> simp, one_mul, abs_div,
    abs_of_pos (show (0 : ℝ) < 2 ^ 149 by positivity), div_le_iff₀ (by positivity)]
  refine key.trans (le_of_eq ?_)
  unfold eps tiny
  ring

theorem rounded_real {n v : Int} (h : Rounded n v) : |(v : ℝ) / 2 ^ 149 - n / 2 ^ 149| ≤ eps * |(n : ℝ) / 2 ^ 149| := by
  obtain ⟨k, -, h2, h3, -⟩ := h
  have key : |(v : ℝ) - n| ≤ |(n : ℝ)| / 2 ^ 24 := by
    rcases h3 with rfl | h3
    · have : v = n := by omega
      rw [this, sub_self, abs_zero]; positivity
    · have g2 : 2 * |(v : ℝ) - n| ≤ 2 ^ k := by
        have : (2 * ((v - n).natAbs : Int) : Int) ≤ 2 ^ k := by exact_mod_cast h2
        rw [Int.natCast_natAbs] at this
        exact_mod_cast this
      have g3 : (2 : ℝ) ^ (k + 23) ≤ |(n : ℝ)| := by
        have : (2 ^ (k + 23) : Int) ≤ (n.natAbs : Int) := by exact_mod_cast h3
        rw [Int.natCast_natAbs] at this
        exact_mod_cast this
      rw [pow_add] at g3
      rw [le_div_iff₀ (by positivity)]
      nlinarith
  rw [← sub_div, abs_div, abs_div, abs_of_pos (show (0 : ℝ) < 2 ^ 149 by positivity), div_le_iff₀ (by positivity)]
  refine key.trans (le_of_eq ?_)
  unfold eps
  field_simp

theorem cast_unit : ((2 ^ 149 : Nat) : ℝ) = 2 ^ 149 := by rw [Nat.cast_pow, Nat.cast_ofNat]

theorem add_real {x y : Flt} (hx : Finite x) (hy : Finite y) (hb : |real x + real y| ≤ 2 ^ 127) :
    Finite (add x y) ∧ |real (add x y) - (real x + real y)| ≤ eps * |real x + real y| := by
  have hb' : (val x + val y).natAbs ≤ 2 ^ 276 := by
    have : |((val x + val y : Int) : ℝ)| ≤ 2 ^ 276 := by
      have e : ((val x + val y : Int) : ℝ) = (real x + real y) * 2 ^ 149 := by
        unfold real; push_cast; field_simp
      rw [e, abs_mul, abs_of_pos (show (0 : ℝ) < 2 ^ 149 by positivity)]
      calc _ ≤ (2 : ℝ) ^ 127 * 2 ^ 149 := by gcongr
        _ = _ := by rw [← pow_add]
    have h2 : ((val x + val y).natAbs : ℝ) ≤ 2 ^ 276 := by
      rw [Nat.cast_natAbs]; exact_mod_cast this
    exact_mod_cast h2
  obtain ⟨h1, h2⟩ := add_spec hx hy hb'
  have := rounded_real h2
  refine ⟨h1, ?_⟩
  have e : (((val x + val y : Int) : ℝ)) / 2 ^ 149 = real x + real y := by unfold real; push_cast; ring
  rw [e] at this
  exact this

theorem sub_real {x y : Flt} (hx : Finite x) (hy : Finite y) (hb : |real x - real y| ≤ 2 ^ 127) :
    Finite (sub x y) ∧ |real (sub x y) - (real x - real y)| ≤ eps * |real x - real y| := by
  have := add_real hx (finite_neg hy) (by rw [real_neg]; exact hb)
  rw [real_neg] at this
  exact this

theorem sign_mul (s s' : Bool) : (if s != s' then (-1 : ℝ) else 1) = (if s then -1 else 1) * (if s' then -1 else 1) := by
  cases s <;> cases s' <;> simp

theorem real_fin (s : Bool) (m q : Nat) : real (.fin s m q) = (if s then -1 else 1) * (((m * 2 ^ q : Nat) : ℝ) / 2 ^ 149) := by
  unfold real val
  cases s <;> simp
  ring

theorem abs_real_fin (s : Bool) (m q : Nat) : |real (.fin s m q)| = ((m * 2 ^ q : Nat) : ℝ) / 2 ^ 149 := by
  rw [real_fin, abs_mul, abs_of_nonneg (show (0 : ℝ) ≤ ((m * 2 ^ q : Nat) : ℝ) / 2 ^ 149 by positivity)]
  cases s <;> simp

theorem mul_real {x y : Flt} (hx : Finite x) (hy : Finite y) (hb : |real x * real y| ≤ 2 ^ 127) :
    Finite (mul x y) ∧ |real (mul x y) - real x * real y| ≤ eps * |real x * real y| + tiny := by
  obtain ⟨s, m, q, rfl, -⟩ := hx
  obtain ⟨s', m', q', rfl, -⟩ := hy
  rw [abs_mul, abs_real_fin, abs_real_fin] at *
  rw [mul]
  have e : ((m * 2 ^ q * (m' * 2 ^ q') : Nat) : ℝ) / (2 ^ 149 : Nat) / 2 ^ 149 =
      ((m * 2 ^ q : Nat) : ℝ) / 2 ^ 149 * (((m' * 2 ^ q' : Nat) : ℝ) / 2 ^ 149) := by
    rw [cast_unit, Nat.cast_mul]
    generalize ((m * 2 ^ q : Nat) : ℝ) = a
    generalize ((m' * 2 ^ q' : Nat) : ℝ) = b
    field_simp
  have := round_real (s != s') (num := m * 2 ^ q * (m' * 2 ^ q')) (den := 2 ^ 149) (by positivity) (by
    have h : ((m * 2 ^ q * (m' * 2 ^ q') : Nat) : ℝ) ≤ 2 ^ 276 * 2 ^ 149 := by
      rw [← e, div_le_iff₀ (by positivity), div_le_iff₀ (by positivity)] at hb
      refine hb.trans (le_of_eq ?_)
      rw [cast_unit, ← pow_add]
    exact_mod_cast h)
  rw [e, sign_mul] at this
  refine ⟨this.1, ?_⟩
  rw [real_fin, real_fin]
  refine le_trans (le_of_eq ?_) this.2
  congr 1
  ring

theorem div_real {x y : Flt} (hx : Finite x) (hy : Finite y) (h0 : real y ≠ 0) (hb : |real x / real y| ≤ 2 ^ 127) :
    Finite (div x y) ∧ |real (div x y) - real x / real y| ≤ eps * |real x / real y| + tiny := by
  obtain ⟨s, m, q, rfl, -⟩ := hx
  obtain ⟨s', m', q', rfl, -⟩ := hy
  have hm : m' ≠ 0 := by
    rintro rfl
    apply h0
    rw [real_fin]; simp
  have hp : 0 < m' * 2 ^ q' := by positivity
  have hp' : (0 : ℝ) < ((m' * 2 ^ q' : Nat) : ℝ) := by exact_mod_cast hp
  rw [abs_div, abs_real_fin, abs_real_fin] at *
  rw [div, if_neg hm]
  have e : ((m * 2 ^ q * 2 ^ 149 : Nat) : ℝ) / (m' * 2 ^ q' : Nat) / 2 ^ 149 =
      ((m * 2 ^ q : Nat) : ℝ) / 2 ^ 149 / (((m' * 2 ^ q' : Nat) : ℝ) / 2 ^ 149) := by
    rw [Nat.cast_mul (m * 2 ^ q) (2 ^ 149), cast_unit]
    generalize ((m * 2 ^ q : Nat) : ℝ) = a
    generalize ((m' * 2 ^ q' : Nat) : ℝ) = b at *
    field_simp
  have := round_real (s != s') (num := m * 2 ^ q * 2 ^ 149) (den := m' * 2 ^ q') hp (by
    have h : ((m * 2 ^ q * 2 ^ 149 : Nat) : ℝ) ≤ 2 ^ 276 * (m' * 2 ^ q' : Nat) := by
      rw [← e, div_le_iff₀ (by positivity), div_le_iff₀ (by positivity)] at hb
      refine hb.trans (le_of_eq ?_)
      rw [← pow_add]
    exact_mod_cast h)
  rw [e, sign_mul] at this
  refine ⟨this.1, ?_⟩
  rw [real_fin, real_fin]
  refine le_trans (le_of_eq ?_) this.2
  congr 1
  cases s <;> cases s' <;> simp <;> ring

/-! ## Enclosures -/

/-- `x` is finite and differs from `r` by at most `d`. -/
def Approx (x : Flt) (r d : ℝ) : Prop := Finite x ∧ |real x - r| ≤ d

theorem Approx.exact {x : Flt} (h : Finite x) : Approx x (real x) 0 := ⟨h, by simp⟩

theorem Approx.mono {x : Flt} {r d d' : ℝ} (h : Approx x r d) (hd : d ≤ d') : Approx x r d' := ⟨h.1, h.2.trans hd⟩

theorem Approx.abs_le {x : Flt} {r d A : ℝ} (h : Approx x r d) (hA : |r| ≤ A) : |real x| ≤ A + d := by
  have : |real x| ≤ |real x - r| + |r| := by
    calc _ = |(real x - r) + r| := by ring_nf
      _ ≤ _ := abs_add_le _ _
  linarith [h.2]

/-- Sum; `A` bounds the exact sum. -/
theorem Approx.add {x y : Flt} {a b d e : ℝ} (A f : ℝ) (hx : Approx x a d) (hy : Approx y b e) (hA : |a + b| ≤ A)
    (hb : A + (d + e) ≤ 2 ^ 127) (hf : d + e + eps * (A + (d + e)) ≤ f) : Approx (B32.add x y) (a + b) f := by
  have h1 : |(real x + real y) - (a + b)| ≤ d + e := by
    calc _ = |(real x - a) + (real y - b)| := by ring_nf
      _ ≤ |real x - a| + |real y - b| := abs_add_le _ _
      _ ≤ _ := add_le_add hx.2 hy.2
  have h2 : |real x + real y| ≤ A + (d + e) := by
    calc _ = |((real x + real y) - (a + b)) + (a + b)| := by ring_nf
      _ ≤ |(real x + real y) - (a + b)| + |a + b| := abs_add_le _ _
      _ ≤ _ := by linarith
  obtain ⟨h3, h4⟩ := add_real hx.1 hy.1 (h2.trans hb)
  refine ⟨h3, ?_⟩
  have he : 0 ≤ eps := by unfold eps; positivity
  calc _ = |(real (B32.add x y) - (real x + real y)) + ((real x + real y) - (a + b))| := by ring_nf
    _ ≤ |real (B32.add x y) - (real x + real y)| + |(real x + real y) - (a + b)| := abs_add_le _ _
    _ ≤ eps * |real x + real y| + (d + e) := add_le_add h4 h1
    _ ≤ eps * (A + (d + e)) + (d + e) := by gcongr
    _ ≤ f := by linarith

theorem Approx.neg {x : Flt} {a d : ℝ} (hx : Approx x a d) : Approx (B32.neg x) (-a) d := by
  refine ⟨finite_neg hx.1, ?_⟩
  rw [real_neg, ← abs_neg]
  calc _ = |real x - a| := by congr 1; ring
    _ ≤ d := hx.2

theorem Approx.sub {x y : Flt} {a b d e : ℝ} (A f : ℝ) (hx : Approx x a d) (hy : Approx y b e) (hA : |a - b| ≤ A)
    (hb : A + (d + e) ≤ 2 ^ 127) (hf : d + e + eps * (A + (d + e)) ≤ f) : Approx (B32.sub x y) (a - b) f := by
  have := Approx.add A f hx hy.neg (by rw [← sub_eq_add_neg]; exact hA) hb hf
  rwa [← sub_eq_add_neg] at this

/-- Product; `A` and `B` bound the exact factors. -/
theorem Approx.mul {x y : Flt} {a b d e : ℝ} (A B f : ℝ) (hx : Approx x a d) (hy : Approx y b e) (hA : |a| ≤ A) (hB : |b| ≤ B)
    (hb : (A + d) * (B + e) ≤ 2 ^ 127) (hf : A * e + B * d + d * e + eps * ((A + d) * (B + e)) + tiny ≤ f) :
    Approx (B32.mul x y) (a * b) f := by
  have hd0 : 0 ≤ d := (abs_nonneg _).trans hx.2
  have he0 : 0 ≤ e := (abs_nonneg _).trans hy.2
  have hA0 : 0 ≤ A := (abs_nonneg _).trans hA
  have hB0 : 0 ≤ B := (abs_nonneg _).trans hB
  have h1 : |real x * real y - a * b| ≤ A * e + B * d + d * e := by
    calc _ = |a * (real y - b) + b * (real x - a) + (real x - a) * (real y - b)| := by ring_nf
      _ ≤ |a * (real y - b)| + |b * (real x - a)| + |(real x - a) * (real y - b)| := abs_add_three _ _ _
      _ = |a| * |real y - b| + |b| * |real x - a| + |real x - a| * |real y - b| := by rw [abs_mul, abs_mul, abs_mul]
      _ ≤ A * e + B * d + d * e := by
        have := hx.2
        have := hy.2
        gcongr
  have h2 : |real x * real y| ≤ (A + d) * (B + e) := by
    rw [abs_mul]
    have := hx.abs_le hA
    have := hy.abs_le hB
    gcongr
  obtain ⟨h3, h4⟩ := mul_real hx.1 hy.1 (h2.trans hb)
  refine ⟨h3, ?_⟩
  have he : 0 ≤ eps := by unfold eps; positivity
  calc _ = |(real (B32.mul x y) - real x * real y) + (real x * real y - a * b)| := by ring_nf
    _ ≤ |real (B32.mul x y) - real x * real y| + |real x * real y - a * b| := abs_add_le _ _
    _ ≤ (eps * |real x * real y| + tiny) + (A * e + B * d + d * e) := add_le_add h4 h1
    _ ≤ (eps * ((A + d) * (B + e)) + tiny) + (A * e + B * d + d * e) := by gcongr
    _ ≤ f := by linarith

/-- Quotient; `A` bounds the quotient of the exact numbers, `B` the divisor from below. -/
theorem Approx.div {x y : Flt} {a b d e : ℝ} (A B f : ℝ) (hx : Approx x a d) (hy : Approx y b e) (hA : |a / b| ≤ A) (hB : B ≤ |b|)
    (hBe : e < B) (hb : A + (d + A * e) / (B - e) ≤ 2 ^ 127)
    (hf : (d + A * e) / (B - e) + eps * (A + (d + A * e) / (B - e)) + tiny ≤ f) :
    Approx (B32.div x y) (a / b) f := by
  have hd0 : 0 ≤ d := (abs_nonneg _).trans hx.2
  have he0 : 0 ≤ e := (abs_nonneg _).trans hy.2
  have hA0 : 0 ≤ A := (abs_nonneg _).trans hA
  have hb0 : b ≠ 0 := by
    rintro rfl
    simp at hB
    linarith
  have hy1 : B - e ≤ |real y| := by
    have : |b| ≤ |real y| + |real y - b| := by
      calc |b| = |real y - (real y - b)| := by ring_nf
        _ ≤ _ := abs_sub _ _
    linarith [hy.2]
  have hy0 : real y ≠ 0 := by
    intro h
    rw [h, abs_zero] at hy1
    linarith
  have h1 : |real x / real y - a / b| ≤ (d + A * e) / (B - e) := by
    have e1 : real x / real y - a / b = ((real x - a) - a / b * (real y - b)) / real y := by field_simp; ring
    rw [e1, abs_div]
    have n1 : |(real x - a) - a / b * (real y - b)| ≤ d + A * e := by
      calc _ ≤ |real x - a| + |a / b * (real y - b)| := abs_sub _ _
        _ = |real x - a| + |a / b| * |real y - b| := by rw [abs_mul]
        _ ≤ d + A * e := by
          have := hx.2
          have := hy.2
          gcongr
    have hp : 0 < B - e := by linarith
    gcongr
  have h2 : |real x / real y| ≤ A + (d + A * e) / (B - e) := by
    calc _ = |(real x / real y - a / b) + a / b| := by ring_nf
      _ ≤ |real x / real y - a / b| + |a / b| := abs_add_le _ _
      _ ≤ _ := by linarith
  obtain ⟨h3, h4⟩ := div_real hx.1 hy.1 hy0 (h2.trans hb)
  refine ⟨h3, ?_⟩
  have he : 0 ≤ eps := by unfold eps; positivity
  calc _ = |(real (B32.div x y) - real x / real y) + (real x / real y - a / b)| := by ring_nf
    _ ≤ |real (B32.div x y) - real x / real y| + |real x / real y - a / b| := abs_add_le _ _
    _ ≤ (eps * |real x / real y| + tiny) + (d + A * e) / (B - e) := add_le_add h4 h1
    _ ≤ (eps * (A + (d + A * e) / (B - e)) + tiny) + (d + A * e) / (B - e) := by gcongr
    _ ≤ f := by linarith

end Verif.B32
