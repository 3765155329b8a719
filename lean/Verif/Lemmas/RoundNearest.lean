import Verif.Lemmas.FloatReal

/-!
# Rounding gives a nearest float
-/

namespace Verif.B32

open Verif Verif.Spec.F32

/-- Of the multiples of a number, one within half of it is nearest. -/
theorem nearest_multiple {V Z : Int} {u : Nat} {t : ℝ} (hu : 0 < u) (hV : (u : Int) ∣ V) (hZ : (u : Int) ∣ Z) (h : |(V : ℝ) - t| ≤ u / 2) :
    |(V : ℝ) - t| ≤ |(Z : ℝ) - t| := by
  by_contra hc
  push Not at hc
  obtain ⟨a, rfl⟩ := hV
  obtain ⟨b, rfl⟩ := hZ
  have hu' : (0 : ℝ) < u := by exact_mod_cast hu
  have k : |((u * a : Int) : ℝ) - ((u * b : Int) : ℝ)| < u := by
    have := abs_sub_le ((u * a : Int) : ℝ) t ((u * b : Int) : ℝ)
    rw [abs_sub_comm t] at this
    linarith
  rw [Int.cast_mul, Int.cast_mul, ← mul_sub, abs_mul, Int.cast_natCast, abs_of_pos hu'] at k
  have k' : |(a : ℝ) - b| < 1 := by
    by_contra hh
    push Not at hh
    have := mul_le_mul_of_nonneg_left hh hu'.le
    linarith
  have : |a - b| < 1 := by
    have : ((|a - b| : Int) : ℝ) < 1 := by rw [Int.cast_abs, Int.cast_sub]; exact k'
    exact_mod_cast this
  have : a = b := by rw [abs_lt] at this; omega
  subst this
  exact lt_irrefl _ hc

/-- The result of `round` is as near to the quotient as any float. -/
theorem round_nearest (s : Bool) {num den : Nat} (hd : 0 < den) (hb : num ≤ 2 ^ 276 * den) :
    Spec.F32.Finite (round s num den) ∧ ∀ y, Spec.F32.Finite y →
      |real (round s num den) - (if s then -1 else 1) * ((num : ℝ) / den / 2 ^ 149)| ≤
        |real y - (if s then -1 else 1) * ((num : ℝ) / den / 2 ^ 149)| := by
  obtain ⟨m, q, k, h1, h2, h3, h4, h5, h6, h7⟩ := round_spec s hd hb
  rw [h1]
  refine ⟨⟨s, m, q, rfl, h2⟩, fun y hy => ?_⟩
  set σ : ℝ := if s then -1 else 1 with hσ
  have σ2 : σ = 1 ∨ σ = -1 := by cases s <;> simp [hσ]
  set x : ℝ := (num : ℝ) / den with hx
  have hd' : (0 : ℝ) < den := by exact_mod_cast hd
  have x0 : 0 ≤ x := by positivity
  have hx' : (num : ℝ) = x * den := by rw [hx]; field_simp
  have e : real (.fin s m q) = (val (.fin s m q) : ℝ) / 2 ^ 149 := rfl
  have ey : real y = (val y : ℝ) / 2 ^ 149 := rfl
  have ev : (val (.fin s m q) : ℝ) = σ * ((m * 2 ^ q : Nat) : ℝ) := by
    have := real_fin s m q
    rw [e, ← hσ] at this
    field_simp at this
    linarith
  have scale : ∀ z : ℝ, z / 2 ^ 149 - σ * (x / 2 ^ 149) = (z - σ * x) / 2 ^ 149 := fun z => by ring
  rw [e, ey, scale, scale, abs_div, abs_div]
  refine div_le_div_of_nonneg_right ?_ (abs_nonneg _)
  have near : |(val (.fin s m q) : ℝ) - σ * x| ≤ ((2 ^ k : Nat) : ℝ) / 2 := by
    have g4 : 2 * (((m * 2 ^ q : Nat) : ℝ) * den) ≤ 2 * (x * den) + den * ((2 ^ k : Nat) : ℝ) := by rw [← hx']; exact_mod_cast h4
    have g5 : 2 * (x * den) ≤ 2 * (((m * 2 ^ q : Nat) : ℝ) * den) + den * ((2 ^ k : Nat) : ℝ) := by rw [← hx']; exact_mod_cast h5
    have f4 : 2 * ((m * 2 ^ q : Nat) : ℝ) ≤ 2 * x + ((2 ^ k : Nat) : ℝ) := by
      by_contra hc
      push Not at hc
      have := mul_lt_mul_of_pos_right hc hd'
      nlinarith
    have f5 : 2 * x ≤ 2 * ((m * 2 ^ q : Nat) : ℝ) + ((2 ^ k : Nat) : ℝ) := by
      by_contra hc
      push Not at hc
      have := mul_lt_mul_of_pos_right hc hd'
      nlinarith
    rw [ev, ← mul_sub, abs_mul, show |σ| = 1 by rcases σ2 with h | h <;> rw [h] <;> norm_num, one_mul, abs_le]
    constructor <;> linarith
  have dv : ((2 ^ k : Nat) : Int) ∣ val (.fin s m q) := by rw [Int.ofNat_dvd_left, val_natAbs]; exact h3
  rcases h6 with rfl | h6
  · exact nearest_multiple (u := 2 ^ 0) (by decide) (by simp) (by simp) near
  · by_cases hy' : 2 ^ (23 + k) ≤ (val y).natAbs
    · exact nearest_multiple (Nat.two_pow_pos k) dv (large_dvd hy hy') near
    · have hP : ((2 ^ k : Nat) : Int) ∣ (if s then -1 else 1) * ((2 ^ (23 + k) : Nat) : Int) :=
        Dvd.dvd.mul_left (by exact_mod_cast Nat.pow_dvd_pow 2 (by omega)) _
      refine (nearest_multiple (Nat.two_pow_pos k) dv hP near).trans ?_
      have gx : ((2 ^ (23 + k) : Nat) : ℝ) ≤ x := by
        rw [hx, le_div_iff₀ hd']
        have : 2 ^ (23 + k) * den ≤ num := by rw [Nat.pow_add, Nat.mul_assoc, Nat.mul_comm (2 ^ k)]; exact h6
        exact_mod_cast this
      have gy : |(val y : ℝ)| ≤ ((2 ^ (23 + k) : Nat) : ℝ) := by
        rw [← Int.cast_abs, Int.abs_eq_natAbs, Int.cast_natCast]
        exact_mod_cast (by omega : (val y).natAbs ≤ 2 ^ (23 + k))
      have c : (((if s then -1 else 1) * ((2 ^ (23 + k) : Nat) : Int) : Int) : ℝ) = σ * ((2 ^ (23 + k) : Nat) : ℝ) := by
        rw [Int.cast_mul, Int.cast_natCast, hσ]
        cases s <;> simp
      rw [c, ← mul_sub, abs_mul, show |σ| = 1 by rcases σ2 with h | h <;> rw [h] <;> norm_num, one_mul, abs_of_nonpos (by linarith)]
      have : |σ * x| = x := by rw [abs_mul, show |σ| = 1 by rcases σ2 with h | h <;> rw [h] <;> norm_num, one_mul, abs_of_nonneg x0]
      have t := abs_sub_abs_le_abs_sub (σ * x) (val y : ℝ)
      rw [abs_sub_comm] at t
      linarith

/-- `x` is a finite float, and no finite float is nearer to `r`. -/
def Closest (x : Flt) (r : ℝ) : Prop := Spec.F32.Finite x ∧ ∀ y, Spec.F32.Finite y → |real x - r| ≤ |real y - r|

theorem round_closest (s : Bool) {num den : Nat} {r : ℝ} (hd : 0 < den) (hr : (if s then -1 else 1) * ((num : ℝ) / den / 2 ^ 149) = r)
    (hb : |r| ≤ 2 ^ 127) : Closest (round s num den) r := by
  have hd' : (0 : ℝ) < den := by exact_mod_cast hd
  have hn : num ≤ 2 ^ 276 * den := by
    have : |r| = (num : ℝ) / den / 2 ^ 149 := by
      rw [← hr, abs_mul, abs_of_nonneg (show 0 ≤ (num : ℝ) / den / 2 ^ 149 by positivity)]
      cases s <;> simp
    rw [this, div_div, div_le_iff₀ (by positivity)] at hb
    have e : (2 : ℝ) ^ 127 * (den * 2 ^ 149) = 2 ^ 276 * den := by
      rw [mul_comm (den : ℝ), ← mul_assoc, ← pow_add]
    rw [e] at hb
    exact_mod_cast hb
  have := round_nearest s hd hn
  rw [hr] at this
  exact this

theorem closest_zero : Closest (.fin false 0 0) 0 := by
  refine ⟨⟨_, _, _, rfl, by decide, by decide, .inl rfl⟩, fun y _ => ?_⟩
  rw [real_fin]
  simp

theorem add_closest {x y : Flt} (hx : Spec.F32.Finite x) (hy : Spec.F32.Finite y) (h : |real x + real y| ≤ 2 ^ 127) :
    Closest (add x y) (real x + real y) := by
  obtain ⟨s, m, q, rfl, -⟩ := hx
  obtain ⟨s', m', q', rfl, -⟩ := hy
  unfold add
  dsimp only
  rw [real_fin, real_fin] at *
  generalize m * 2 ^ q = a at *
  generalize m' * 2 ^ q' = b at *
  by_cases h1 : s = s'
  · rw [if_pos h1]
    subst h1
    exact round_closest s Nat.one_pos (by push_cast; ring) h
  rw [if_neg h1]
  have e : (if s' then (-1 : ℝ) else 1) = -(if s then -1 else 1) := by cases s <;> cases s' <;> simp at h1 ⊢
  by_cases h2 : a = b
  · rw [if_pos h2]
    subst h2
    rw [e]
    have : (if s then (-1 : ℝ) else 1) * ((a : ℝ) / 2 ^ 149) + -(if s then -1 else 1) * ((a : ℝ) / 2 ^ 149) = 0 := by ring
    rw [this]
    exact closest_zero
  rw [if_neg h2]
  by_cases h3 : b < a
  · rw [if_pos h3]
    exact round_closest s Nat.one_pos (by rw [e, Nat.cast_sub h3.le]; push_cast; ring) h
  · rw [if_neg h3]
    exact round_closest s' Nat.one_pos (by rw [e, Nat.cast_sub (by omega)]; push_cast; ring) h

theorem sub_closest {x y : Flt} (hx : Spec.F32.Finite x) (hy : Spec.F32.Finite y) (h : |real x - real y| ≤ 2 ^ 127) :
    Closest (sub x y) (real x - real y) := by
  have := add_closest hx (finite_neg hy) (by rw [real_neg, ← sub_eq_add_neg]; exact h)
  rwa [real_neg, ← sub_eq_add_neg] at this

theorem mul_closest {x y : Flt} (hx : Spec.F32.Finite x) (hy : Spec.F32.Finite y) (h : |real x * real y| ≤ 2 ^ 127) :
    Closest (mul x y) (real x * real y) := by
  obtain ⟨s, m, q, rfl, -⟩ := hx
  obtain ⟨s', m', q', rfl, -⟩ := hy
  unfold mul
  dsimp only
  rw [real_fin, real_fin] at *
  generalize m * 2 ^ q = a at *
  generalize m' * 2 ^ q' = b at *
  refine round_closest _ (Nat.two_pow_pos _) ?_ h
  rw [sign_mul]
  push_cast
  ring

theorem div_closest {x y : Flt} (hx : Spec.F32.Finite x) (hy : Spec.F32.Finite y) (h0 : real y ≠ 0) (h : |real x / real y| ≤ 2 ^ 127) :
    Closest (div x y) (real x / real y) := by
  obtain ⟨s, m, q, rfl, -⟩ := hx
  obtain ⟨s', m', q', rfl, -⟩ := hy
  have hm : m' ≠ 0 := by
    rintro rfl
    apply h0
    rw [real_fin]
    simp
  unfold div
  dsimp only
  rw [if_neg hm]
  have hp : 0 < m' * 2 ^ q' := Nat.mul_pos (Nat.pos_of_ne_zero hm) (Nat.two_pow_pos _)
  rw [real_fin, real_fin] at *
  generalize m * 2 ^ q = a at *
  generalize m' * 2 ^ q' = b at *
  refine round_closest _ hp ?_ h
  rw [sign_mul]
  have hb : (b : ℝ) ≠ 0 := by exact_mod_cast hp.ne'
  have e : ((a * 2 ^ 149 : Nat) : ℝ) / b / 2 ^ 149 = (a : ℝ) / b := by push_cast; field_simp; norm_num
  rw [e]
  cases s' <;> cases s <;> simp <;> field_simp

theorem ofInt_closest {n : Int} (h : n.natAbs ≤ 2 ^ 127) : Closest (ofInt n) n := by
  unfold ofInt
  refine round_closest _ Nat.one_pos ?_ ?_
  · rcases lt_or_ge n 0 with hn | hn
    · rw [decide_eq_true hn]
      have : ((n.natAbs : Nat) : ℝ) = -(n : ℝ) := by
        rw [← Int.cast_natCast, Int.ofNat_natAbs_of_nonpos hn.le, Int.cast_neg]
      push_cast at this ⊢
      rw [this]
      norm_num
      ring
    · rw [decide_eq_false (by omega)]
      have : ((n.natAbs : Nat) : ℝ) = (n : ℝ) := by
        rw [← Int.cast_natCast, Int.natAbs_of_nonneg hn]
      push_cast at this ⊢
      rw [this]
      norm_num
  · rw [← Int.cast_abs, Int.abs_eq_natAbs, Int.cast_natCast]
    exact_mod_cast h

end Verif.B32
