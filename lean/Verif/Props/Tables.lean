import Mathlib.Analysis.Complex.ExponentialBounds
import Verif.Lemmas.ExpReal
import Verif.Lemmas.TrigTable
import Verif.Props.MathConst

/-!
# Properties of the tables (C141 and C142)
-/

namespace Verif.Props

open Verif Verif.B32 Verif.Spec.F32 Verif.MathFns Verif.Trig
open Real (pi)

/-! ## Nearest floats -/

theorem apart_signed {s : Bool} {m q : Nat} (hm : 2 ^ 23 < m) {y : Flt} (hy : Spec.F32.Finite y) (h : val y ≠ val (.fin s m q)) :
    (2 : ℝ) ^ q ≤ |(val y : ℝ) - (val (.fin s m q) : ℝ)| := by
  have key : ∀ {z : Flt}, Spec.F32.Finite z → val z ≠ ((m * 2 ^ q : Nat) : Int) → (2 : ℝ) ^ q ≤ |(val z : ℝ) - ((m * 2 ^ q : Nat) : ℝ)| := by
    intro z hz hne
    have a := apart hm hz hne
    have : ((2 ^ q : Nat) : Int) ≤ |val z - ((m * 2 ^ q : Nat) : Int)| := by rw [Int.abs_eq_natAbs]; exact_mod_cast a
    exact_mod_cast this
  cases s with
  | false => exact key hy h
  | true =>
    have e : val (.fin true m q) = -((m * 2 ^ q : Nat) : Int) := by simp [val]
    rw [e] at h ⊢
    have := key (finite_neg hy) (by rw [val_neg]; omega)
    rw [val_neg] at this
    rw [← abs_neg]
    push_cast at this ⊢
    refine this.trans (le_of_eq ?_)
    congr 1
    ring

/-- Half a unit in the last place is near enough. -/
theorem nearest_val {s : Bool} {m q : Nat} {r : ℝ} (hx : Spec.F32.Finite (.fin s m q)) (hm : 2 ^ 23 < m)
    (hd : 2 * |(val (.fin s m q) : ℝ) - r * 2 ^ 149| ≤ 2 ^ q) : NearestReal (.fin s m q) r := by
  refine ⟨hx, fun y hy => ?_⟩
  by_cases hv : val y = val (.fin s m q)
  · unfold real; rw [hv]
  · have a := apart_signed hm hy hv
    have tri := abs_sub_le (val y : ℝ) (r * 2 ^ 149) (val (.fin s m q) : ℝ)
    rw [abs_sub_comm (r * 2 ^ 149)] at tri
    have h : |(val (.fin s m q) : ℝ) - r * 2 ^ 149| ≤ |(val y : ℝ) - r * 2 ^ 149| := by linarith
    have e : ∀ v : ℝ, |v / 2 ^ 149 - r| = |v - r * 2 ^ 149| / 2 ^ 149 := by
      intro v
      rw [← abs_of_pos (show (0 : ℝ) < 2 ^ 149 by positivity), ← abs_div, abs_of_pos (show (0 : ℝ) < 2 ^ 149 by positivity)]
      congr 1
      field_simp
    unfold real
    rw [e, e]
    exact div_le_div_of_nonneg_right h (by positivity)

theorem nearest_exact {x : Flt} (h : Spec.F32.Finite x) : NearestReal x (real x) := ⟨h, fun y _ => by simp⟩

theorem nearest_neg {x : Flt} {r : ℝ} (h : NearestReal x r) : NearestReal (neg x) (-r) := by
  refine ⟨finite_neg h.1, fun y hy => ?_⟩
  have := h.2 (neg y) (finite_neg hy)
  rw [real_neg] at this ⊢
  rw [← abs_neg, ← abs_neg (real y - -r)]
  calc |-(-real x - -r)| = |real x - r| := by congr 1; ring
    _ ≤ |-real y - r| := this
    _ = |-(real y - -r)| := by congr 1; ring

/-! ## The exponential function -/

theorem e_bounds : (271828182845904523534 : ℝ) / 10 ^ 20 ≤ Real.exp 1 ∧ Real.exp 1 ≤ 271828182845904523537 / 10 ^ 20 := by
  have h := abs_le.1 Real.exp_one_near_20
  norm_num at h ⊢
  constructor <;> linarith

/-- Exponent and mantissa of an entry. -/
def parts : Flt → Nat × Nat
  | .fin false m q => (m, q)
  | _ => (0, 0)

/-- The float is positive, not a power of two, and within half a unit in the last place of everything between `lo / D` and `hi / D`. -/
def nearB (x : Flt) (lo hi D : Nat) : Bool :=
  match x with
  | .fin false m q => isFinite x && decide (2 ^ 23 < m) && decide ((2 * (m * 2 ^ q) - 2 ^ q) * D ≤ 2 * lo * 2 ^ 149) &&
      decide (2 * hi * 2 ^ 149 ≤ (2 * (m * 2 ^ q) + 2 ^ q) * D)
  | _ => false

theorem nearB_spec {x : Flt} {lo hi D : Nat} {r : ℝ} (h : nearB x lo hi D = true) (hD : 0 < D) (hl : (lo : ℝ) ≤ r * D) (hh : r * D ≤ hi) :
    NearestReal x r := by
  unfold nearB at h
  split at h
  · rename_i m q
    simp only [Bool.and_eq_true, decide_eq_true_eq] at h
    obtain ⟨⟨⟨h1, h2⟩, h3⟩, h4⟩ := h
    refine nearest_val (finite_of h1) h2 ?_
    have e : (val (.fin false m q) : ℝ) = ((m * 2 ^ q : Nat) : ℝ) := by simp [val]
    rw [e]
    have hle : 2 ^ q ≤ 2 * (m * 2 ^ q) := by
      have : 1 * 2 ^ q ≤ m * 2 ^ q := Nat.mul_le_mul_right _ (by omega)
      omega
    have h3' : ((2 * (m * 2 ^ q : Nat) : ℝ) - 2 ^ q) * D ≤ 2 * lo * 2 ^ 149 := by
      have : (((2 * (m * 2 ^ q) - 2 ^ q : Nat)) : ℝ) * D ≤ 2 * lo * 2 ^ 149 := by exact_mod_cast h3
      rw [Nat.cast_sub hle] at this
      exact_mod_cast this
    have h4' : (2 * hi * 2 ^ 149 : ℝ) ≤ (2 * (m * 2 ^ q : Nat) + 2 ^ q) * D := by exact_mod_cast h4
    have D0 : (0 : ℝ) < D := by exact_mod_cast hD
    generalize ((m * 2 ^ q : Nat) : ℝ) = v at *
    have a : (2 * v - 2 ^ q) * D ≤ (2 * r * 2 ^ 149) * D := by
      refine h3'.trans ?_
      have := mul_le_mul_of_nonneg_right hl (show (0 : ℝ) ≤ 2 * 2 ^ 149 by positivity)
      calc (2 * lo * 2 ^ 149 : ℝ) = (lo : ℝ) * (2 * 2 ^ 149) := by ring
        _ ≤ r * D * (2 * 2 ^ 149) := this
        _ = _ := by ring
    have b : (2 * r * 2 ^ 149) * D ≤ (2 * v + 2 ^ q) * D := by
      refine le_trans ?_ h4'
      have := mul_le_mul_of_nonneg_right hh (show (0 : ℝ) ≤ 2 * 2 ^ 149 by positivity)
      calc (2 * r * 2 ^ 149) * (D : ℝ) = r * D * (2 * 2 ^ 149) := by ring
        _ ≤ (hi : ℝ) * (2 * 2 ^ 149) := this
        _ = _ := by ring
    have a := le_of_mul_le_mul_right a D0
    have b := le_of_mul_le_mul_right b D0
    have : |v - r * 2 ^ 149| ≤ 2 ^ q / 2 := by rw [abs_le]; constructor <;> linarith
    calc 2 * |v - r * 2 ^ 149| ≤ 2 * (2 ^ q / 2) := by gcongr
      _ = 2 ^ q := by ring
  · cases h

theorem exp_up : ∀ n < 88, nearB (expEntry (n + 89)) (271828182845904523534 ^ (n + 1)) (271828182845904523537 ^ (n + 1)) ((10 ^ 20) ^ (n + 1)) = true := by
  decide +kernel

theorem exp_down : ∀ n < 87, nearB (expEntry (87 - n)) ((10 ^ 20) ^ (n + 1) * 271828182845904523534 ^ (n + 1)) ((10 ^ 20) ^ (n + 1) * 271828182845904523537 ^ (n + 1))
    (271828182845904523537 ^ (n + 1) * 271828182845904523534 ^ (n + 1)) = true := by
  decide +kernel

theorem exp_up_near {n : Nat} (h : n < 88) : NearestReal (expEntry (n + 89)) (Real.exp ((n + 1 : Nat) : ℝ)) := by
  obtain ⟨l, u⟩ := e_bounds
  have e : Real.exp ((n + 1 : Nat) : ℝ) = Real.exp 1 ^ (n + 1) := by rw [← Real.exp_nat_mul, mul_one]
  have e2 : Real.exp ((n + 1 : Nat) : ℝ) * (((10 ^ 20) ^ (n + 1) : Nat) : ℝ) = (Real.exp 1 * 10 ^ 20) ^ (n + 1) := by
    rw [e, mul_pow]; push_cast; ring
  refine nearB_spec (exp_up n h) (by positivity) ?_ ?_
  · rw [e2]; push_cast
    refine pow_le_pow_left₀ (by norm_num) ?_ _
    rw [div_le_iff₀ (by positivity)] at l; exact l
  · rw [e2]; push_cast
    refine pow_le_pow_left₀ (by positivity) ?_ _
    rw [le_div_iff₀ (by positivity)] at u; exact u

theorem exp_down_near {n : Nat} (h : n < 87) : NearestReal (expEntry (87 - n)) (Real.exp (-((n + 1 : Nat) : ℝ))) := by
  obtain ⟨l, u⟩ := e_bounds
  rw [div_le_iff₀ (by positivity)] at l
  rw [le_div_iff₀ (by positivity)] at u
  have e : Real.exp (-((n + 1 : Nat) : ℝ)) * Real.exp 1 ^ (n + 1) = 1 := by
    rw [← Real.exp_nat_mul, mul_one, ← Real.exp_add]; simp
  have p : 0 < Real.exp (-((n + 1 : Nat) : ℝ)) := Real.exp_pos _
  have e2 : Real.exp (-((n + 1 : Nat) : ℝ)) * (Real.exp 1 * 10 ^ 20) ^ (n + 1) = (10 ^ 20) ^ (n + 1) := by
    rw [mul_pow, ← mul_assoc, e, one_mul]
  have a : (271828182845904523534 : ℝ) ^ (n + 1) ≤ (Real.exp 1 * 10 ^ 20) ^ (n + 1) := pow_le_pow_left₀ (by norm_num) l _
  have b : (Real.exp 1 * 10 ^ 20) ^ (n + 1) ≤ (271828182845904523537 : ℝ) ^ (n + 1) := pow_le_pow_left₀ (by positivity) u _
  refine nearB_spec (exp_down n h) (by positivity) ?_ ?_
  · push_cast
    rw [← mul_assoc]
    refine mul_le_mul_of_nonneg_right ?_ (by positivity)
    have := mul_le_mul_of_nonneg_left b p.le
    rw [e2] at this
    exact_mod_cast this
  · push_cast
    rw [mul_comm ((271828182845904523537 : ℝ) ^ (n + 1)), ← mul_assoc]
    refine mul_le_mul_of_nonneg_right ?_ (by positivity)
    have := mul_le_mul_of_nonneg_left a p.le
    rw [e2] at this
    exact_mod_cast this

theorem exp_int_up : ∀ n < 89, MathFns.exp (ofInt (n : Nat)) = .ok (expEntry (n + 88)) := by decide +kernel

theorem exp_int_down : ∀ n < 88, MathFns.exp (ofInt (-(n : Nat))) = .ok (expEntry (88 - n)) := by decide +kernel

theorem exp_zero_near : NearestReal (expEntry 88) (Real.exp 0) := by
  have e : expEntry 88 = one := by decide +kernel
  rw [e, Real.exp_zero, ← real_one]
  exact nearest_exact finite_one

/-- **C141 for `Exp`.** `Exp` of an integer is a float nearest to the power of e, for all integers for which this is a normal float. -/
theorem C141_exp (n : Int) (h1 : -87 ≤ n) (h2 : n ≤ 88) : ∃ r, MathFns.exp (ofInt n) = .ok r ∧ NearestReal r (Real.exp n) := by
  rcases Int.le_total 0 n with h | h
  · obtain ⟨k, rfl⟩ := Int.eq_ofNat_of_zero_le h
    refine ⟨_, exp_int_up k (by omega), ?_⟩
    cases k with
    | zero => simpa using exp_zero_near
    | succ k =>
      have := exp_up_near (n := k) (by omega)
      rw [show k + 1 + 88 = k + 89 by omega]
      exact_mod_cast this
  · obtain ⟨k, hk⟩ := Int.eq_ofNat_of_zero_le (Int.neg_nonneg_of_nonpos h)
    obtain rfl : n = -(k : Int) := by omega
    refine ⟨_, exp_int_down k (by omega), ?_⟩
    cases k with
    | zero => simpa using exp_zero_near
    | succ k =>
      have := exp_down_near (n := k) (by omega)
      rw [show 88 - (k + 1) = 87 - k by omega]
      push_cast at this ⊢
      exact this

/-- `Exp(1)` is 2.7182817. -/
example : MathFns.exp one = .ok (ofBits 0x402DF854) := by decide +kernel

/-! ## The arctangent -/

theorem atan_low7 {x : ℝ} (h : 0 ≤ x) : x - x ^ 3 / 3 + x ^ 5 / 5 - x ^ 7 / 7 ≤ Real.arctan x := by
  have hd : ∀ y : ℝ, HasDerivAt (fun y => Real.arctan y - (y - y ^ 3 / 3 + y ^ 5 / 5 - y ^ 7 / 7)) (1 / (1 + y ^ 2) - (1 - y ^ 2 + y ^ 4 - y ^ 6)) y := by
    intro y
    have := (Real.hasDerivAt_arctan y).sub ((((hasDerivAt_id y).sub ((hasDerivAt_pow 3 y).div_const 3)).add ((hasDerivAt_pow 5 y).div_const 5)).sub
      ((hasDerivAt_pow 7 y).div_const 7))
    refine HasDerivAt.congr_deriv this ?_
    push_cast
    ring
  have m : MonotoneOn (fun y => Real.arctan y - (y - y ^ 3 / 3 + y ^ 5 / 5 - y ^ 7 / 7)) (Set.Ici 0) := by
    refine monotoneOn_of_deriv_nonneg (convex_Ici 0) (fun y _ => (hd y).continuousAt.continuousWithinAt)
      (fun y _ => (hd y).differentiableAt.differentiableWithinAt) (fun y _ => ?_)
    rw [(hd y).deriv]
    have : 0 < 1 + y ^ 2 := by positivity
    rw [sub_nonneg, le_div_iff₀ this]
    nlinarith [sq_nonneg (y ^ 4)]
  have := m (Set.mem_Ici.2 le_rfl) (Set.mem_Ici.2 h) h
  norm_num at this
  linarith

theorem atan_high9 {x : ℝ} (h : 0 ≤ x) : Real.arctan x ≤ x - x ^ 3 / 3 + x ^ 5 / 5 - x ^ 7 / 7 + x ^ 9 / 9 := by
  have hd : ∀ y : ℝ, HasDerivAt (fun y => y - y ^ 3 / 3 + y ^ 5 / 5 - y ^ 7 / 7 + y ^ 9 / 9 - Real.arctan y)
      (1 - y ^ 2 + y ^ 4 - y ^ 6 + y ^ 8 - 1 / (1 + y ^ 2)) y := by
    intro y
    have := (((((hasDerivAt_id y).sub ((hasDerivAt_pow 3 y).div_const 3)).add ((hasDerivAt_pow 5 y).div_const 5)).sub
      ((hasDerivAt_pow 7 y).div_const 7)).add ((hasDerivAt_pow 9 y).div_const 9)).sub (Real.hasDerivAt_arctan y)
    refine HasDerivAt.congr_deriv this ?_
    push_cast
    ring
  have m : MonotoneOn (fun y => y - y ^ 3 / 3 + y ^ 5 / 5 - y ^ 7 / 7 + y ^ 9 / 9 - Real.arctan y) (Set.Ici 0) := by
    refine monotoneOn_of_deriv_nonneg (convex_Ici 0) (fun y _ => (hd y).continuousAt.continuousWithinAt)
      (fun y _ => (hd y).differentiableAt.differentiableWithinAt) (fun y _ => ?_)
    rw [(hd y).deriv]
    have : 0 < 1 + y ^ 2 := by positivity
    rw [sub_nonneg, div_le_iff₀ this]
    nlinarith [sq_nonneg (y ^ 5)]
  have := m (Set.mem_Ici.2 le_rfl) (Set.mem_Ici.2 h) h
  norm_num at this
  linarith

/-- Bounds of `arctan(n / 64)` in units of `2^(-64)`. -/
def atanDown : Nat → Int
  | 0 => 0
  | n + 1 => let d : Int := 4096 + n * (n + 1)
      atanDown n + 2 ^ 64 * (105 * 64 * d ^ 6 - 35 * 64 ^ 3 * d ^ 4 + 21 * 64 ^ 5 * d ^ 2 - 15 * 64 ^ 7) / (105 * d ^ 7)
@[inherit_doc atanDown]
def atanUp : Nat → Int
  | 0 => 0
  | n + 1 => let d : Int := 4096 + n * (n + 1)
      atanUp n + 2 ^ 64 * (315 * 64 * d ^ 8 - 105 * 64 ^ 3 * d ^ 6 + 63 * 64 ^ 5 * d ^ 4 - 45 * 64 ^ 7 * d ^ 2 + 35 * 64 ^ 9) / (315 * d ^ 9) + 1

theorem int_div_bounds (a : Int) {b : Int} (hb : 0 < b) : ((a / b : Int) : ℝ) ≤ (a : ℝ) / b ∧ (a : ℝ) / b ≤ ((a / b : Int) : ℝ) + 1 := by
  have hb' : (0 : ℝ) < b := by exact_mod_cast hb
  have h1 := Int.emod_add_mul_ediv a b
  have h2 := Int.emod_nonneg a hb.ne'
  have h3 := Int.emod_lt_of_pos a hb
  rw [le_div_iff₀ hb', div_le_iff₀ hb']
  constructor
  · have : a / b * b ≤ a := by nlinarith
    exact_mod_cast this
  · have : a ≤ (a / b + 1) * b := by nlinarith
    exact_mod_cast this

theorem atan_between (n : Nat) : (atanDown n : ℝ) ≤ 2 ^ 64 * Real.arctan (n / 64) ∧ 2 ^ 64 * Real.arctan (n / 64) ≤ atanUp n := by
  induction n with
  | zero => simp [atanDown, atanUp]
  | succ n ih =>
    rw [atan_step]
    have hn : (0 : ℝ) ≤ n := Nat.cast_nonneg n
    have hx : (0 : ℝ) ≤ 64 / (4096 + n * (n + 1)) := by positivity
    have l := atan_low7 hx
    have u := atan_high9 hx
    have hD : (0 : Int) < 4096 + n * (n + 1) := by positivity
    have cD : ((4096 + n * (n + 1) : Int) : ℝ) = 4096 + n * (n + 1) := by push_cast; ring
    unfold atanDown atanUp
    dsimp only
    generalize (4096 + n * (n + 1) : Int) = D at *
    rw [← cD] at hx l u ⊢
    have D0 : (0 : ℝ) < D := by exact_mod_cast hD
    constructor
    · have a := (int_div_bounds (2 ^ 64 * (105 * 64 * D ^ 6 - 35 * 64 ^ 3 * D ^ 4 + 21 * 64 ^ 5 * D ^ 2 - 15 * 64 ^ 7)) (b := 105 * D ^ 7) (by positivity)).1
      have e : ((2 ^ 64 * (105 * 64 * D ^ 6 - 35 * 64 ^ 3 * D ^ 4 + 21 * 64 ^ 5 * D ^ 2 - 15 * 64 ^ 7) : Int) : ℝ) / ((105 * D ^ 7 : Int) : ℝ) =
          2 ^ 64 * (64 / D - (64 / D) ^ 3 / 3 + (64 / D) ^ 5 / 5 - (64 / D) ^ 7 / 7) := by
        push_cast
        field_simp
        ring
      rw [e] at a
      rw [Int.cast_add]
      have := mul_le_mul_of_nonneg_left l (show (0 : ℝ) ≤ 2 ^ 64 by positivity)
      linarith [ih.1]
    · have a := (int_div_bounds (2 ^ 64 * (315 * 64 * D ^ 8 - 105 * 64 ^ 3 * D ^ 6 + 63 * 64 ^ 5 * D ^ 4 - 45 * 64 ^ 7 * D ^ 2 + 35 * 64 ^ 9))
        (b := 315 * D ^ 9) (by positivity)).2
      have e : ((2 ^ 64 * (315 * 64 * D ^ 8 - 105 * 64 ^ 3 * D ^ 6 + 63 * 64 ^ 5 * D ^ 4 - 45 * 64 ^ 7 * D ^ 2 + 35 * 64 ^ 9) : Int) : ℝ) / ((315 * D ^ 9 : Int) : ℝ) =
          2 ^ 64 * (64 / D - (64 / D) ^ 3 / 3 + (64 / D) ^ 5 / 5 - (64 / D) ^ 7 / 7 + (64 / D) ^ 9 / 9) := by
        push_cast
        field_simp
        ring
      rw [e] at a
      rw [Int.cast_add, Int.cast_add, Int.cast_one]
      have := mul_le_mul_of_nonneg_left u (show (0 : ℝ) ≤ 2 ^ 64 by positivity)
      linarith [ih.2]

theorem atan_near_check : ∀ n < 64, (decide (0 ≤ atanDown (n + 1)) && decide (0 ≤ atanUp (n + 1)) &&
    nearB (atanAt (n + 1)) (atanDown (n + 1)).toNat (atanUp (n + 1)).toNat (2 ^ 64)) = true := by decide +kernel

theorem atan_near {n : Nat} (h : n < 65) : NearestReal (atanAt n) (Real.arctan (n / 64)) := by
  cases n with
  | zero =>
    have e : atanAt 0 = zero := by decide +kernel
    have : NearestReal zero (real zero) := nearest_exact finite_zero
    rw [real_zero] at this
    simpa [e] using this
  | succ n =>
    have t := atan_near_check n (by omega)
    simp only [Bool.and_eq_true, decide_eq_true_eq] at t
    obtain ⟨⟨t1, t2⟩, t3⟩ := t
    obtain ⟨b1, b2⟩ := atan_between (n + 1)
    have cast : ∀ {z : Int}, 0 ≤ z → ((z.toNat : Nat) : ℝ) = z := fun {z} h => by
      have := Int.toNat_of_nonneg h
      exact_mod_cast congrArg (Int.cast (R := ℝ)) this
    refine nearB_spec t3 (by positivity) ?_ ?_
    · rw [cast t1]; push_cast at b1 ⊢; linarith
    · rw [cast t2]; push_cast at b2 ⊢; linarith

theorem atan_int_up : ∀ n < 65, arctan (mul (ofInt (n : Nat)) (const 0x3C800000)) = .ok (atanAt n) := by decide +kernel

theorem atan_int_down : ∀ n < 64, arctan (mul (ofInt (-((n + 1 : Nat) : Int))) (const 0x3C800000)) = .ok (neg (atanAt (n + 1))) := by decide +kernel

/-- **C141 for `Arctan`.** `Arctan(n / 64.0F)` is a float nearest to the arctangent, for `n` from -64 to 64. -/
theorem C141_arctan (n : Int) (h1 : -64 ≤ n) (h2 : n ≤ 64) :
    real (mul (ofInt n) (const 0x3C800000)) = n / 64 ∧
    ∃ r, arctan (mul (ofInt n) (const 0x3C800000)) = .ok r ∧ NearestReal r (Real.arctan (n / 64)) := by
  constructor
  · have : ∀ k < 129, val (mul (ofInt ((k : Nat) - 64 : Int)) (const 0x3C800000)) = ((k : Nat) - 64 : Int) * 2 ^ 143 := by decide +kernel
    obtain ⟨k, hk⟩ := Int.eq_ofNat_of_zero_le (show 0 ≤ n + 64 by omega)
    obtain rfl : n = (k : Int) - 64 := by omega
    have := this k (by omega)
    unfold real
    rw [this]
    push_cast
    norm_num
    ring
  · rcases Int.le_total 0 n with h | h
    · obtain ⟨k, rfl⟩ := Int.eq_ofNat_of_zero_le h
      exact ⟨_, atan_int_up k (by omega), by rw [Int.cast_natCast]; exact atan_near (n := k) (by omega)⟩
    · obtain ⟨k, hk⟩ := Int.eq_ofNat_of_zero_le (Int.neg_nonneg_of_nonpos h)
      obtain rfl : n = -(k : Int) := by omega
      cases k with
      | zero => exact ⟨_, atan_int_up 0 (by omega), by simpa using atan_near (n := 0) (by omega)⟩
      | succ k =>
        refine ⟨_, atan_int_down k (by omega), ?_⟩
        have := nearest_neg (atan_near (n := k + 1) (by omega))
        rw [← Real.arctan_neg, ← neg_div] at this
        push_cast at this ⊢
        exact this

/-- `Arctan(1)` is 0.78539819. -/
example : arctan one = .ok (ofBits 0x3F490FDB) := by decide +kernel

/-! ## Sines and cosines -/

/-- **C142.** The entries of the table of cosines and sines are nearest floats. -/
def C142_statement : Prop :=
  ∀ n < 256, NearestReal (cosAlpha n) (Real.cos (n * (pi / 128))) ∧ NearestReal (sinAlpha n) (Real.sin (n * (pi / 128)))

/-- Whether an entry is a nearest float, according to an approximation. -/
def entryNear (x : Flt) (s : Int) : Bool :=
  match x with
  | .fin b m q => isFinite x && decide (2 ^ 23 < m) &&
      decide (2 * (val (.fin b m q) * 10 ^ 25 - s * unit).natAbs + 8000000 * unit ≤ 2 ^ q * 10 ^ 25)
  | _ => false

/-- Whether `y` is nearer. -/
def entryFar (x y : Flt) (s : Int) : Bool :=
  isFinite y && decide ((val y * 10 ^ 25 - s * unit).natAbs + 8000000 * unit < (val x * 10 ^ 25 - s * unit).natAbs)

theorem unit_real : ((unit : Nat) : ℝ) = 2 ^ 149 := by rw [unit_pow, cast_unit]

theorem natAbs_real (v s : Int) : (((v * 10 ^ 25 - s * unit).natAbs : Nat) : ℝ) = |(v : ℝ) - s / 10 ^ 25 * 2 ^ 149| * 10 ^ 25 := by
  rw [← Int.cast_natCast, Int.natCast_natAbs]
  push_cast
  rw [unit_real]
  rw [← abs_of_pos (show (0 : ℝ) < 10 ^ 25 by positivity), ← abs_mul, abs_of_pos (show (0 : ℝ) < 10 ^ 25 by positivity)]
  congr 1
  rw [sub_mul, mul_right_comm, div_mul_cancel₀ _ (by positivity)]
  norm_num

theorem entry_shift {v r w : ℝ} (h : |w - r| ≤ 4 / 10 ^ 19) : |v - r * 2 ^ 149| ≤ |v - w * 2 ^ 149| + 4 / 10 ^ 19 * 2 ^ 149 ∧
    |v - w * 2 ^ 149| ≤ |v - r * 2 ^ 149| + 4 / 10 ^ 19 * 2 ^ 149 := by
  have e : |w * 2 ^ 149 - r * 2 ^ 149| ≤ 4 / 10 ^ 19 * 2 ^ 149 := by
    rw [← sub_mul, abs_mul, abs_of_pos (show (0 : ℝ) < 2 ^ 149 by positivity)]
    exact mul_le_mul_of_nonneg_right h (by positivity)
  have a := abs_sub_le v (w * 2 ^ 149) (r * 2 ^ 149)
  have b := abs_sub_le v (r * 2 ^ 149) (w * 2 ^ 149)
  rw [abs_sub_comm (r * 2 ^ 149)] at b
  exact ⟨a.trans (add_le_add le_rfl e), b.trans (add_le_add le_rfl e)⟩

theorem entryNear_spec {x : Flt} {s : Int} {r : ℝ} (h : entryNear x s = true) (hr : |(s : ℝ) / 10 ^ 25 - r| ≤ 4 / 10 ^ 19) : NearestReal x r := by
  unfold entryNear at h
  split at h
  · rename_i b m q
    simp only [Bool.and_eq_true, decide_eq_true_eq] at h
    obtain ⟨⟨h1, h2⟩, h3⟩ := h
    refine nearest_val (finite_of h1) h2 ?_
    have h3' : 2 * (((val (.fin b m q) * 10 ^ 25 - s * unit).natAbs : Nat) : ℝ) + 8000000 * (unit : Nat) ≤ 2 ^ q * 10 ^ 25 := by exact_mod_cast h3
    rw [natAbs_real, unit_real] at h3'
    have a := (entry_shift (v := val (.fin b m q)) hr).1
    generalize |((val (.fin b m q) : Int) : ℝ) - r * 2 ^ 149| = p at *
    generalize |((val (.fin b m q) : Int) : ℝ) - (s : ℝ) / 10 ^ 25 * 2 ^ 149| = p' at *
    have : (2 * p) * 10 ^ 25 ≤ 2 ^ q * 10 ^ 25 := by
      generalize (2 : ℝ) ^ q = Q at *
      norm_num at *
      linarith
    exact le_of_mul_le_mul_right this (by positivity)
  · cases h

theorem entryFar_spec {x y : Flt} {s : Int} {r : ℝ} (h : entryFar x y s = true) (hr : |(s : ℝ) / 10 ^ 25 - r| ≤ 4 / 10 ^ 19) : ¬ NearestReal x r := by
  rintro ⟨-, hn⟩
  unfold entryFar at h
  simp only [Bool.and_eq_true, decide_eq_true_eq] at h
  obtain ⟨h1, h2⟩ := h
  have h2' : (((val y * 10 ^ 25 - s * unit).natAbs : Nat) : ℝ) + 8000000 * (unit : Nat) < (((val x * 10 ^ 25 - s * unit).natAbs : Nat) : ℝ) := by
    exact_mod_cast h2
  rw [natAbs_real, natAbs_real, unit_real] at h2'
  have a := (entry_shift (v := val x) hr).2
  have b := (entry_shift (v := val y) hr).1
  have c := hn y (finite_of h1)
  have e : ∀ v : ℝ, |v / 2 ^ 149 - r| = |v - r * 2 ^ 149| / 2 ^ 149 := by
    intro v
    rw [← abs_of_pos (show (0 : ℝ) < 2 ^ 149 by positivity), ← abs_div, abs_of_pos (show (0 : ℝ) < 2 ^ 149 by positivity)]
    congr 1
    field_simp
  unfold real at c
  rw [e, e, div_le_div_iff_of_pos_right (by positivity)] at c
  generalize |((val x : Int) : ℝ) - r * 2 ^ 149| = p at *
  generalize |((val x : Int) : ℝ) - (s : ℝ) / 10 ^ 25 * 2 ^ 149| = p' at *
  generalize |((val y : Int) : ℝ) - r * 2 ^ 149| = t at *
  generalize |((val y : Int) : ℝ) - (s : ℝ) / 10 ^ 25 * 2 ^ 149| = t' at *
  norm_num at *
  linarith

/-- The positions of the cosines that are not nearest. -/
def badCos : List Nat := [17, 20, 33, 34, 35, 40, 42, 44, 45, 46, 47, 49, 50, 51, 52, 54, 55, 56, 57, 58, 59, 60, 61, 62, 63, 65, 66, 67, 68, 69, 70, 71, 72, 73, 74, 76, 77, 78, 79, 81, 82, 83, 84, 86, 88, 93, 94, 95, 108, 111, 145, 148, 161, 162, 163, 168, 170, 172, 173, 174, 175, 177, 178, 179, 180, 182, 183, 184, 185, 186, 187, 188, 189, 190, 191, 193, 194, 195, 196, 197, 198, 199, 200, 201, 202, 204, 205, 206, 207, 209, 210, 211, 212, 214, 216, 221, 222, 223, 236, 239]
/-- The positions of the sines that are not nearest. -/
def badSin : List Nat := [7, 10, 11, 16, 17, 21, 25, 27, 28, 34, 35, 40, 42, 51, 56, 72, 77, 86, 88, 93, 94, 100, 101, 103, 107, 111, 112, 117, 118, 121, 135, 138, 139, 144, 145, 149, 153, 155, 156, 162, 163, 168, 170, 179, 184, 200, 205, 214, 216, 221, 222, 228, 229, 231, 235, 239, 240, 245, 246, 249]

/-- A better float: one unit up or down. -/
def better (x : Flt) (s : Int) : Flt :=
  match x with
  | .fin b m q => if (val x * 10 ^ 25 < s * unit) = (b = false) then .fin b (m + 1) q else .fin b (m - 1) q
  | x => x

theorem trig_check : ∀ n < 256, ((if n % 64 = 0 then true
      else if n ∈ badCos then entryFar (cosAlpha n) (better (cosAlpha n) (spin n).1) (spin n).1 else entryNear (cosAlpha n) (spin n).1) &&
    (if n % 64 = 0 then true
      else if n ∈ badSin then entryFar (sinAlpha n) (better (sinAlpha n) (spin n).2) (spin n).2 else entryNear (sinAlpha n) (spin n).2)) = true := by
  decide +kernel

theorem trig_quarters : ∀ n < 256, n % 64 = 0 → n ∉ badCos ∧ n ∉ badSin ∧ isFinite (cosAlpha n) = true ∧ isFinite (sinAlpha n) = true := by decide +kernel

theorem quarter (k : Nat) (h : k < 4) : real (cosAlpha (64 * k)) = Real.cos ((64 * k : Nat) * (pi / 128)) ∧
    real (sinAlpha (64 * k)) = Real.sin ((64 * k : Nat) * (pi / 128)) := by
  have v : ∀ k < 4, (val (cosAlpha (64 * k)), val (sinAlpha (64 * k))) =
      (match k with | 0 => ((unit : Int), (0 : Int)) | 1 => (0, unit) | 2 => (-unit, 0) | _ => (0, -unit)) := by decide +kernel
  have v := v k h
  have e : ∀ z : Int, ((z * (unit : Nat) : Int) : ℝ) / 2 ^ 149 = z := by
    intro z
    rw [Int.cast_mul, Int.cast_natCast, unit_real]
    field_simp
  unfold real
  have hk : k = 0 ∨ k = 1 ∨ k = 2 ∨ k = 3 := by omega
  rcases hk with rfl | rfl | rfl | rfl
  · obtain ⟨v1, v2⟩ := Prod.mk.inj v
    rw [v1, v2]
    have := e 1
    rw [one_mul] at this
    rw [this]; simp
  · obtain ⟨v1, v2⟩ := Prod.mk.inj v
    rw [v1, v2]
    have := e 1
    rw [one_mul] at this
    rw [this, show ((64 * 1 : Nat) : ℝ) * (pi / 128) = pi / 2 by push_cast; ring]; simp
  · obtain ⟨v1, v2⟩ := Prod.mk.inj v
    rw [v1, v2]
    have := e (-1)
    rw [neg_one_mul] at this
    rw [this, show ((64 * 2 : Nat) : ℝ) * (pi / 128) = pi by push_cast; ring]; simp
  · obtain ⟨v1, v2⟩ := Prod.mk.inj v
    rw [v1, v2]
    have := e (-1)
    rw [neg_one_mul] at this
    rw [this, show ((64 * 3 : Nat) : ℝ) * (pi / 128) = pi / 2 + pi by push_cast; ring, Real.cos_add_pi, Real.sin_add_pi]; simp

/-- **C142, what holds.** Exactly the 352 entries that are not listed are nearest floats. -/
theorem C142_entries_partial (n : Nat) (h : n < 256) :
    (NearestReal (cosAlpha n) (Real.cos (n * (pi / 128))) ↔ n ∉ badCos) ∧ (NearestReal (sinAlpha n) (Real.sin (n * (pi / 128))) ↔ n ∉ badSin) := by
  by_cases h0 : n % 64 = 0
  · obtain ⟨b1, b2, f1, f2⟩ := trig_quarters n h h0
    obtain ⟨k, rfl⟩ : ∃ k, n = 64 * k := ⟨n / 64, by omega⟩
    obtain ⟨e1, e2⟩ := quarter k (by omega)
    rw [← e1, ← e2]
    exact ⟨iff_of_true (nearest_exact (finite_of f1)) b1, iff_of_true (nearest_exact (finite_of f2)) b2⟩
  · have t := trig_check n h
    rw [if_neg h0, if_neg h0, Bool.and_eq_true] at t
    obtain ⟨e1, e2⟩ := spin_error n
    have hp : ((103 / 100 : ℝ) ^ n - 1) * (2 / 10 ^ 22) ≤ 4 / 10 ^ 19 := by
      have : (103 / 100 : ℝ) ^ n ≤ (103 / 100) ^ 256 := pow_le_pow_right₀ (by norm_num) h.le
      have : (103 / 100 : ℝ) ^ 256 ≤ 2000 := by norm_num
      norm_num at *
      linarith
    obtain ⟨t1, t2⟩ := t
    constructor
    · by_cases hb : n ∈ badCos
      · rw [if_pos hb] at t1
        exact iff_of_false (entryFar_spec t1 (e1.trans hp)) (not_not.2 hb)
      · rw [if_neg hb] at t1
        exact iff_of_true (entryNear_spec t1 (e1.trans hp)) hb
    · by_cases hb : n ∈ badSin
      · rw [if_pos hb] at t2
        exact iff_of_false (entryFar_spec t2 (e2.trans hp)) (not_not.2 hb)
      · rw [if_neg hb] at t2
        exact iff_of_true (entryNear_spec t2 (e2.trans hp)) hb

theorem trig_error_check : ∀ n < 256, (decide (10 ^ 10 * (val (cosAlpha n) * 10 ^ 25 - (spin n).1 * unit).natAbs ≤ 927 * 10 ^ 25 * unit) &&
    decide (10 ^ 10 * (val (sinAlpha n) * 10 ^ 25 - (spin n).2 * unit).natAbs ≤ 927 * 10 ^ 25 * unit)) = true := by
  decide +kernel

/-- **C142, the errors**: no entry is off by more than `9.3 * 10^(-8)`. -/
theorem C142_error (n : Nat) (h : n < 256) :
    |real (cosAlpha n) - Real.cos (n * (pi / 128))| ≤ 93 / 10 ^ 9 ∧ |real (sinAlpha n) - Real.sin (n * (pi / 128))| ≤ 93 / 10 ^ 9 := by
  have t := trig_error_check n h
  simp only [Bool.and_eq_true, decide_eq_true_eq] at t
  obtain ⟨e1, e2⟩ := spin_error n
  have hp : ((103 / 100 : ℝ) ^ n - 1) * (2 / 10 ^ 22) ≤ 4 / 10 ^ 19 := by
    have : (103 / 100 : ℝ) ^ n ≤ (103 / 100) ^ 256 := pow_le_pow_right₀ (by norm_num) h.le
    have : (103 / 100 : ℝ) ^ 256 ≤ 2000 := by norm_num
    norm_num at *
    linarith
  have key : ∀ {v s : Int} {r : ℝ}, 10 ^ 10 * (v * 10 ^ 25 - s * unit).natAbs ≤ 927 * 10 ^ 25 * unit → |(s : ℝ) / 10 ^ 25 - r| ≤ 4 / 10 ^ 19 →
      |(v : ℝ) / 2 ^ 149 - r| ≤ 93 / 10 ^ 9 := by
    intro v s r h1 h2
    have h1' : (10 ^ 10 : ℝ) * (((v * 10 ^ 25 - s * unit).natAbs : Nat) : ℝ) ≤ 927 * 10 ^ 25 * (unit : Nat) := by exact_mod_cast h1
    rw [natAbs_real, unit_real] at h1'
    have a := (entry_shift (v := v) h2).1
    have e : |(v : ℝ) / 2 ^ 149 - r| = |(v : ℝ) - r * 2 ^ 149| / 2 ^ 149 := by
      rw [← abs_of_pos (show (0 : ℝ) < 2 ^ 149 by positivity), ← abs_div, abs_of_pos (show (0 : ℝ) < 2 ^ 149 by positivity)]
      congr 1
      field_simp
    rw [e, div_le_iff₀ (by positivity)]
    generalize |(v : ℝ) - r * 2 ^ 149| = p at *
    generalize |(v : ℝ) - (s : ℝ) / 10 ^ 25 * 2 ^ 149| = p' at *
    norm_num at *
    linarith
  exact ⟨key t.1 (e1.trans hp), key t.2 (e2.trans hp)⟩

/-- The entry for the cosine of `63 pi / 128` is 50 units in the last place below that for the sine of `pi / 128`. -/
theorem C142_violated : ¬ C142_statement := fun h =>
  absurd ((C142_entries_partial 63 (by decide)).1.1 (h 63 (by decide)).1) (by decide)

example : badCos.length + badSin.length = 160 := by decide

/-- `sin(pi / 128)` is `cos(63 pi / 128)`. -/
example : cosAlpha 63 = ofBits 0x3CC90A7E ∧ sinAlpha 1 = ofBits 0x3CC90AB0 := by decide

end Verif.Props
