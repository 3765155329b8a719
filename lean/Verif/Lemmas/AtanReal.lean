import Mathlib.Analysis.SpecialFunctions.Trigonometric.ArctanDeriv
import Verif.Lemmas.TrigReal

/-!
# Accuracy of `Arctan`

The table is compared with sums of `arctan (64 / (4096 + n (n + 1)))`, the differences of `arctan (n / 64)`.
-/

namespace Verif.Trig

open Verif Verif.B32 Verif.MathFns Verif.Spec.F32
open Real (pi)

/-! ## Taylor's bounds -/

theorem atan_low {x : ℝ} (h : 0 ≤ x) : x - x ^ 3 / 3 ≤ Real.arctan x := by
  have hd : ∀ y : ℝ, HasDerivAt (fun y => Real.arctan y - (y - y ^ 3 / 3)) (1 / (1 + y ^ 2) - (1 - y ^ 2)) y := by
    intro y
    have := (Real.hasDerivAt_arctan y).sub ((hasDerivAt_id y).sub ((hasDerivAt_pow 3 y).div_const 3))
    refine HasDerivAt.congr_deriv this ?_
    push_cast
    ring
  have m : MonotoneOn (fun y => Real.arctan y - (y - y ^ 3 / 3)) (Set.Ici 0) := by
    refine monotoneOn_of_deriv_nonneg (convex_Ici 0) (fun y _ => (hd y).continuousAt.continuousWithinAt)
      (fun y _ => (hd y).differentiableAt.differentiableWithinAt) (fun y _ => ?_)
    rw [(hd y).deriv]
    have : 0 < 1 + y ^ 2 := by positivity
    rw [sub_nonneg, le_div_iff₀ this]
    nlinarith [sq_nonneg (y ^ 2)]
  have := m (Set.mem_Ici.2 le_rfl) (Set.mem_Ici.2 h) h
  norm_num at this
  linarith

theorem atan_high {x : ℝ} (h : 0 ≤ x) : Real.arctan x ≤ x - x ^ 3 / 3 + x ^ 5 / 5 := by
  have hd : ∀ y : ℝ, HasDerivAt (fun y => y - y ^ 3 / 3 + y ^ 5 / 5 - Real.arctan y) (1 - y ^ 2 + y ^ 4 - 1 / (1 + y ^ 2)) y := by
    intro y
    have := (((hasDerivAt_id y).sub ((hasDerivAt_pow 3 y).div_const 3)).add ((hasDerivAt_pow 5 y).div_const 5)).sub (Real.hasDerivAt_arctan y)
    refine HasDerivAt.congr_deriv this ?_
    push_cast
    ring
  have m : MonotoneOn (fun y => y - y ^ 3 / 3 + y ^ 5 / 5 - Real.arctan y) (Set.Ici 0) := by
    refine monotoneOn_of_deriv_nonneg (convex_Ici 0) (fun y _ => (hd y).continuousAt.continuousWithinAt)
      (fun y _ => (hd y).differentiableAt.differentiableWithinAt) (fun y _ => ?_)
    rw [(hd y).deriv]
    have : 0 < 1 + y ^ 2 := by positivity
    rw [sub_nonneg, div_le_iff₀ this]
    nlinarith [sq_nonneg (y ^ 3)]
  have := m (Set.mem_Ici.2 le_rfl) (Set.mem_Ici.2 h) h
  norm_num at this
  linarith

theorem atan_bound (x : ℝ) : |Real.arctan x - (x - x ^ 3 / 3)| ≤ |x| ^ 5 / 5 := by
  rcases le_total 0 x with h | h
  · rw [abs_of_nonneg h, abs_le]
    have := atan_low h
    have := atan_high h
    have : 0 ≤ x ^ 5 / 5 := by positivity
    constructor <;> linarith
  · have h' : 0 ≤ -x := by linarith
    rw [abs_of_nonpos h, abs_le]
    have a := atan_low h'
    have b := atan_high h'
    rw [Real.arctan_neg] at a b
    have : 0 ≤ (-x) ^ 5 / 5 := by positivity
    rw [show (-x) ^ 3 = - x ^ 3 by ring] at a b
    constructor <;> linarith

/-! ## The table -/

/-- Lower bounds, in units of `2^(-64)`. -/
def atanLow : Nat → Nat
  | 0 => 0
  | n + 1 => let d := 4096 + n * (n + 1); atanLow n + 2 ^ 64 * (3 * 64 * d ^ 2 - 64 ^ 3) / (3 * d ^ 3)

/-- Upper bounds, in units of `2^(-64)`. -/
def atanHigh : Nat → Nat
  | 0 => 0
  | n + 1 => let d := 4096 + n * (n + 1); atanHigh n + 2 ^ 64 * (15 * 64 * d ^ 4 + 3 * 64 ^ 5 - 5 * 64 ^ 3 * d ^ 2) / (15 * d ^ 5) + 1

theorem atan_step (n : Nat) : Real.arctan ((n + 1 : Nat) / 64) = Real.arctan (n / 64) + Real.arctan (64 / (4096 + n * (n + 1))) := by
  have hn : (0 : ℝ) ≤ n := Nat.cast_nonneg n
  have h := Real.arctan_add (x := ((n + 1 : Nat) : ℝ) / 64) (y := -((n : ℝ) / 64)) (by
    have : (0 : ℝ) ≤ ((n + 1 : Nat) : ℝ) / 64 * ((n : ℝ) / 64) := by positivity
    linarith)
  rw [Real.arctan_neg] at h
  have e : (((n + 1 : Nat) : ℝ) / 64 + -((n : ℝ) / 64)) / (1 - ((n + 1 : Nat) : ℝ) / 64 * -((n : ℝ) / 64)) = 64 / (4096 + n * (n + 1)) := by
    push_cast
    have : (0 : ℝ) < 4096 + n * (n + 1) := by positivity
    have : (0 : ℝ) < 1 - (n + 1) / 64 * -((n : ℝ) / 64) := by
      have : (0 : ℝ) ≤ ((n : ℝ) + 1) / 64 * ((n : ℝ) / 64) := by positivity
      linarith
    rw [div_eq_div_iff this.ne' (by positivity)]
    ring
  rw [e] at h
  linarith

theorem div_le_succ (a : Nat) {b : Nat} (hb : 0 < b) : (a : ℝ) / b ≤ (a / b : Nat) + 1 := by
  have hb' : (0 : ℝ) < b := by exact_mod_cast hb
  rw [div_le_iff₀ hb']
  have h : a ≤ (a / b + 1) * b := by
    have := Nat.div_add_mod a b
    have := Nat.mod_lt a hb
    nlinarith
  exact_mod_cast h

theorem atan_sum (n : Nat) : (atanLow n : ℝ) ≤ 2 ^ 64 * Real.arctan (n / 64) ∧ 2 ^ 64 * Real.arctan (n / 64) ≤ atanHigh n := by
  induction n with
  | zero => simp [atanLow, atanHigh]
  | succ n ih =>
    rw [atan_step]
    have hn : (0 : ℝ) ≤ n := Nat.cast_nonneg n
    have hd : (0 : ℝ) < 4096 + n * (n + 1) := by positivity
    have hx : (0 : ℝ) ≤ 64 / (4096 + n * (n + 1)) := by positivity
    have l := atan_low hx
    have u := atan_high hx
    have hD : 4096 ≤ 4096 + n * (n + 1) := Nat.le_add_right _ _
    have cD : ((4096 + n * (n + 1) : Nat) : ℝ) = 4096 + n * (n + 1) := by push_cast; ring
    unfold atanLow atanHigh
    dsimp only
    generalize 4096 + n * (n + 1) = D at *
    rw [← cD] at hd hx l u ⊢
    have D0 : (0 : ℝ) < D := hd
    constructor
    · have a : ((2 ^ 64 * (3 * 64 * D ^ 2 - 64 ^ 3) / (3 * D ^ 3) : Nat) : ℝ) ≤ 2 ^ 64 * (64 / D - (64 / D) ^ 3 / 3) := by
        refine Nat.cast_div_le.trans (le_of_eq ?_)
        rw [Nat.cast_mul, Nat.cast_sub (by nlinarith)]
        push_cast
        field_simp
        ring
      rw [Nat.cast_add]
      have := mul_le_mul_of_nonneg_left l (show (0 : ℝ) ≤ 2 ^ 64 by positivity)
      linarith [ih.1]
    · have a : 2 ^ 64 * (64 / D - (64 / D) ^ 3 / 3 + (64 / D) ^ 5 / 5) ≤ ((2 ^ 64 * (15 * 64 * D ^ 4 + 3 * 64 ^ 5 - 5 * 64 ^ 3 * D ^ 2) / (15 * D ^ 5) : Nat) : ℝ) + 1 := by
        have := div_le_succ (2 ^ 64 * (15 * 64 * D ^ 4 + 3 * 64 ^ 5 - 5 * 64 ^ 3 * D ^ 2)) (b := 15 * D ^ 5) (by positivity)
        refine le_trans (le_of_eq ?_) this
        have hle : 5 * 64 ^ 3 * D ^ 2 ≤ 15 * 64 * D ^ 4 + 3 * 64 ^ 5 := by
          have : 4096 * 4096 ≤ D ^ 2 := by nlinarith
          have : D ^ 4 = D ^ 2 * D ^ 2 := by ring
          nlinarith
        rw [Nat.cast_mul, Nat.cast_sub hle]
        push_cast
        field_simp
        ring
      rw [Nat.cast_add, Nat.cast_add, Nat.cast_one]
      have := mul_le_mul_of_nonneg_left u (show (0 : ℝ) ≤ 2 ^ 64 by positivity)
      linarith [ih.2]

/-- The entries as floats. -/
def atanAt (n : Nat) : Flt := ofBits ((atanTable[n]?).getD 0)

theorem atan_check : ∀ n < 65, (isFinite (atanAt n) && decide (n < atanTable.length) &&
    decide (10 ^ 8 * (val (atanAt n) - atanLow n * 2 ^ 85) ≤ 4 * 2 ^ 149) &&
    decide (10 ^ 8 * (atanHigh n * 2 ^ 85 - val (atanAt n)) ≤ 4 * 2 ^ 149)) = true := by
  decide +kernel

theorem atan_entry {n : Nat} (hn : n < 65) : Approx (atanAt n) (Real.arctan (n / 64)) (4 / 10 ^ 8) := by
  have h := atan_check n hn
  simp only [Bool.and_eq_true, decide_eq_true_eq] at h
  obtain ⟨⟨⟨h1, -⟩, h2⟩, h3⟩ := h
  refine ⟨finite_of h1, ?_⟩
  obtain ⟨s1, s2⟩ := atan_sum n
  unfold real
  generalize val (atanAt n) = v at *
  generalize atanLow n = l at *
  generalize atanHigh n = u at *
  generalize Real.arctan (n / 64) = a at *
  have h2' : (10 : ℝ) ^ 8 * (v - l * 2 ^ 85) ≤ 4 * 2 ^ 149 := by exact_mod_cast h2
  have h3' : (10 : ℝ) ^ 8 * (u * 2 ^ 85 - v) ≤ 4 * 2 ^ 149 := by exact_mod_cast h3
  rw [abs_le, le_sub_iff_add_le, sub_le_iff_le_add, le_div_iff₀ (by positivity), div_le_iff₀ (by positivity)]
  norm_num at *
  constructor <;> linarith

theorem atanEntry_eq {i : Flt} {n : Nat} (hi : Spec.F32.Finite i) (hv : val i = (n : Int) * unit) (hn : n < 65) : atanEntry i = .ok (atanAt n) := by
  have hl : n < atanTable.length := by
    have h := atan_check n hn
    simp only [Bool.and_eq_true, decide_eq_true_eq] at h
    exact h.1.1.2
  unfold atanEntry
  rw [toInt_int hi hv, if_pos ⟨by omega, by omega⟩, Out.ok_bind, if_neg (by omega)]
  unfold atanAt
  simp only [Int.toNat_natCast, List.getElem?_eq_getElem hl, Option.getD_some]

/-! ## The unit interval -/

theorem c64 : Approx (const 0x42800000) 64 0 :=
  const_of (m := 8388608) (q := 132) (by decide) ⟨by decide, by decide, .inr (by decide)⟩ (by decide) (by norm_num)

theorem c64th : Approx (const 0x3C800000) (1 / 64) 0 :=
  const_of (m := 8388608) (q := 120) (by decide) ⟨by decide, by decide, .inr (by decide)⟩ (by decide) (by norm_num)

theorem lit_of {x : Flt} {m q : Nat} {r d : ℝ} (h : x = .fin false m q) (hc : Canonical m q) (hq : q ≤ 149)
    (hd : |(m : ℝ) / 2 ^ (149 - q) - r| ≤ d) : Approx x r d := by
  obtain ⟨a, e⟩ := const_approx h hc hq
  exact ⟨a, by rw [e]; exact hd⟩

theorem third_lit : Approx (lit 3333333333 10) (1 / 3) (1 / 10 ^ 8) :=
  lit_of (m := 11184811) (q := 124) (by decide +kernel) ⟨by decide, by decide, .inr (by decide)⟩ (by decide)
    (by rw [abs_le]; constructor <;> norm_num)

theorem fifth_lit : Approx (lit 2 1) (1 / 5) (1 / 10 ^ 8) :=
  lit_of (m := 13421773) (q := 123) (by decide +kernel) ⟨by decide, by decide, .inr (by decide)⟩ (by decide)
    (by rw [abs_le]; constructor <;> norm_num)

theorem seventh_lit : Approx (lit 1428571429 10) (1 / 7) (1 / 10 ^ 8) :=
  lit_of (m := 9586981) (q := 123) (by decide +kernel) ⟨by decide, by decide, .inr (by decide)⟩ (by decide)
    (by rw [abs_le]; constructor <;> norm_num)

/-- The polynomial. -/
theorem atan_poly {c : Flt} {t d : ℝ} (h : Approx c t d) (hd : d ≤ 7 / 10 ^ 8) (ht : |t| ≤ 157 / 10 ^ 4) :
    Approx (mul c (sub one (mul (mul c c) (add (lit 3333333333 10) (mul (mul c c) (sub (lit 2 1) (mul (mul c c) (lit 1428571429 10))))))))
      (Real.arctan t) (d + 6 / 10 ^ 9) := by
  have d0 : 0 ≤ d := (abs_nonneg _).trans h.2
  have h' := h.mono hd
  have tt : |t * t| ≤ 247 / 10 ^ 6 := by
    rw [abs_mul]; exact (mul_le_mul ht ht (abs_nonneg _) (by norm_num)).trans (by norm_num)
  have t0 : 0 ≤ t * t := mul_self_nonneg t
  rw [abs_of_nonneg t0] at tt
  have c2 : Approx (mul c c) (t * t) (3 / 10 ^ 9) := Approx.mul (157 / 10 ^ 4) (157 / 10 ^ 4) _ h' h' ht ht (by norm_num) (by unfold eps tiny; norm_num)
  have at2 : |t * t| ≤ 247 / 10 ^ 6 := by rwa [abs_of_nonneg t0]
  have p1 : Approx (mul (mul c c) (lit 1428571429 10)) (t * t * (1 / 7)) (1 / 10 ^ 9) :=
    Approx.mul (247 / 10 ^ 6) (1 / 7) _ c2 seventh_lit at2 (by norm_num) (by norm_num) (by unfold eps tiny; norm_num)
  have b1 : |1 / 5 - t * t * (1 / 7)| ≤ 1 / 5 := by rw [abs_le]; norm_num at *; constructor <;> linarith
  have p2 := Approx.sub (1 / 5) (3 / 10 ^ 8) fifth_lit p1 b1 (by norm_num) (by unfold eps; norm_num)
  have p3 := Approx.mul (247 / 10 ^ 6) (1 / 5) (1 / 10 ^ 9) c2 p2 at2 b1 (by norm_num) (by unfold eps tiny; norm_num)
  have b2 : |t * t * (1 / 5 - t * t * (1 / 7))| ≤ 1 / 10 ^ 4 := by
    rw [abs_mul]; exact (mul_le_mul at2 b1 (abs_nonneg _) (by norm_num)).trans (by norm_num)
  have b3 : |1 / 3 + t * t * (1 / 5 - t * t * (1 / 7))| ≤ 334 / 1000 := by rw [abs_le] at *; norm_num at *; constructor <;> linarith
  have p4 := Approx.add (334 / 1000) (4 / 10 ^ 8) third_lit p3 b3 (by norm_num) (by unfold eps; norm_num)
  have p5 := Approx.mul (247 / 10 ^ 6) (334 / 1000) (2 / 10 ^ 9) c2 p4 at2 b3 (by norm_num) (by unfold eps tiny; norm_num)
  have b4 : |t * t * (1 / 3 + t * t * (1 / 5 - t * t * (1 / 7)))| ≤ 1 / 10 ^ 4 := by
    rw [abs_mul]; exact (mul_le_mul at2 b3 (abs_nonneg _) (by norm_num)).trans (by norm_num)
  have b5 : |1 - t * t * (1 / 3 + t * t * (1 / 5 - t * t * (1 / 7)))| ≤ 10001 / 10 ^ 4 := by
    rw [abs_le] at b4 ⊢; norm_num at *; constructor <;> linarith
  have p6 := Approx.sub (10001 / 10 ^ 4) (7 / 10 ^ 8) one0 p5 b5 (by norm_num) (by unfold eps; norm_num)
  have p7 := Approx.mul (157 / 10 ^ 4) (10001 / 10 ^ 4) (d + 3 / 10 ^ 9) h p6 ht b5 (by norm_num at *; nlinarith)
    (by unfold eps tiny; norm_num at *; nlinarith)
  refine shifted p7 (e := 2 / 10 ^ 9) ?_ (by norm_num; linarith)
  have ab := atan_bound t
  have f5 : |t| ^ 5 ≤ 1 / 10 ^ 9 := (pow_le_pow_left₀ (abs_nonneg _) ht 5).trans (by norm_num)
  have f7 : |t| ^ 7 ≤ 1 / 10 ^ 9 := (pow_le_pow_left₀ (abs_nonneg _) ht 7).trans (by norm_num)
  have e : t * (1 - t * t * (1 / 3 + t * t * (1 / 5 - t * t * (1 / 7)))) - Real.arctan t = -(Real.arctan t - (t - t ^ 3 / 3)) - t ^ 5 / 5 + t ^ 7 / 7 := by ring
  rw [e]
  rw [← abs_pow, abs_le] at f5 f7
  rw [← abs_pow] at ab
  have ab' := ab.trans (show |t ^ 5| / 5 ≤ 1 / 10 ^ 9 / 5 by rw [← abs_le] at f5; gcongr)
  rw [abs_le] at ab' ⊢
  norm_num at *
  constructor <;> linarith

theorem atan_lip (x y : ℝ) : |Real.arctan x - Real.arctan y| ≤ |x - y| := by
  have h := Convex.norm_image_sub_le_of_norm_deriv_le (f := Real.arctan) (s := Set.univ) (C := 1) (x := y) (y := x)
    (fun z _ => (Real.hasDerivAt_arctan z).differentiableAt)
    (fun z _ => by
      rw [(Real.hasDerivAt_arctan z).deriv, Real.norm_eq_abs, abs_of_nonneg (by positivity), div_le_one (by positivity)]
      have := sq_nonneg z
      linarith)
    convex_univ (Set.mem_univ _) (Set.mem_univ _)
  rwa [one_mul, Real.norm_eq_abs, Real.norm_eq_abs] at h

theorem atan_self {t d : ℝ} (h : |t| ≤ d) : |Real.arctan t| ≤ d := by
  have := atan_lip t 0
  rw [Real.arctan_zero, sub_zero, sub_zero] at this
  exact this.trans h

/-- `Arctan` between zero and one. -/
theorem atan_unit {a : Flt} (ha : Spec.F32.Finite a) (h0 : 0 ≤ val a) (h1 : real a ≤ 1 + 1 / 10 ^ 6) :
    ∃ r, atanUnit a = .ok r ∧ Approx r (Real.arctan (real a)) (17 / 10 ^ 8) := by
  have r0 := real_nonneg h0
  have ra : |real a| ≤ 1000001 / 10 ^ 6 := by rw [abs_of_nonneg r0]; norm_num at *; linarith
  have t := Approx.mul (1000001 / 10 ^ 6) 64 (4 / 10 ^ 6) (.exact ha) c64 ra (by norm_num) (by norm_num) (by unfold eps tiny; norm_num)
  have tv : 0 ≤ val (mul a (const 0x42800000)) := by
    obtain ⟨s, m, q, rfl, hc⟩ := ha
    have e : const 0x42800000 = .fin false 8388608 132 := by decide
    rw [e]
    show 0 ≤ val (B32.round (s != false) (m * 2 ^ q * (8388608 * 2 ^ 132)) (2 ^ 149))
    cases s
    · exact round_nonneg _ _
    · have : m * 2 ^ q = 0 := by
        rw [val_fin] at h0
        simp only [if_true] at h0
        have : (0 : Int) ≤ (m * 2 ^ q : Nat) := Int.natCast_nonneg _
        omega
      rw [this, Nat.zero_mul]
      decide +kernel
  have t0 := real_nonneg tv
  have t1 := abs_le.1 t.2
  have tb : real (mul a (const 0x42800000)) ≤ (8388608 : Nat) := by norm_num at *; linarith
  have hw : IsFloor (mul a (const 0x42800000)) (atanIndex a) :=
    down_floor t.1 (near_positive t.1 tv (by rw [T_unit]; exact_mod_cast (val_of_real t0 tb).2)).1
  obtain ⟨n, n0, w1, w2, w3, w4, -, -⟩ := split_floor t.1 t0 hw
  obtain ⟨k, rfl⟩ := Int.eq_ofNat_of_zero_le n0
  have hk : k < 65 := by
    have : ((k : Int) : ℝ) < ((65 : Int) : ℝ) := by
      have u2 := t1.2
      push_cast at w3 ⊢
      norm_num at u2 h1
      linarith
    have : (k : Int) < 65 := by exact_mod_cast this
    omega
  have ri : real (atanIndex a) = k := by
    unfold real
    rw [w2, unit_pow, Int.cast_mul, Int.cast_natCast, Int.cast_natCast, cast_unit]
    field_simp
  rw [Int.cast_natCast] at w3 w4
  have k64 : (k : ℝ) ≤ 64 := by exact_mod_cast Nat.lt_succ_iff.1 hk
  have k0 : (0 : ℝ) ≤ k := Nat.cast_nonneg k
  have en := atan_entry hk
  refine ⟨add (atanAt k) (atanRest a (atanIndex a)), ?_, ?_⟩
  · unfold atanUnit
    rw [atanEntry_eq w1 w2 hk, Out.ok_bind]
  have ii : Approx (atanIndex a) (k : ℝ) 0 := by have := Approx.exact w1; rwa [ri] at this
  have b := Approx.mul 64 (1 / 64) (6 / 10 ^ 8) ii c64th (by rw [abs_of_nonneg k0]; exact k64) (by norm_num) (by norm_num) (by unfold eps tiny; norm_num)
  have B0 : 0 ≤ (k : ℝ) * (1 / 64) := by positivity
  have B1 : (k : ℝ) * (1 / 64) ≤ 1 := by linarith
  have AB : 0 ≤ real a * ((k : ℝ) * (1 / 64)) := mul_nonneg r0 B0
  have AB1 : real a * ((k : ℝ) * (1 / 64)) ≤ 1000001 / 10 ^ 6 := by
    have := mul_le_mul ra (show |(k : ℝ) * (1 / 64)| ≤ 1 by rw [abs_of_nonneg B0]; exact B1) (abs_nonneg _) (by norm_num)
    rwa [abs_of_nonneg r0, abs_of_nonneg B0, mul_one] at this
  have dif : |real a - (k : ℝ) * (1 / 64)| ≤ 1563 / 10 ^ 5 := by
    obtain ⟨u1, u2⟩ := t1
    rw [abs_le]
    norm_num at u1 u2 ⊢
    constructor <;> linarith
  have d := Approx.sub (1563 / 10 ^ 5) (62 / 10 ^ 9) (.exact ha) b dif (by norm_num) (by unfold eps; norm_num)
  have m := Approx.mul (1000001 / 10 ^ 6) 1 (12 / 10 ^ 8) (.exact ha) b ra (by rw [abs_of_nonneg B0]; exact B1) (by norm_num) (by unfold eps tiny; norm_num)
  have e := Approx.add (2000001 / 10 ^ 6) (25 / 10 ^ 8) m one0 (by rw [abs_of_nonneg (by linarith)]; norm_num at *; linarith) (by norm_num) (by unfold eps; norm_num)
  have q1 : |(real a - (k : ℝ) * (1 / 64)) / (real a * ((k : ℝ) * (1 / 64)) + 1)| ≤ 1563 / 10 ^ 5 := by
    rw [abs_div, div_le_iff₀ (abs_pos.2 (by positivity)), abs_of_nonneg (show 0 ≤ real a * ((k : ℝ) * (1 / 64)) + 1 by linarith)]
    nlinarith
  have c := Approx.div (1563 / 10 ^ 5) 1 (69 / 10 ^ 9) d e q1 (by rw [abs_of_nonneg (by linarith)]; linarith) (by norm_num) (by norm_num) (by unfold eps tiny; norm_num)
  have p := atan_poly c (by norm_num) (q1.trans (by norm_num))
  have add := Real.arctan_add (x := real a) (y := -((k : ℝ) / 64)) (by
    have : real a * ((k : ℝ) * (1 / 64)) = real a * ((k : ℝ) / 64) := by ring
    linarith)
  have e1 : (real a + -((k : ℝ) / 64)) / (1 - real a * -((k : ℝ) / 64)) = (real a - (k : ℝ) * (1 / 64)) / (real a * ((k : ℝ) * (1 / 64)) + 1) := by
    congr 1 <;> ring
  rw [e1, Real.arctan_neg] at add
  have sum : Real.arctan ((k : ℝ) / 64) + Real.arctan ((real a - (k : ℝ) * (1 / 64)) / (real a * ((k : ℝ) * (1 / 64)) + 1)) = Real.arctan (real a) := by linarith
  have s1 : |Real.arctan (real a)| ≤ 802 / 1000 := by
    rw [abs_of_nonneg (Real.arctan_nonneg.2 r0), ← sum]
    have a1 : Real.arctan ((k : ℝ) / 64) ≤ Real.arctan 1 := Real.arctan_strictMono.monotone (by linarith)
    rw [Real.arctan_one] at a1
    have a2 := abs_le.1 (atan_self q1)
    have := Real.pi_lt_d20
    norm_num at *
    linarith
  have fin := Approx.add (802 / 1000) (17 / 10 ^ 8) en p (by rw [sum]; exact s1) (by norm_num) (by unfold eps; norm_num)
  rw [sum] at fin
  exact fin

end Verif.Trig
