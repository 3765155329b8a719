import Mathlib.Algebra.Field.Rat
import Mathlib.Algebra.Order.Field.Rat
import Mathlib.Algebra.Order.Field.Basic
import Mathlib.Algebra.Order.Field.Power
import Mathlib.Tactic.Ring
import Mathlib.Tactic.FieldSimp
import Mathlib.Tactic.NormNum
import Mathlib.Tactic.Linarith
import Mathlib.Tactic.Positivity
import Mathlib.Tactic.GCongr
import Verif.Spec.Relative
import Verif.Lemmas.ReaderExact
import Verif.Lemmas.Rounding
import Verif.Lemmas.Builtin

/-!
# Accumulated rounding errors of the built-in number reader
-/

namespace Verif.B64

open Verif Verif.Spec Verif.Builtin

/-- The unit `2^1074`. -/
def unit : Rat := 2 ^ 1074

theorem unit_pos : 0 < unit := by unfold unit; positivity

/-- One plus half a unit of the last of 53 bits. -/
def w : Rat := 1 + 1 / 2 ^ 53

theorem w_one : 1 ≤ w := by unfold w; norm_num

theorem w_pos : 0 < w := lt_of_lt_of_le one_pos w_one

theorem roundings_iff (k : Nat) (x d : Rat) : Roundings k x d ↔ d ≤ x * w ^ k ∧ x ≤ d * w ^ k := Iff.rfl

theorem w_pow (k : Nat) (h : k ≤ 2 ^ 52) : w ^ k ≤ 1 + k / 2 ^ 52 := by
  induction k with
  | zero => simp
  | succ k ih =>
    have h1 := ih (by omega)
    have hk : (k : Rat) ≤ 4503599627370496 := by exact_mod_cast (by omega : k ≤ 4503599627370496)
    have hw : w = 1 + 1 / 2 ^ 53 := rfl
    rw [pow_succ]
    have h2 : w ^ k * w ≤ (1 + k / 2 ^ 52) * w := mul_le_mul_of_nonneg_right h1 w_pos.le
    refine h2.trans ?_
    rw [hw]
    push_cast
    have h0 : (0 : Rat) ≤ k := by positivity
    norm_num
    linarith

theorem w_two {k : Nat} (h : k ≤ 2000) : w ^ k ≤ 2 := by
  refine (w_pow k (by omega)).trans ?_
  have : (k : Rat) ≤ 2000 := by exact_mod_cast h
  norm_num
  linarith

/-- A large number. -/
def big : Rat := 10 ^ 306

theorem big_pos : 0 < big := by unfold big; positivity

theorem pow_big {i : Nat} (h : i ≤ 306) : (10 : Rat) ^ i ≤ big := by
  unfold big; exact pow_le_pow_right₀ (by norm_num) h

theorem one_big : 1 ≤ big := by simpa using pow_big (i := 0) (by norm_num)

theorem ten_big : 10 ≤ big := by simpa using pow_big (i := 1) (by norm_num)

/-- Numbers that are neither close to the largest double nor to the smallest normal one. -/
def Mid (d : Rat) : Prop := d = 0 ∨ (1 / big ≤ d ∧ d ≤ big)

theorem big_two : big ≤ 2 ^ 1020 := by
  unfold big
  rw [show (306 : Nat) = 3 * 102 by norm_num, show (1020 : Nat) = 10 * 102 by norm_num, pow_mul, pow_mul]
  gcongr
  norm_num

/-- A finite nonnegative double that differs from a number by some roundings. -/
def Approx (x : Dbl) (k : Nat) (d : Rat) : Prop :=
  ∃ m q, x = .fin false m q ∧ Canonical m q ∧ Roundings k ((m * 2 ^ q : Nat) / unit) d

theorem roundings_mono {k k' : Nat} {x d : Rat} (h : Roundings k x d) (hk : k ≤ k') (hx : 0 ≤ x) (hd : 0 ≤ d) : Roundings k' x d := by
  rw [roundings_iff] at h ⊢
  have : w ^ k ≤ w ^ k' := pow_le_pow_right₀ w_one hk
  exact ⟨h.1.trans (mul_le_mul_of_nonneg_left this hx), h.2.trans (mul_le_mul_of_nonneg_left this hd)⟩

theorem approx_mono {x : Dbl} {k k' : Nat} {d : Rat} (h : Approx x k d) (hk : k ≤ k') (hd : 0 ≤ d) : Approx x k' d := by
  obtain ⟨m, q, h1, h2, h3⟩ := h
  exact ⟨m, q, h1, h2, roundings_mono h3 hk (div_nonneg (by positivity) unit_pos.le) hd⟩

theorem highest_cast : (highest : Rat) = 2 ^ 1023 * unit := by
  rw [highest_eq, Nat.cast_mul, unit, Nat.cast_pow, Nat.cast_pow, Nat.cast_ofNat]

/-- One rounding. -/
theorem round_step {num den : Nat} (hden : 0 < den) {y : Rat} (hy : (num : Rat) = y * (den * unit)) (h1 : 1 / 2 ^ 1022 ≤ y)
    (h2 : y ≤ 2 ^ 1023) : ∃ m q, round false num den = .fin false m q ∧ Canonical m q ∧ Roundings 1 ((m * 2 ^ q : Nat) / unit) y := by
  have hdq : (0 : Rat) < den := by exact_mod_cast hden
  have hlow : 2 ^ 52 * den ≤ num := by
    have e : (2 : Rat) ^ 52 * den = 1 / 2 ^ 1022 * (den * unit) := by
      unfold unit
      rw [show (1074 : Nat) = 1022 + 52 by norm_num, pow_add]
      have : (2 : Rat) ^ 1022 ≠ 0 := by positivity
      generalize (2 : Rat) ^ 1022 = t at *
      field_simp
    have : (2 : Rat) ^ 52 * den ≤ num := by
      rw [e, hy]
      exact mul_le_mul_of_nonneg_right h1 (mul_pos hdq unit_pos).le
    exact_mod_cast this
  have hhigh : num ≤ highest * den := by
    have : (num : Rat) ≤ ((highest * den : Nat) : Rat) := by
      rw [hy, Nat.cast_mul, highest_cast, mul_assoc, mul_comm unit]
      exact mul_le_mul_of_nonneg_right h2 (mul_pos hdq unit_pos).le
    exact Nat.cast_le.mp this
  obtain ⟨m, q, h3, h4, h5, h6⟩ := round_highest false hden hlow hhigh
  refine ⟨m, q, h3, h4, ?_⟩
  generalize hN : m * 2 ^ q = N at *
  have h5' : (2 : Rat) ^ 53 * (N * den) ≤ (2 ^ 53 + 1) * num := by exact_mod_cast h5
  have h6' : (2 : Rat) ^ 53 * num ≤ (2 ^ 53 + 1) * (N * den) := by exact_mod_cast h6
  rw [roundings_iff, pow_one]
  have hw : w = (2 ^ 53 + 1) / 2 ^ 53 := by unfold w; norm_num
  rw [hy] at h5' h6'
  have hu := unit_pos
  constructor
  · have hu2 : 0 < unit * 2 ^ 53 := mul_pos hu (by norm_num)
    rw [hw, div_mul_div_comm, le_div_iff₀ hu2]
    have : y * (unit * 2 ^ 53) * den ≤ N * (2 ^ 53 + 1) * den := by linarith
    exact le_of_mul_le_mul_right this hdq
  · rw [hw, div_le_iff₀ hu]
    have : (N : Rat) * den * 2 ^ 53 ≤ y * ((2 ^ 53 + 1) / 2 ^ 53) * unit * den * 2 ^ 53 := by
      have e : y * ((2 ^ 53 + 1) / 2 ^ 53) * unit * den * 2 ^ 53 = (2 ^ 53 + 1) * (y * (den * unit)) := by
        field_simp
      rw [e]; linarith
    have := le_of_mul_le_mul_right this (by positivity)
    exact le_of_mul_le_mul_right this hdq

/-- A rounding after some roundings. -/
theorem approx_round {num den : Nat} (hden : 0 < den) {y d : Rat} {k : Nat} (hk : k ≤ 2000) (hd : Mid d) (h : Roundings k y d)
    (hy : (num : Rat) = y * (den * unit)) : Approx (round false num den) (k + 1) d := by
  rw [roundings_iff] at h
  have hwp : (0 : Rat) < w ^ k := pow_pos w_pos _
  have h2 := w_two hk
  rcases hd with e | ⟨ha, hb⟩
  · subst e
    have hy0 : y = 0 := by
      apply le_antisymm
      · simpa using h.2
      · exact nonneg_of_mul_nonneg_left h.1 hwp
    subst hy0
    have : num = 0 := by
      rw [zero_mul] at hy; exact_mod_cast hy
    subst this
    refine ⟨0, 0, ?_, ⟨by norm_num, by norm_num, .inl rfl⟩, ?_⟩
    · have := round_exact false hden (m := 0) (q := 0) ⟨by norm_num, by norm_num, .inl rfl⟩
      simpa using this
    · rw [roundings_iff]; simp
  · have hd0 : 0 < d := lt_of_lt_of_le (one_div_pos.2 big_pos) ha
    have hy0 : 0 < y := by
      by_contra hc
      have : y * w ^ k ≤ 0 := mul_nonpos_of_nonpos_of_nonneg (not_lt.1 hc) hwp.le
      linarith [h.1]
    have hlo : 1 / 2 ^ 1022 ≤ y := by
      have h3 : d ≤ y * 2 := h.1.trans (mul_le_mul_of_nonneg_left h2 hy0.le)
      have h4 : (1 : Rat) / 2 ^ 1020 ≤ 1 / big := one_div_le_one_div_of_le big_pos big_two
      have h5 : (1 : Rat) / 2 ^ 1022 * 4 = 1 / 2 ^ 1020 := by
        rw [show (1022 : Nat) = 1020 + 2 by norm_num, pow_add]
        have : (2 : Rat) ^ 1020 ≠ 0 := by positivity
        generalize (2 : Rat) ^ 1020 = t at *
        field_simp
        norm_num
      have h6 : (0 : Rat) < 1 / 2 ^ 1022 := by positivity
      linarith
    have hhi : y ≤ 2 ^ 1023 := by
      have h3 : y ≤ d * 2 := h.2.trans (mul_le_mul_of_nonneg_left h2 hd0.le)
      have h4 := big_two
      have h5 : (2 : Rat) ^ 1023 = 2 ^ 1020 * 8 := by
        rw [show (1023 : Nat) = 1020 + 3 by norm_num, pow_add]; norm_num
      have h6 : (0 : Rat) < 2 ^ 1020 := by positivity
      rw [h5]
      clear h5 hlo
      generalize (2 : Rat) ^ 1020 = t at *
      linarith
    obtain ⟨m, q, e1, e2, e3⟩ := round_step hden hy hlo hhi
    refine ⟨m, q, e1, e2, ?_⟩
    rw [roundings_iff, pow_one] at e3
    rw [roundings_iff, pow_succ]
    constructor
    · refine h.1.trans ?_
      rw [mul_comm (w ^ k), ← mul_assoc]
      exact mul_le_mul_of_nonneg_right e3.1 hwp.le
    · refine e3.2.trans ?_
      rw [← mul_assoc]
      exact mul_le_mul_of_nonneg_right h.2 w_pos.le

theorem approx_mul {x x' : Dbl} {k k' : Nat} {d d' : Rat} (h : Approx x k d) (h' : Approx x' k' d') (hd : 0 ≤ d) (hd' : 0 ≤ d')
    (hk : k + k' ≤ 2000) (hm : Mid (d * d')) : Approx (mul x x') (k + k' + 1) (d * d') := by
  obtain ⟨m, q, rfl, -, h1⟩ := h
  obtain ⟨m', q', rfl, -, h2⟩ := h'
  rw [roundings_iff] at h1 h2
  simp only [mul, ulps]
  have hX : (0 : Rat) ≤ (m * 2 ^ q : Nat) / unit := div_nonneg (by positivity) unit_pos.le
  have hY : (0 : Rat) ≤ (m' * 2 ^ q' : Nat) / unit := div_nonneg (by positivity) unit_pos.le
  have hw := (pow_pos w_pos k).le
  have hw' := (pow_pos w_pos k').le
  refine approx_round (Nat.two_pow_pos _) hk hm (y := (m * 2 ^ q : Nat) / unit * ((m' * 2 ^ q' : Nat) / unit)) ?_ ?_
  · rw [roundings_iff, pow_add]
    constructor
    · calc d * d' ≤ ((m * 2 ^ q : Nat) / unit * w ^ k) * ((m' * 2 ^ q' : Nat) / unit * w ^ k') :=
            mul_le_mul h1.1 h2.1 hd' (mul_nonneg hX hw)
        _ = _ := by ring
    · calc _ ≤ (d * w ^ k) * (d' * w ^ k') := mul_le_mul h1.2 h2.2 hY (mul_nonneg hd hw)
        _ = _ := by ring
  · have hu := unit_pos.ne'
    rw [Nat.cast_mul, show ((2 ^ 1074 : Nat) : Rat) = unit by unfold unit; exact Nat.cast_pow 2 1074]
    generalize ((m * 2 ^ q : Nat) : Rat) = X
    generalize ((m' * 2 ^ q' : Nat) : Rat) = Y
    field_simp

theorem approx_add {x x' : Dbl} {k : Nat} {d d' : Rat} (h : Approx x k d) (h' : Approx x' k d')
    (hk : k ≤ 2000) (hm : Mid (d + d')) : Approx (add x x') (k + 1) (d + d') := by
  obtain ⟨m, q, rfl, -, h1⟩ := h
  obtain ⟨m', q', rfl, -, h2⟩ := h'
  rw [roundings_iff] at h1 h2
  simp only [add, ulps, if_true]
  refine approx_round one_pos hk hm (y := (m * 2 ^ q : Nat) / unit + ((m' * 2 ^ q' : Nat) / unit)) ?_ ?_
  · rw [roundings_iff, add_mul, add_mul]
    exact ⟨add_le_add h1.1 h2.1, add_le_add h1.2 h2.2⟩
  · have hu := unit_pos.ne'
    rw [Nat.cast_add]
    generalize ((m * 2 ^ q : Nat) : Rat) = X
    generalize ((m' * 2 ^ q' : Nat) : Rat) = Y
    field_simp
    simp

theorem approx_div {x x' : Dbl} {k k' : Nat} {d d' : Rat} (h : Approx x k d) (h' : Approx x' k' d') (hd : 0 ≤ d) (hd' : 0 < d')
    (hk : k + k' ≤ 2000) (hm : Mid (d / d')) : Approx (div x x') (k + k' + 1) (d / d') := by
  obtain ⟨m, q, rfl, -, h1⟩ := h
  obtain ⟨m', q', rfl, -, h2⟩ := h'
  rw [roundings_iff] at h1 h2
  have hw := (pow_pos w_pos k).le
  have hw' := pow_pos w_pos k'
  have hm' : m' ≠ 0 := by
    rintro rfl
    rw [Nat.zero_mul, Nat.cast_zero, zero_div, zero_mul] at h2
    linarith [h2.1]
  simp only [div, ulps, if_neg hm']
  have hX : (0 : Rat) ≤ (m * 2 ^ q : Nat) / unit := div_nonneg (by positivity) unit_pos.le
  have hpos : 0 < m' * 2 ^ q' := Nat.mul_pos (Nat.pos_of_ne_zero hm') (Nat.two_pow_pos _)
  have hYn : (0 : Rat) < (m' * 2 ^ q' : Nat) := by exact_mod_cast hpos
  have hY : (0 : Rat) < (m' * 2 ^ q' : Nat) / unit := div_pos hYn unit_pos
  refine approx_round hpos hk hm (y := (m * 2 ^ q : Nat) / unit / ((m' * 2 ^ q' : Nat) / unit)) ?_ ?_
  · generalize ((m * 2 ^ q : Nat) : Rat) / unit = X at *
    generalize ((m' * 2 ^ q' : Nat) : Rat) / unit = Y at *
    rw [roundings_iff, pow_add]
    constructor
    · rw [div_le_iff₀ hd']
      have e : X / Y * (w ^ k * w ^ k') * d' = X * w ^ k * (w ^ k' * d' / Y) := by ring
      rw [e]
      have : 1 ≤ w ^ k' * d' / Y := by rw [le_div_iff₀ hY]; linarith [h2.2]
      calc d ≤ X * w ^ k * 1 := by linarith [h1.1]
        _ ≤ _ := mul_le_mul_of_nonneg_left this (mul_nonneg hX hw)
    · rw [div_le_iff₀ hY]
      have e : d / d' * (w ^ k * w ^ k') * Y = d * w ^ k * (Y * w ^ k' / d') := by ring
      rw [e]
      have : 1 ≤ Y * w ^ k' / d' := by rw [le_div_iff₀ hd']; linarith [h2.1]
      calc X ≤ d * w ^ k * 1 := by linarith [h1.2]
        _ ≤ _ := mul_le_mul_of_nonneg_left this (mul_nonneg hd hw)
  · have hu := unit_pos.ne'
    rw [Nat.cast_mul, show ((2 ^ 1074 : Nat) : Rat) = unit by unfold unit; exact Nat.cast_pow 2 1074]
    have := hYn.ne'
    generalize ((m * 2 ^ q : Nat) : Rat) = X at *
    generalize ((m' * 2 ^ q' : Nat) : Rat) = Y at *
    field_simp

theorem approx_ofNat (n : Nat) (h : n < 2 ^ 53) : Approx (ofNat n) 0 n := by
  obtain ⟨m, q, h1, h2, h3⟩ := ofNat_fin n h
  refine ⟨m, q, h1, h2, ?_⟩
  rw [h3, Nat.cast_mul, show ((2 ^ 1074 : Nat) : Rat) = unit by unfold unit; exact Nat.cast_pow 2 1074,
    mul_div_cancel_right₀ _ unit_pos.ne', roundings_iff]
  simp

theorem mid_pow {e : Int} (h1 : -306 ≤ e) (h2 : e ≤ 306) : Mid ((10 : Rat) ^ e) := by
  refine .inr ⟨?_, ?_⟩
  · have : (10 : Rat) ^ (-306 : Int) ≤ 10 ^ e := zpow_le_zpow_right₀ (by norm_num) h1
    rw [zpow_neg] at this
    rw [one_div]
    unfold big
    exact_mod_cast this
  · have : (10 : Rat) ^ e ≤ 10 ^ (306 : Int) := zpow_le_zpow_right₀ (by norm_num) h2
    unfold big
    exact_mod_cast this

theorem approx_lit {e : Int} (h1 : -306 ≤ e) (h2 : e ≤ 306) : Approx (conv false 1 e) 1 ((10 : Rat) ^ e) := by
  unfold conv
  have := approx_round (num := 1 * 10 ^ e.toNat * 2 ^ 1074) (den := 10 ^ (-e).toNat) (Nat.pow_pos (by norm_num)) (k := 0)
    (y := (10 : Rat) ^ e) (by norm_num) (mid_pow h1 h2) (by rw [roundings_iff]; simp) ?_
  · exact this
  · rw [Nat.one_mul, Nat.cast_mul, show ((2 ^ 1074 : Nat) : Rat) = unit by unfold unit; exact Nat.cast_pow 2 1074]
    push_cast
    rw [← mul_assoc]
    congr 1
    rw [← zpow_natCast, ← zpow_natCast, ← zpow_add₀ (by norm_num)]
    congr 1
    omega

theorem mid_nat {n : Nat} {b : Nat} (h : (n : Rat) ≤ big * b) (hb : 0 < b) (hb' : (b : Rat) ≤ big) : Mid ((n : Rat) / b) := by
  have hbq : (0 : Rat) < b := by exact_mod_cast hb
  rcases Nat.eq_zero_or_pos n with e | e
  · subst e; exact .inl (by simp)
  · right
    have : (1 : Rat) ≤ n := by exact_mod_cast e
    constructor
    · rw [le_div_iff₀ hbq, div_mul_eq_mul_div, one_mul, div_le_iff₀ big_pos]
      calc (b : Rat) ≤ 1 * big := by rw [one_mul]; exact hb'
        _ ≤ n * big := mul_le_mul_of_nonneg_right this big_pos.le
    · rw [div_le_iff₀ hbq]; exact h

/-- The digits before the point. -/
theorem approx_whole (ds : Bytes) (hds : ∀ c ∈ ds, Digit c) : ∀ (x : Dbl) (k n : Nat), Approx x k n → k + 2 * ds.length ≤ 2000 →
    ((n * 10 ^ ds.length + decimal ds : Nat) : Rat) ≤ big →
    Approx (feed (fun v y => arith.add (arith.mul v (arith.ofNat 10)) (arith.ofNat y)) x ds) (k + 2 * ds.length)
      ((n * 10 ^ ds.length + decimal ds : Nat)) := by
  induction ds with
  | nil => intro x k n h _ _; simpa [feed, decimal] using h
  | cons c ds ih =>
    intro x k n h hk hb
    have hc : Digit c := hds c (by simp)
    have hc9 : c.toNat - 48 < 10 := by
      unfold Digit at hc
      omega
    have e : n * 10 ^ (c :: ds).length + decimal (c :: ds) = (n * 10 + (c.toNat - 48)) * 10 ^ ds.length + decimal ds := by
      simp only [decimal, List.length_cons, Nat.pow_succ]; ring
    rw [e] at hb ⊢
    rw [List.length_cons] at hk ⊢
    have hle : n * 10 + (c.toNat - 48) ≤ (n * 10 + (c.toNat - 48)) * 10 ^ ds.length + decimal ds := by
      have : 1 ≤ 10 ^ ds.length := Nat.one_le_pow _ _ (by norm_num)
      have : (n * 10 + (c.toNat - 48)) * 1 ≤ (n * 10 + (c.toNat - 48)) * 10 ^ ds.length := Nat.mul_le_mul_left _ this
      omega
    have hle' : ((n * 10 + (c.toNat - 48) : Nat) : Rat) ≤ big := le_trans (by exact_mod_cast hle) hb
    have hle2 : ((n * 10 : Nat) : Rat) ≤ big := le_trans (by exact_mod_cast Nat.le_add_right _ _) hle'
    have h10 := one_big
    have m0 := approx_ofNat 10 (by norm_num)
    have m1 : Approx (mul x (ofNat 10)) (k + 0 + 1) ((n : Rat) * (10 : Nat)) := by
      refine approx_mul (k := k) (k' := 0) h m0 (Nat.cast_nonneg n) (Nat.cast_nonneg 10) (by omega) ?_
      have := mid_nat (n := n * 10) (b := 1) (by simpa using hle2) one_pos (by simpa using h10)
      simpa using this
    have m2 : Approx (add (mul x (ofNat 10)) (ofNat (c.toNat - 48))) (k + 0 + 1 + 1) ((n : Rat) * (10 : Nat) + (c.toNat - 48 : Nat)) :=
      approx_add m1 (approx_mono (approx_ofNat _ (by omega)) (by omega) (by positivity)) (by omega) (by
        have := mid_nat (n := n * 10 + (c.toNat - 48)) (b := 1) (by simpa using hle') one_pos (by simpa using h10)
        simpa using this)
    have m3 := ih (fun d hd => hds d (by simp [hd])) _ (k + 0 + 1 + 1) (n * 10 + (c.toNat - 48)) (by
      rw [Nat.cast_add, Nat.cast_mul]; exact m2) (by omega) hb
    rw [show k + 0 + 1 + 1 + 2 * ds.length = k + 2 * (ds.length + 1) by omega] at m3
    rw [feed_cons]
    simp only [arith_add, arith_mul, arith_ofNat] at m3 ⊢
    exact m3

/-- The digits behind the point. -/
theorem approx_fraction (ds : Bytes) (hds : ∀ c ∈ ds, Digit c) : ∀ (x y : Dbl) (k k' n j : Nat), Approx x k (n / (10 ^ j : Nat)) →
    Approx y k' ((10 ^ (j + 1) : Nat)) → k' + 1 ≤ k → k + ds.length ≤ 2000 → j + 1 + ds.length ≤ 306 →
    ((n * 10 ^ ds.length + decimal ds : Nat) : Rat) ≤ big * (10 ^ (j + ds.length) : Nat) →
    Approx (feed (fun (s : Dbl × Dbl) z => (arith.add s.1 (arith.div (arith.ofNat z) s.2), arith.mul s.2 (arith.ofNat 10))) (x, y) ds).1
      (k + ds.length) ((n * 10 ^ ds.length + decimal ds : Nat) / (10 ^ (j + ds.length) : Nat)) := by
  induction ds with
  | nil => intro x y k k' n j h _ _ _ _ _; simpa [feed, decimal] using h
  | cons c ds ih =>
    intro x y k k' n j h h' hkk hk hj hb
    have hc : Digit c := hds c (by simp)
    have hc9 : c.toNat - 48 < 10 := by
      unfold Digit at hc
      omega
    have e : n * 10 ^ (c :: ds).length + decimal (c :: ds) = (n * 10 + (c.toNat - 48)) * 10 ^ ds.length + decimal ds := by
      simp only [decimal, List.length_cons, Nat.pow_succ]; ring
    rw [e] at hb ⊢
    rw [List.length_cons] at hk hj hb ⊢
    rw [show j + (ds.length + 1) = j + 1 + ds.length by omega] at hb ⊢
    have hpow : ∀ i : Nat, i ≤ 306 → ((10 ^ i : Nat) : Rat) ≤ big := by
      intro i hi
      rw [Nat.cast_pow]
      exact pow_big hi
    have hpp : ∀ i : Nat, (0 : Rat) < (10 ^ i : Nat) := by intro i; rw [Nat.cast_pow]; positivity
    have h306 := one_big
    have h306' := ten_big
    -- the new sum
    have hle' : ((n * 10 + (c.toNat - 48) : Nat) : Rat) ≤ big * (10 ^ (j + 1) : Nat) := by
      have h1 : (((n * 10 + (c.toNat - 48)) * 10 ^ ds.length : Nat) : Rat) ≤ big * (10 ^ (j + 1 + ds.length) : Nat) :=
        le_trans (by exact_mod_cast Nat.le_add_right _ _) hb
      rw [Nat.pow_add 10 (j + 1), Nat.cast_mul, Nat.cast_mul (10 ^ (j + 1)), ← mul_assoc] at h1
      exact le_of_mul_le_mul_right h1 (hpp _)
    have mx : Mid (((c.toNat - 48 : Nat) : Rat) / (10 ^ (j + 1) : Nat)) := by
      apply mid_nat
      · have h1 : ((c.toNat - 48 : Nat) : Rat) ≤ 10 := by exact_mod_cast hc9.le
        have h2 : (1 : Rat) ≤ (10 ^ (j + 1) : Nat) := by exact_mod_cast Nat.one_le_pow _ _ (by norm_num)
        calc _ ≤ (10 : Rat) := h1
          _ ≤ big := h306'
          _ = big * 1 := (mul_one _).symm
          _ ≤ _ := mul_le_mul_of_nonneg_left h2 big_pos.le
      · positivity
      · exact hpow _ (by omega)
    have m1 : Approx (div (ofNat (c.toNat - 48)) y) (0 + k' + 1) ((c.toNat - 48 : Nat) / (10 ^ (j + 1) : Nat)) :=
      approx_div (approx_ofNat _ (by omega)) h' (by positivity) (hpp _) (by omega) mx
    have hsum : (n : Rat) / (10 ^ j : Nat) + (c.toNat - 48 : Nat) / (10 ^ (j + 1) : Nat) = (n * 10 + (c.toNat - 48) : Nat) / (10 ^ (j + 1) : Nat) := by
      have := (hpp j).ne'
      rw [Nat.pow_succ, Nat.cast_mul, Nat.cast_add, Nat.cast_mul]
      generalize ((10 ^ j : Nat) : Rat) = t at *
      push_cast
      field_simp
    have m2 : Approx (add x (div (ofNat (c.toNat - 48)) y)) (k + 1) ((n * 10 + (c.toNat - 48) : Nat) / (10 ^ (j + 1) : Nat)) := by
      rw [← hsum]
      refine approx_add h (approx_mono m1 (by omega) (div_nonneg (by positivity) (hpp _).le)) (by omega) ?_
      rw [hsum]
      exact mid_nat hle' (by positivity) (hpow _ (by omega))
    have m0 := approx_ofNat 10 (by norm_num)
    have m3 : Approx (mul y (ofNat 10)) (k' + 0 + 1) ((10 ^ (j + 1 + 1) : Nat)) := by
      rw [Nat.pow_succ, Nat.cast_mul]
      refine approx_mul (k := k') (k' := 0) h' m0 (hpp _).le (Nat.cast_nonneg 10) (by omega) ?_
      rw [← Nat.cast_mul, ← Nat.pow_succ]
      have := mid_nat (n := 10 ^ (j + 1 + 1)) (b := 1) (by simpa using hpow (j + 1 + 1) (by omega)) one_pos (by simpa using h306)
      simpa using this
    have m4 := ih (fun d hd => hds d (by simp [hd])) _ _ (k + 1) (k' + 0 + 1) (n * 10 + (c.toNat - 48)) (j + 1) m2 m3 (by omega)
      (by omega) (by omega) hb
    rw [show k + 1 + ds.length = k + (ds.length + 1) by omega] at m4
    rw [feed_cons]
    simp only [arith_add, arith_mul, arith_ofNat, arith_div] at m4 ⊢
    exact m4

theorem decimal_lt (l : Bytes) (h : ∀ c ∈ l, Digit c) : decimal l < 10 ^ l.length := by
  induction l with
  | nil => simp [decimal]
  | cons c l ih =>
    have hc : Digit c := h c (by simp)
    have := ih fun d hd => h d (by simp [hd])
    unfold Digit at hc
    have h9 : c.toNat - 48 ≤ 9 := by omega
    have := Nat.mul_le_mul_right (10 ^ l.length) h9
    rw [decimal, List.length_cons, Nat.pow_succ]
    omega

/-- The digits before and behind the point. -/
theorem approx_digits {ip fp : Bytes} (hi : ∀ c ∈ ip, Digit c) (hf : ∀ c ∈ fp, Digit c) (hne : ip ≠ []) (hil : ip.length ≤ 306)
    (hfl : fp.length ≤ 305) :
    Approx (feed (fun (s : Dbl × Dbl) z => (arith.add s.1 (arith.div (arith.ofNat z) s.2), arith.mul s.2 (arith.ofNat 10)))
      (feed (fun v y => arith.add (arith.mul v (arith.ofNat 10)) (arith.ofNat y)) (arith.ofNat 0) ip, arith.ofNat 10) fp).1
      (2 * ip.length + fp.length) ((decimal (ip ++ fp) : Nat) / (10 ^ fp.length : Nat)) := by
  have hne' : 0 < ip.length := List.length_pos_iff.2 hne
  have hb : ((decimal ip : Nat) : Rat) ≤ 10 ^ ip.length := by exact_mod_cast (decimal_lt ip hi).le
  have h1 := approx_whole ip hi (ofNat 0) 0 0 (approx_ofNat 0 (by norm_num)) (by omega) (by
    rw [Nat.zero_mul, Nat.zero_add]
    exact hb.trans (pow_big hil))
  rw [Nat.zero_mul, Nat.zero_add, Nat.zero_add] at h1
  have hfin : decimal ip * 10 ^ fp.length + decimal fp = decimal (ip ++ fp) := (decimal_append ip fp).symm
  have h2 := approx_fraction fp hf _ (ofNat 10) (2 * ip.length) 0 (decimal ip) 0 (by
    rw [Nat.pow_zero, Nat.cast_one, div_one]; exact h1) (by
    rw [Nat.zero_add, Nat.pow_one]; exact approx_ofNat 10 (by norm_num)) (by omega) (by omega) (by omega) (by
    rw [hfin, Nat.zero_add]
    have h3 := (decimal_lt (ip ++ fp) (by
      intro c hc
      rcases List.mem_append.1 hc with h | h
      · exact hi c h
      · exact hf c h)).le
    rw [List.length_append] at h3
    have h4 : ((decimal (ip ++ fp) : Nat) : Rat) ≤ 10 ^ (ip.length + fp.length) := by exact_mod_cast h3
    rw [pow_add] at h4
    refine h4.trans ?_
    rw [Nat.cast_pow, Nat.cast_ofNat]
    exact mul_le_mul_of_nonneg_right (pow_big hil) (by positivity))
  rw [hfin, Nat.zero_add] at h2
  rw [arith_ofNat] at h2 ⊢
  exact h2

/-- The whole number. -/
theorem approx_value {ip fp : Bytes} {e : Option Int} (hi : ∀ c ∈ ip, Digit c) (hf : ∀ c ∈ fp, Digit c) (hne : ip ≠ [])
    (hil : ip.length ≤ 306) (hfl : fp.length ≤ 305) (h1 : -306 ≤ e.getD 0) (h2 : e.getD 0 ≤ 306)
    (hd : Mid ((decimal (ip ++ fp) : Rat) * 10 ^ (e.getD 0 - fp.length))) :
    Approx (valueOf arith ip fp e) (2 * ip.length + fp.length + 2) ((decimal (ip ++ fp) : Rat) * 10 ^ (e.getD 0 - fp.length)) := by
  have h3 := approx_digits hi hf hne hil hfl
  unfold valueOf
  dsimp only
  generalize (feed (fun (s : Dbl × Dbl) z => (arith.add s.1 (arith.div (arith.ofNat z) s.2), arith.mul s.2 (arith.ofNat 10)))
      (feed (fun v y => arith.add (arith.mul v (arith.ofNat 10)) (arith.ofNat y)) (arith.ofNat 0) ip, arith.ofNat 10) fp).1 = v at h3 ⊢
  have hp : (0 : Rat) < (10 ^ fp.length : Nat) := by rw [Nat.cast_pow]; positivity
  have hq : (0 : Rat) ≤ (decimal (ip ++ fp) : Nat) / (10 ^ fp.length : Nat) := div_nonneg (Nat.cast_nonneg _) hp.le
  have e1 : (decimal (ip ++ fp) : Rat) * 10 ^ (e.getD 0 - fp.length) = (decimal (ip ++ fp) : Nat) / (10 ^ fp.length : Nat) * 10 ^ e.getD 0 := by
    rw [zpow_sub₀ (by norm_num), zpow_natCast, Nat.cast_pow, Nat.cast_ofNat]
    ring
  rw [e1] at hd ⊢
  cases e with
  | none =>
    simp only [Option.getD_none, zpow_zero, mul_one, applyExp]
    exact approx_mono h3 (by omega) hq
  | some e =>
    simp only [Option.getD_some] at h1 h2 hd ⊢
    simp only [applyExp, power]
    rw [if_neg (by omega), if_neg (by omega)]
    exact approx_mul (k := 2 * ip.length + fp.length) (k' := 1) h3 (approx_lit h1 h2) hq (zpow_nonneg (by norm_num) _) (by omega) hd

/-- The value of an approximation. -/
theorem approx_get {x : Dbl} {k : Nat} {d : Rat} (h : Approx x k d) : ∃ v, value x = some v ∧ Roundings k v d := by
  obtain ⟨m, q, rfl, -, h3⟩ := h
  refine ⟨_, rfl, ?_⟩
  rw [if_neg (by simp), one_mul]
  rw [Nat.cast_mul, Nat.cast_pow, Nat.cast_ofNat, unit] at h3
  exact h3

end Verif.B64
