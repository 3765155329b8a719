import Verif.Lemmas.Binary32
import Verif.Model.MathFns

/-!
# Lemmas about the rounding tricks of `Floor` and `Ceil`
-/

namespace Verif.MathFns

open Verif Verif.B32 Verif.Spec.F32

/-- Rounding to multiples of `2^t`. -/
theorem step {n v : Int} {t : Nat} (h : Rounded n v) (h1 : 2 ^ (23 + t) ≤ n.natAbs) (h2 : n.natAbs ≤ 2 ^ (24 + t)) :
    ((2 ^ t : Nat) : Int) ∣ v ∧ 2 * (v - n).natAbs ≤ 2 ^ t := by
  by_cases he : n.natAbs = 2 ^ (24 + t)
  · obtain rfl := rounded_exact h (c := 2 ^ 24) (j := t) (by rw [he, Nat.pow_add]) (Nat.le_refl _)
    refine ⟨Int.ofNat_dvd_left.2 ?_, by rw [Int.sub_self]; exact Nat.zero_le _⟩
    rw [he]; exact Nat.pow_dvd_pow 2 (by omega)
  · obtain ⟨k, r1, r2, r3, r4⟩ := h
    have hk1 := (Nat.pow_lt_pow_iff_right (by decide)).1 (Nat.lt_of_le_of_lt h1 r4)
    have hk2 : k = 0 ∨ k + 23 < 24 + t := by
      rcases r3 with h | h
      · exact .inl h
      · right
        exact (Nat.pow_lt_pow_iff_right (by decide)).1 (Nat.lt_of_le_of_lt h (Nat.lt_of_le_of_ne h2 he))
    obtain rfl : k = t := by omega
    exact ⟨Int.ofNat_dvd_left.2 r1, r2⟩

/-- Multiples of `2^t` with few bits are not changed. -/
theorem exact_step {n v : Int} {t : Nat} (h : Rounded n v) (h1 : ((2 ^ t : Nat) : Int) ∣ n) (h2 : n.natAbs ≤ 2 ^ (24 + t)) : v = n := by
  obtain ⟨c, hc⟩ := Int.ofNat_dvd_left.1 h1
  rw [Nat.mul_comm] at hc
  refine rounded_exact h hc ?_
  rw [hc, Nat.pow_add] at h2
  exact Nat.le_of_mul_le_mul_right h2 (Nat.two_pow_pos t)

/-- Half a unit, a unit, and `2^23` units. -/
def H : Nat := 2 ^ 148
def T : Nat := 2 ^ 172

theorem unit_eq : unit = 2 * H := by decide +kernel
theorem T_eq : T = 2 ^ 24 * H := by decide +kernel
theorem T_unit : T = 2 ^ 23 * unit := by decide +kernel
theorem H_pos : 0 < H := by decide +kernel
theorem T_pow : T = 2 ^ (23 + 149) := rfl
theorem T_pow' : 2 * T = 2 ^ (24 + 149) := by decide +kernel
theorem T_half : T = 2 ^ (24 + 148) := rfl
theorem unit_pow : unit = 2 ^ 149 := rfl
theorem H_pow : H = 2 ^ 148 := rfl
theorem T_room : 2 ^ 26 * T ≤ 2 ^ 276 := by decide +kernel

theorem finite_two23 : Finite two23 := ⟨false, 2 ^ 23, 149, by decide, by decide, by decide, .inr (by decide)⟩
theorem val_two23 : val two23 = T := by decide +kernel
theorem finite_one : Finite one := ⟨false, 2 ^ 23, 126, by decide, by decide, by decide, .inr (by decide)⟩
theorem val_one : val one = unit := by decide +kernel
theorem finite_zero : Finite zero := ⟨false, 0, 0, by decide, by decide, by decide, .inl rfl⟩
theorem val_zero : val zero = 0 := by decide +kernel

/-- Bounds on multiples. -/
theorem mult_le {a d : Nat} {v : Int} (hd : (d : Int) ∣ v) (h : 2 * v < 2 * ((a * d : Nat) : Int) + 2 * d) : v ≤ (a * d : Nat) := by
  obtain ⟨c, rfl⟩ := hd
  rw [Int.natCast_mul] at *
  by_cases h0 : d = 0
  · subst h0; omega
  have h1 : (d : Int) * c < d * (a + 1) := by rw [Int.mul_add, Int.mul_one, Int.mul_comm _ (a : Int)]; omega
  have := Int.lt_of_mul_lt_mul_left h1 (by omega)
  rw [Int.mul_comm (a : Int)]
  exact Int.mul_le_mul_of_nonneg_left (by omega) (by omega)

theorem le_mult {a d : Nat} {v : Int} (hd : (d : Int) ∣ v) (h : 2 * ((a * d : Nat) : Int) < 2 * v + 2 * d) : ((a * d : Nat) : Int) ≤ v := by
  obtain ⟨c, rfl⟩ := hd
  rw [Int.natCast_mul] at *
  by_cases h0 : d = 0
  · subst h0; omega
  have h1 : (d : Int) * a < d * (c + 1) := by rw [Int.mul_add, Int.mul_one, Int.mul_comm _ (a : Int)]; omega
  have := Int.lt_of_mul_lt_mul_left h1 (by omega)
  rw [Int.mul_comm (a : Int)]
  exact Int.mul_le_mul_of_nonneg_left (by omega) (by omega)

theorem add_T {x : Flt} (hx : Finite x) (h : (val x).natAbs ≤ 2 * T) : Finite (add x two23) ∧ Rounded (val x + T) (val (add x two23)) := by
  have := add_spec hx finite_two23 (by have := T_room; rw [val_two23]; omega)
  rwa [val_two23] at this

theorem sub_T {x : Flt} (hx : Finite x) (h : (val x).natAbs ≤ 2 * T) : Finite (sub x two23) ∧ Rounded (val x - T) (val (sub x two23)) := by
  have := sub_spec hx finite_two23 (by have := T_room; rw [val_two23]; omega)
  rwa [val_two23] at this

theorem dvd_T : (unit : Int) ∣ (T : Int) := by rw [T_unit]; exact Int.natCast_dvd_natCast.2 (Nat.dvd_mul_left _ _)
theorem dvd_T' : (H : Int) ∣ (T : Int) := by rw [T_eq]; exact Int.natCast_dvd_natCast.2 (Nat.dvd_mul_left _ _)

/-- `r` is an integer near `v`. -/
structure Near (v r : Flt) : Prop where
  fin : Finite r
  int : (unit : Int) ∣ val r
  dist : (val r - val v).natAbs < unit
  le : (val r).natAbs ≤ T

theorem near_positive {v : Flt} (hv : Finite v) (h0 : 0 ≤ val v) (h1 : val v ≤ T) : Near v (nearPositive v) ∧
    2 * (val (nearPositive v) - val v).natAbs ≤ unit := by
  obtain ⟨a1, a2⟩ := add_T hv (by omega)
  obtain ⟨a3, a4⟩ := step (t := 149) a2 (by rw [← T_pow]; omega) (by rw [← T_pow']; omega)
  rw [← unit_pow] at a3 a4
  have hu : 0 < unit := by have := H_pos; have := unit_eq; omega
  have a5 : (T : Int) ≤ val (add v two23) := by
    rw [T_unit]; refine le_mult a3 ?_; rw [← T_unit]; omega
  have a6 : val (add v two23) ≤ (2 * T : Nat) := by
    rw [T_unit, ← Nat.mul_assoc]; refine mult_le a3 ?_; rw [Nat.mul_assoc, ← T_unit]; omega
  obtain ⟨b1, b2⟩ := sub_T a1 (by omega)
  have b3 := exact_step (t := 149) b2 (Int.dvd_sub a3 dvd_T) (by rw [← T_pow']; omega)
  have e : nearPositive v = sub (add v two23) two23 := rfl
  rw [← e] at b1 b3
  exact ⟨⟨b1, by rw [b3]; exact Int.dvd_sub a3 dvd_T, by omega, by omega⟩, by omega⟩

theorem near_negative {v : Flt} (hv : Finite v) (h0 : -(T : Int) ≤ val v) (h1 : val v ≤ 0) : Near v (nearNegative v) ∧
    2 * (val (nearNegative v) - val v).natAbs ≤ unit := by
  obtain ⟨a1, a2⟩ := sub_T hv (by omega)
  obtain ⟨a3, a4⟩ := step (t := 149) a2 (by rw [← T_pow]; omega) (by rw [← T_pow']; omega)
  rw [← unit_pow] at a3 a4
  have hu : 0 < unit := by have := H_pos; have := unit_eq; omega
  have a3' : (unit : Int) ∣ - val (sub v two23) := Int.dvd_neg.2 a3
  have a5 : (T : Int) ≤ - val (sub v two23) := by
    rw [T_unit]; refine le_mult a3' ?_; rw [← T_unit]; omega
  have a6 : - val (sub v two23) ≤ (2 * T : Nat) := by
    rw [T_unit, ← Nat.mul_assoc]; refine mult_le a3' ?_; rw [Nat.mul_assoc, ← T_unit]; omega
  obtain ⟨b1, b2⟩ := add_T a1 (by omega)
  have b3 := exact_step (t := 149) b2 (Int.dvd_add a3 dvd_T) (by rw [← T_pow']; omega)
  have e : nearNegative v = add (sub v two23) two23 := rfl
  rw [← e] at b1 b3
  exact ⟨⟨b1, by rw [b3]; exact Int.dvd_add a3 dvd_T, by omega, by omega⟩, by omega⟩

/-- The first half of `nearBoth` for positive numbers. -/
theorem near_first {v : Flt} (hv : Finite v) (h0 : 0 ≤ val v) (h1 : val v ≤ T) :
    Finite (nearNegative v) ∧ 0 ≤ val (nearNegative v) ∧ val (nearNegative v) ≤ T ∧
      2 * (val (nearNegative v) - val v).natAbs ≤ H := by
  have hh := T_eq
  have hp := H_pos
  obtain ⟨a1, a2⟩ := sub_T hv (by omega)
  have e : nearNegative v = add (sub v two23) two23 := rfl
  by_cases hc : 2 * val v ≤ T
  · obtain ⟨a3, a4⟩ := step (t := 148) a2 (by rw [show 2 ^ (23 + 148) = 2 ^ 23 * H from rfl]; omega) (by rw [← T_half]; omega)
    rw [← H_pow] at a3 a4
    have a3' : (H : Int) ∣ - val (sub v two23) := Int.dvd_neg.2 a3
    have a5 : - val (sub v two23) ≤ (T : Nat) := by
      rw [T_eq]; refine mult_le a3' ?_; rw [← T_eq]; omega
    obtain ⟨b1, b2⟩ := add_T a1 (by omega)
    have b3 := exact_step (t := 148) b2 (Int.dvd_add a3 dvd_T') (by rw [← T_half]; omega)
    rw [← e] at b1 b3
    exact ⟨b1, by omega, by omega, by omega⟩
  · have d : (H : Int) ∣ val v := large_dvd hv (t := 148) (by rw [show 2 ^ (23 + 148) = 2 ^ 23 * H from rfl]; omega)
    have a3 := exact_step (t := 148) a2 (Int.dvd_sub d dvd_T') (by rw [← T_half]; omega)
    obtain ⟨b1, b2⟩ := add_T a1 (by omega)
    rw [a3, Int.sub_add_cancel] at b2
    have b3 := exact_step (t := 148) b2 d (by rw [← T_half]; omega)
    rw [← e] at b1 b3
    exact ⟨b1, by omega, by omega, by omega⟩

theorem near_both {v : Flt} (hv : Finite v) (h : (val v).natAbs ≤ T) : Near v (nearBoth v) := by
  have e : nearBoth v = nearPositive (nearNegative v) := rfl
  have hp := H_pos
  have hu := unit_eq
  have ht := T_unit
  rw [e]
  by_cases h0 : 0 ≤ val v
  · obtain ⟨a1, a2, a3, a4⟩ := near_first hv h0 (by omega)
    obtain ⟨b1, b2⟩ := near_positive a1 a2 a3
    exact ⟨b1.fin, b1.int, by omega, b1.le⟩
  · obtain ⟨a1, a2⟩ := near_negative hv (by omega) (by omega)
    have e' : nearPositive (nearNegative v) = sub (add (nearNegative v) two23) two23 := rfl
    have hl := a1.le
    obtain ⟨b1, b2⟩ := add_T a1.fin (by omega)
    have b3 := exact_step (t := 149) b2 (Int.dvd_add a1.int dvd_T) (by rw [← T_pow']; omega)
    obtain ⟨c1, c2⟩ := sub_T b1 (by omega)
    rw [b3, Int.add_sub_cancel] at c2
    have c3 := exact_step (t := 149) c2 a1.int (by rw [← T_pow']; omega)
    rw [← e'] at c1 c3
    exact ⟨c1, by rw [c3]; exact a1.int, by omega, by omega⟩

theorem down_floor {v r : Flt} (hv : Finite v) (h : Near v r) : IsFloor v (down v r) := by
  obtain ⟨h1, h2, h3, h4⟩ := h
  have ht := T_unit
  have hr := T_room
  unfold down
  rw [lt_spec hv h1]
  by_cases hlt : val v < val r
  · rw [if_pos (by simpa using hlt)]
    obtain ⟨a1, a2⟩ := sub_spec h1 finite_one (by rw [val_one]; omega)
    rw [val_one] at a2
    have hd : (unit : Int) ∣ val r - unit := Int.dvd_sub h2 (Int.dvd_refl _)
    have a3 := exact_step (t := 149) a2 hd (by rw [← T_pow']; omega)
    refine ⟨a1, ?_⟩
    obtain ⟨c, hc⟩ := hd
    refine ⟨c, ?_, ?_, ?_⟩
    · rw [a3, hc, Int.mul_comm]
    · rw [Int.mul_comm, ← hc]; omega
    · rw [Int.add_mul, Int.one_mul, Int.mul_comm, ← hc]; omega
  · rw [if_neg (by simpa using hlt)]
    obtain ⟨a1, a2⟩ := sub_spec h1 finite_zero (by rw [val_zero]; omega)
    rw [val_zero, Int.sub_zero] at a2
    have a3 := exact_step (t := 149) a2 h2 (by rw [← T_pow']; omega)
    refine ⟨a1, ?_⟩
    obtain ⟨c, hc⟩ := h2
    refine ⟨c, ?_, ?_, ?_⟩
    · rw [a3, hc, Int.mul_comm]
    · rw [Int.mul_comm, ← hc]; omega
    · rw [Int.add_mul, Int.one_mul, Int.mul_comm, ← hc]; omega

theorem up_ceil {v r : Flt} (hv : Finite v) (h : Near v r) : IsCeil v (up v r) := by
  obtain ⟨h1, h2, h3, h4⟩ := h
  have ht := T_unit
  have hr := T_room
  unfold up
  rw [lt_spec h1 hv]
  by_cases hlt : val r < val v
  · rw [if_pos (by simpa using hlt)]
    obtain ⟨a1, a2⟩ := add_spec h1 finite_one (by rw [val_one]; omega)
    rw [val_one] at a2
    have hd : (unit : Int) ∣ val r + unit := Int.dvd_add h2 (Int.dvd_refl _)
    have a3 := exact_step (t := 149) a2 hd (by rw [← T_pow']; omega)
    refine ⟨a1, ?_⟩
    obtain ⟨c, hc⟩ := hd
    refine ⟨c, ?_, ?_, ?_⟩
    · rw [a3, hc, Int.mul_comm]
    · rw [Int.sub_mul, Int.one_mul, Int.mul_comm, ← hc]; omega
    · rw [Int.mul_comm, ← hc]; omega
  · rw [if_neg (by simpa using hlt)]
    obtain ⟨a1, a2⟩ := add_spec h1 finite_zero (by rw [val_zero]; omega)
    rw [val_zero, Int.add_zero] at a2
    have a3 := exact_step (t := 149) a2 h2 (by rw [← T_pow']; omega)
    refine ⟨a1, ?_⟩
    obtain ⟨c, hc⟩ := h2
    refine ⟨c, ?_, ?_, ?_⟩
    · rw [a3, hc, Int.mul_comm]
    · rw [Int.sub_mul, Int.one_mul, Int.mul_comm, ← hc]; omega
    · rw [Int.mul_comm, ← hc]; omega

/-- Large floats are integers. -/
theorem large_int {v : Flt} (hv : Finite v) (h : T ≤ (val v).natAbs) : IsFloor v v ∧ IsCeil v v := by
  have hp := H_pos
  have hu := unit_eq
  obtain ⟨c, hc⟩ := large_dvd hv (t := 149) (by rw [← T_pow]; exact h)
  rw [← unit_pow] at hc
  refine ⟨⟨hv, c, by rw [hc, Int.mul_comm], ?_, ?_⟩, ⟨hv, c, by rw [hc, Int.mul_comm], ?_, ?_⟩⟩
  · rw [hc, Int.mul_comm]; exact Int.le_refl _
  · rw [Int.add_mul, Int.mul_comm, ← hc]; omega
  · rw [Int.sub_mul, Int.mul_comm, ← hc]; omega
  · rw [hc, Int.mul_comm]; exact Int.le_refl _

theorem fabs_spec {v : Flt} (hv : Finite v) : Finite (fabs v) ∧ val (fabs v) = (val v).natAbs := by
  obtain ⟨s, m, q, rfl, hc⟩ := hv
  refine ⟨⟨false, m, q, rfl, hc⟩, ?_⟩
  rw [val_natAbs]; rfl

/-! ## Results with the same value -/

theorem isFloor_unique {v r r' : Flt} (h : IsFloor v r) (h' : IsFloor v r') : val r = val r' := by
  obtain ⟨-, n, a1, a2, a3⟩ := h
  obtain ⟨-, n', b1, b2, b3⟩ := h'
  have hu : 0 < unit := by have := H_pos; have := unit_eq; omega
  have c1 := Int.lt_of_mul_lt_mul_right (Int.lt_of_le_of_lt a2 b3) (by omega)
  have c2 := Int.lt_of_mul_lt_mul_right (Int.lt_of_le_of_lt b2 a3) (by omega)
  rw [a1, b1, show n = n' by omega]

theorem floor_same {v r : Flt} (n : Near v r) (h : IsFloor v (sub r zero)) : IsFloor v r := by
  have hl := n.le
  have ht := T_room
  obtain ⟨a1, a2⟩ := sub_spec n.fin finite_zero (by rw [val_zero]; omega)
  rw [val_zero, Int.sub_zero] at a2
  have a3 := exact_step (t := 149) a2 n.int (by rw [← T_pow']; omega)
  obtain ⟨-, k, b1, b2, b3⟩ := h
  exact ⟨n.fin, k, by rw [← a3, b1], b2, b3⟩

theorem ceil_same {v r : Flt} (n : Near v r) (h : IsCeil v (add r zero)) : IsCeil v r := by
  have hl := n.le
  have ht := T_room
  obtain ⟨a1, a2⟩ := add_spec n.fin finite_zero (by rw [val_zero]; omega)
  rw [val_zero, Int.add_zero] at a2
  have a3 := exact_step (t := 149) a2 n.int (by rw [← T_pow']; omega)
  obtain ⟨-, k, b1, b2, b3⟩ := h
  exact ⟨n.fin, k, by rw [← a3, b1], b2, b3⟩

/-! ## Fractions -/

theorem unit_room : unit ≤ 2 ^ 276 := by decide +kernel

theorem frac_exact {v r : Flt} (hv : Finite v) (h0 : 0 ≤ val v) (h : IsFloor v r) :
    Finite (sub v r) ∧ 0 ≤ val (sub v r) ∧ val (sub v r) < unit ∧ (unit : Int) ∣ val v - val (sub v r) := by
  obtain ⟨hr, n, a1, a2, a3⟩ := h
  have hu : 0 < unit := by have := H_pos; have := unit_eq; omega
  have hm := unit_room
  rw [Int.add_mul, Int.one_mul, ← a1] at a3
  rw [← a1] at a2
  obtain ⟨b1, b2⟩ := sub_spec hv hr (by omega)
  have hn0 : 0 ≤ val r := by
    rw [a1]
    refine Int.mul_nonneg ?_ (by omega)
    have : (0 : Int) * unit < (n + 1) * unit := by rw [Int.add_mul, Int.one_mul, ← a1]; omega
    have := Int.lt_of_mul_lt_mul_right this (by omega)
    omega
  have b3 : val (sub v r) = val v - val r := by
    obtain ⟨s, m, q, rfl, hc⟩ := hv
    have e := val_natAbs s m q
    by_cases hq : q ≤ 149
    · have hd : ((2 ^ q : Nat) : Int) ∣ val (.fin s m q) - val r := by
        refine Int.dvd_sub (Int.ofNat_dvd_left.2 (by rw [e]; exact Nat.dvd_mul_left _ _)) ?_
        rw [a1, unit_pow]
        exact Int.dvd_trans (Int.natCast_dvd_natCast.2 (Nat.pow_dvd_pow 2 hq)) (Int.dvd_mul_left _ _)
      refine exact_step b2 hd ?_
      have : m * 2 ^ q ≤ 2 ^ 24 * 2 ^ q := Nat.mul_le_mul_right _ (Nat.le_of_lt hc.1)
      rw [Nat.pow_add]; omega
    · have hd : (unit : Int) ∣ val (.fin s m q) - val r := by
        refine Int.dvd_sub (Int.ofNat_dvd_left.2 ?_) (by rw [a1]; exact Int.dvd_mul_left _ _)
        rw [e, unit_pow]; exact Nat.dvd_trans (Nat.pow_dvd_pow 2 (show 149 ≤ q by omega)) (Nat.dvd_mul_left _ _)
      have hz : (val (.fin s m q) - val r).natAbs = 0 :=
        Nat.eq_zero_of_dvd_of_lt (Int.ofNat_dvd_left.1 hd) (by omega)
      refine exact_step (t := 0) b2 (by rw [show val (.fin s m q) - val r = 0 by omega]; exact Int.dvd_zero _) (by omega)
  refine ⟨b1, by omega, by omega, ?_⟩
  rw [b3, Int.sub_sub_self, a1]
  exact Int.dvd_mul_left _ _

theorem frac_rounded {v r : Flt} (hv : Finite v) (h : IsFloor v r) :
    Finite (sub v r) ∧ 0 ≤ val (sub v r) ∧ val (sub v r) ≤ unit ∧
      ∃ n : Int, (unit : Int) ∣ val v - n ∧ 0 ≤ n ∧ n < unit ∧ 2 ^ 25 * (val (sub v r) - n).natAbs ≤ unit := by
  obtain ⟨hr, n, a1, a2, a3⟩ := h
  have hm := unit_room
  rw [Int.add_mul, Int.one_mul, ← a1] at a3
  rw [← a1] at a2
  obtain ⟨b1, b2⟩ := sub_spec hv hr (by omega)
  have hd : (unit : Int) ∣ val v - (val v - val r) := by
    rw [Int.sub_sub_self, a1]
    exact Int.dvd_mul_left _ _
  have key : 2 ^ 25 * (val (sub v r) - (val v - val r)).natAbs ≤ unit := by
    obtain ⟨k, c1, c2, c3, c4⟩ := b2
    by_cases hk : k ≤ 125
    · have : 2 ^ k ≤ 2 ^ 125 := Nat.pow_le_pow_right (by decide) hk
      have hu : unit = 2 ^ 24 * 2 ^ 125 := by decide +kernel
      generalize 2 ^ 125 = a at *
      omega
    · exfalso
      have : 2 ^ 149 ≤ 2 ^ (k + 23) := Nat.pow_le_pow_right (by decide) (by omega)
      rw [← unit_pow] at this
      omega
  have w0 : 0 ≤ val v - val r := by omega
  have w1 : val v - val r < unit := by omega
  generalize val v - val r = w at *
  have hb : 0 ≤ val (sub v r) ∧ val (sub v r) ≤ unit := by
    have c : Rounded w (val (sub v r)) := b2
    have hu := unit_pow
    obtain ⟨k, c1, c2, c3, c4⟩ := b2
    have hk : k ≤ 149 := by
      rcases c3 with h | h
      · omega
      · refine Nat.le_of_not_lt fun hk => ?_
        have : 2 ^ 149 ≤ 2 ^ (k + 23) := Nat.pow_le_pow_right (by decide) (by omega)
        rw [← unit_pow] at this
        omega
    obtain ⟨a, ha⟩ := Int.ofNat_dvd_left.2 c1
    obtain ⟨b, hb⟩ := Nat.pow_dvd_pow 2 hk
    have hp := Nat.two_pow_pos k
    rw [hb] at hu
    generalize 2 ^ k = d at *
    refine ⟨?_, ?_⟩
    · have : (0 : Nat) * d ≤ val (sub v r) := by
        refine le_mult ⟨a, ha⟩ ?_
        omega
      omega
    · have : val (sub v r) ≤ (b * d : Nat) := by
        refine mult_le ⟨a, ha⟩ ?_
        rw [Nat.mul_comm, ← hu]; omega
      rw [hu, Nat.mul_comm]; exact this
  exact ⟨b1, hb.1, hb.2, w, hd, by omega, by omega, key⟩

/-! ## Order -/

theorem Le.refl {x : Flt} (h : x ≠ .nan) : Le x x := by
  cases x with
  | fin s m q => exact Int.le_refl _
  | inf s => cases s <;> trivial
  | nan => exact absurd rfl h

theorem Le.trans {x y z : Flt} (h1 : Le x y) (h2 : Le y z) : Le x z := by
  cases x with
  | nan => exact h1.elim
  | inf s =>
    cases y with
    | nan => cases s <;> exact h1.elim
    | inf s' => cases z <;> cases s <;> cases s' <;> simp_all [Le]
    | fin => cases z <;> cases s <;> simp_all [Le]
  | fin =>
    cases y with
    | nan => exact h1.elim
    | inf s' =>
      cases z with
      | inf t => cases s' <;> cases t <;> simp_all [Le]
      | fin => cases s' <;> simp_all [Le]
      | nan => cases s' <;> exact h2.elim
    | fin =>
      cases z with
      | nan => exact h2.elim
      | inf s => cases s <;> simp_all [Le]
      | fin => exact Int.le_trans h1 h2

theorem lt_le {x y : Flt} (hx : x ≠ .nan) (hy : y ≠ .nan) : (lt x y = true → Le x y) ∧ (lt x y = false → Le y x) := by
  cases x with
  | nan => exact absurd rfl hx
  | inf s =>
    cases y with
    | nan => exact absurd rfl hy
    | inf s' => cases s <;> cases s' <;> simp [lt, Le]
    | fin => cases s <;> simp [lt, Le]
  | fin s m q =>
    cases y with
    | nan => exact absurd rfl hy
    | inf s' => cases s' <;> simp [lt, Le]
    | fin s' m' q' =>
      have e : lt (.fin s m q) (.fin s' m' q') = decide (val (.fin s m q) < val (.fin s' m' q')) := rfl
      rw [e]
      constructor
      · intro h; exact Int.le_of_lt (by simpa using h)
      · intro h; exact Int.not_lt.1 (by simpa using h)

theorem fmin_spec {x y : Flt} (hx : x ≠ .nan) (hy : y ≠ .nan) : fmin x y ∈ [x, y] ∧ ∀ a ∈ [x, y], Le (fmin x y) a := by
  have h := lt_le hx hy
  unfold fmin
  split
  · next e => exact ⟨by simp, by simp [Le.refl hx, h.1 e]⟩
  · next e => exact ⟨by simp, by simp [Le.refl hy, h.2 (by simpa using e)]⟩

theorem fmax_spec {x y : Flt} (hx : x ≠ .nan) (hy : y ≠ .nan) : fmax x y ∈ [x, y] ∧ ∀ a ∈ [x, y], Le a (fmax x y) := by
  have h := lt_le hy hx
  unfold fmax
  split
  · next e => exact ⟨by simp, by simp [Le.refl hx, h.1 e]⟩
  · next e => exact ⟨by simp, by simp [Le.refl hy, h.2 (by simpa using e)]⟩

theorem ne_of_mem {x : Flt} {l : List Flt} (h : x ∈ l) (hl : .nan ∉ l) : x ≠ .nan := fun e => hl (e ▸ h)

theorem mem3 {a b x y z : Flt} (h : a ∈ [b, z]) (h' : b ∈ [x, y]) : a ∈ [x, y, z] := by
  simp only [List.mem_cons, List.not_mem_nil, or_false] at *
  rcases h with rfl | rfl
  · rcases h' with h | h <;> simp [h]
  · simp

theorem mem4 {a b c x y z w : Flt} (h : a ∈ [b, c]) (h' : b ∈ [x, y]) (h'' : c ∈ [z, w]) : a ∈ [x, y, z, w] := by
  simp only [List.mem_cons, List.not_mem_nil, or_false] at *
  rcases h with rfl | rfl
  · rcases h' with h | h <;> simp [h]
  · rcases h'' with h | h <;> simp [h]

end Verif.MathFns
