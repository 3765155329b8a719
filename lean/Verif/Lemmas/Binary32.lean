import Verif.Spec.Float
import Verif.Lemmas.Nearest

/-!
# Lemmas about the arithmetic of floats
-/

namespace Verif.B32

open Verif Verif.Spec.F32
open Verif.B64 (rne rne_near)

/-- The bits kept by `round`. -/
theorem round_range {num den : Nat} (hd : 0 < den) :
    num < 2 ^ 24 * (den * 2 ^ ((num / den).log2 - 23)) ∧
    ((num / den).log2 - 23 = 0 ∨ 2 ^ 23 * (den * 2 ^ ((num / den).log2 - 23)) ≤ num) := by
  have hlt : num / den < 2 ^ ((num / den).log2 + 1) := Nat.lt_log2_self
  have hself : num / den ≠ 0 → 2 ^ (num / den).log2 ≤ num / den := fun h => Nat.log2_self_le h
  have hlog0 : num / den = 0 → (num / den).log2 = 0 := fun h => by rw [h]; rfl
  have hup : ∀ k, num / den < k → num < k * den := fun k h => (Nat.div_lt_iff_lt_mul hd).1 h
  have hlo : ∀ k, k ≤ num / den → k * den ≤ num := fun k h => (Nat.le_div_iff_mul_le hd).1 h
  generalize num / den = v at *
  generalize v.log2 = L at *
  constructor
  · refine Nat.lt_of_lt_of_le (hup _ hlt) ?_
    rw [Nat.mul_left_comm, ← Nat.pow_add, Nat.mul_comm]
    exact Nat.mul_le_mul_left _ (Nat.pow_le_pow_right (by decide) (by omega))
  · by_cases h : L - 23 = 0
    · exact .inl h
    · right
      have := hlo _ (hself fun e => h (by have := hlog0 e; omega))
      rwa [Nat.mul_left_comm, ← Nat.pow_add, Nat.mul_comm, show 23 + (L - 23) = L by omega]

theorem top_edge {a b num : Nat} (h2 : 2 * (2 ^ 24 * a) ≤ 2 * num + a) (h5 : 2 ^ 24 * a = b + 2 ^ 23 * a) (hb : num ≤ b)
    (ha : 0 < a) : False := by omega

/-- A single rounding of a number that is not too large. -/
theorem round_spec (s : Bool) {num den : Nat} (hd : 0 < den) (hb : num ≤ 2 ^ 276 * den) :
    ∃ m q k, round s num den = .fin s m q ∧ Canonical m q ∧ 2 ^ k ∣ m * 2 ^ q ∧
      2 * (m * 2 ^ q * den) ≤ 2 * num + den * 2 ^ k ∧ 2 * num ≤ 2 * (m * 2 ^ q * den) + den * 2 ^ k ∧
      (k = 0 ∨ 2 ^ 23 * (den * 2 ^ k) ≤ num) ∧ num < 2 ^ 24 * (den * 2 ^ k) := by
  obtain ⟨r1, r2⟩ := round_range (num := num) hd
  unfold round
  generalize (num / den).log2 - 23 = k at *
  have hu : 0 < den * 2 ^ k := Nat.mul_pos hd (Nat.two_pow_pos k)
  obtain ⟨h1, h2⟩ := rne_near (n := num) hu
  generalize hR : rne num (den * 2 ^ k) = R at *
  have hR1 : R ≤ 2 ^ 24 := by
    have : R * (den * 2 ^ k) < (2 ^ 24 + 1) * (den * 2 ^ k) := by rw [Nat.add_mul, Nat.one_mul]; omega
    have := Nat.lt_of_mul_lt_mul_right this
    omega
  have hR2 : k = 0 ∨ 2 ^ 23 ≤ R := by
    rcases r2 with h | h
    · exact .inl h
    · right
      have : 2 ^ 23 * (den * 2 ^ k) < (R + 1) * (den * 2 ^ k) := by rw [Nat.add_mul, Nat.one_mul]; omega
      have := Nat.lt_of_mul_lt_mul_right this
      omega
  have hk : k ≤ 253 := by
    rcases r2 with h | h
    · omega
    · refine Nat.le_of_not_lt fun hk => ?_
      have h3 : 2 ^ 277 * den ≤ 2 ^ 23 * (den * 2 ^ k) := by
        rw [Nat.mul_left_comm, ← Nat.pow_add, Nat.mul_comm]
        exact Nat.mul_le_mul_left _ (Nat.pow_le_pow_right (by decide) (by omega))
      have h4 : 2 ^ 276 * den < 2 ^ 277 * den := Nat.mul_lt_mul_of_pos_right (by decide) hd
      exact absurd (Nat.le_trans h3 h) (Nat.not_le.2 (Nat.lt_of_le_of_lt hb h4))
  have e1 : R * (den * 2 ^ k) = R * 2 ^ k * den := by rw [Nat.mul_comm den, ← Nat.mul_assoc]
  unfold pack
  by_cases hR3 : R = 2 ^ 24
  · have hk' : k ≤ 252 := by
      refine Nat.le_of_not_lt fun hk' => ?_
      obtain rfl : k = 253 := by omega
      rw [hR3] at h2
      have h5 : 2 ^ 24 * (den * 2 ^ 253) = 2 ^ 276 * den + 2 ^ 23 * (den * 2 ^ 253) := by
        rw [Nat.mul_comm den, ← Nat.mul_assoc, ← Nat.mul_assoc, ← Nat.add_mul, ← Nat.pow_add, ← Nat.pow_add]
        exact congrArg (· * den) (by decide)
      exact top_edge h2 h5 hb hu
    rw [if_pos hR3, if_pos (by omega)]
    have e2 : 2 ^ 23 * 2 ^ (k + 1) = R * 2 ^ k := by rw [hR3, ← Nat.pow_add, ← Nat.pow_add]; congr 1; omega
    refine ⟨2 ^ 23, k + 1, k, rfl, ⟨by decide, by omega, .inr (Nat.le_refl _)⟩, ?_, ?_, ?_, r2, r1⟩
    · rw [e2]; exact Nat.dvd_mul_left _ _
    · rw [e2, ← e1]; exact h2
    · rw [e2, ← e1]; exact h1
  · rw [if_neg hR3, if_pos hk]
    exact ⟨R, k, k, rfl, ⟨by omega, hk, hR2⟩, Nat.dvd_mul_left _ _, by rw [← e1]; exact h2, by rw [← e1]; exact h1, r2, r1⟩

theorem val_natAbs (s : Bool) (m q : Nat) : (val (.fin s m q)).natAbs = m * 2 ^ q := by
  unfold val; cases s
  · simp only [Bool.false_eq_true, if_false]; omega
  · simp only [if_true]; omega

theorem val_neg (x : Flt) : val (neg x) = - val x := by
  cases x with
  | fin s m q => cases s <;> simp [neg, val]
  | inf s => rfl
  | nan => rfl

theorem finite_neg {x : Flt} (h : Finite x) : Finite (neg x) := by
  obtain ⟨s, m, q, rfl, h⟩ := h
  exact ⟨!s, m, q, rfl, h⟩

/-- What `round` does to an integral number of units. -/
def Rounded (n v : Int) : Prop :=
  ∃ k, 2 ^ k ∣ v.natAbs ∧ 2 * (v - n).natAbs ≤ 2 ^ k ∧ (k = 0 ∨ 2 ^ (k + 23) ≤ n.natAbs) ∧ n.natAbs < 2 ^ (k + 24)

theorem round_int (s : Bool) {n : Nat} (hb : n ≤ 2 ^ 276) :
    Finite (round s n 1) ∧ Rounded (if s then -(n : Int) else n) (val (round s n 1)) := by
  obtain ⟨m, q, k, h1, h2, h3, h4, h5, h6, h7⟩ := round_spec s (num := n) (den := 1) (by decide) (by omega)
  rw [h1]
  refine ⟨⟨s, m, q, rfl, h2⟩, k, by rw [val_natAbs]; exact h3, ?_, ?_, ?_⟩
  · unfold val
    cases s
    · simp only [Bool.false_eq_true, if_false]; omega
    · simp only [if_true]; omega
  · rw [show (if s = true then -(n : Int) else n).natAbs = n by cases s <;> simp, Nat.add_comm, Nat.pow_add]; omega
  · rw [show (if s = true then -(n : Int) else n).natAbs = n by cases s <;> simp, Nat.add_comm, Nat.pow_add]; omega

theorem rounded_zero : Rounded 0 0 := ⟨0, by simp, by simp, .inl rfl, by simp⟩

/-- Addition. -/
theorem add_spec {x y : Flt} (hx : Finite x) (hy : Finite y) (hb : (val x + val y).natAbs ≤ 2 ^ 276) :
    Finite (add x y) ∧ Rounded (val x + val y) (val (add x y)) := by
  obtain ⟨s, m, q, rfl, hc⟩ := hx
  obtain ⟨s', m', q', rfl, hc'⟩ := hy
  unfold add
  simp only [val] at *
  generalize m * 2 ^ q = a at *
  generalize m' * 2 ^ q' = b at *
  by_cases hs : s = s'
  · subst hs
    rw [if_pos rfl]
    have := round_int s (n := a + b) (by cases s <;> simp at hb <;> omega)
    rwa [show (if s = true then -((a + b : Nat) : Int) else (a + b : Nat)) = (if s = true then -(a : Int) else a) + (if s = true then -(b : Int) else b) by
      cases s <;> simp <;> omega] at this
  · rw [if_neg hs]
    obtain rfl : s' = !s := by cases s <;> cases s' <;> simp_all
    by_cases h1 : a = b
    · rw [if_pos h1]
      subst h1
      refine ⟨⟨false, 0, 0, rfl, by decide, by decide, .inl rfl⟩, ?_⟩
      rw [show (if s = true then -(a : Int) else a) + (if (!s) = true then -(a : Int) else a) = 0 by cases s <;> simp <;> omega]
      exact rounded_zero
    · rw [if_neg h1]
      by_cases h2 : b < a
      · rw [if_pos h2]
        have := round_int s (n := a - b) (by cases s <;> simp at hb <;> omega)
        rwa [show (if s = true then -((a - b : Nat) : Int) else (a - b : Nat)) = (if s = true then -(a : Int) else a) + (if (!s) = true then -(b : Int) else b) by
          cases s <;> simp <;> omega] at this
      · rw [if_neg h2]
        have := round_int (!s) (n := b - a) (by cases s <;> simp at hb <;> omega)
        rwa [show (if (!s) = true then -((b - a : Nat) : Int) else (b - a : Nat)) = (if s = true then -(a : Int) else a) + (if (!s) = true then -(b : Int) else b) by
          cases s <;> simp <;> omega] at this

theorem sub_spec {x y : Flt} (hx : Finite x) (hy : Finite y) (hb : (val x - val y).natAbs ≤ 2 ^ 276) :
    Finite (sub x y) ∧ Rounded (val x - val y) (val (sub x y)) := by
  unfold sub
  have := add_spec hx (finite_neg hy) (by rw [val_neg]; omega)
  rwa [val_neg, ← Int.sub_eq_add_neg] at this

/-- Small multiples of a power of two are not changed by rounding. -/
theorem rounded_exact {n v : Int} {j c : Nat} (h : Rounded n v) (hn : n.natAbs = c * 2 ^ j) (hc : c ≤ 2 ^ 24) : v = n := by
  obtain ⟨k, h1, h2, h3, h4⟩ := h
  have hp := Nat.two_pow_pos k
  have hd : 2 ^ k ∣ n.natAbs := by
    by_cases hk : k ≤ j
    · rw [hn]; exact Nat.dvd_trans (Nat.pow_dvd_pow 2 hk) (Nat.dvd_mul_left _ _)
    · have h5 : 2 ^ (k + 23) ≤ c * 2 ^ j := by rw [← hn]; exact h3.resolve_left (by omega)
      have h6 : c * 2 ^ j ≤ 2 ^ (24 + j) := by rw [Nat.pow_add]; exact Nat.mul_le_mul_right _ hc
      have h7 : k + 23 ≤ 24 + j := (Nat.pow_le_pow_iff_right (by decide)).1 (Nat.le_trans h5 h6)
      obtain rfl : k = j + 1 := by omega
      have h9 : j + 1 + 23 = 24 + j := by omega
      rw [h9] at h5
      have h8 : c * 2 ^ j = 2 ^ (24 + j) := Nat.le_antisymm h6 h5
      rw [hn, h8]; exact Nat.pow_dvd_pow 2 (by omega)
  generalize 2 ^ k = a at *
  have hd' : (a : Int) ∣ v - n := Int.dvd_sub (Int.ofNat_dvd_left.2 h1) (Int.ofNat_dvd_left.2 hd)
  have hz : (v - n).natAbs = 0 := by
    have h5 := Int.ofNat_dvd_left.1 hd'
    refine Nat.eq_zero_of_dvd_of_lt h5 ?_
    omega
  omega

/-- Large floats are multiples of powers of two. -/
theorem large_dvd {x : Flt} {t : Nat} (hx : Finite x) (h : 2 ^ (23 + t) ≤ (val x).natAbs) : ((2 ^ t : Nat) : Int) ∣ val x := by
  obtain ⟨s, m, q, rfl, hc⟩ := hx
  rw [val_natAbs] at h
  rw [Int.ofNat_dvd_left, val_natAbs]
  have h1 : m * 2 ^ q < 2 ^ (24 + q) := by rw [Nat.pow_add]; exact Nat.mul_lt_mul_of_pos_right hc.1 (Nat.two_pow_pos _)
  have h2 := (Nat.pow_lt_pow_iff_right (by decide)).1 (Nat.lt_of_le_of_lt h h1)
  exact Nat.dvd_trans (Nat.pow_dvd_pow 2 (show t ≤ q by omega)) (Nat.dvd_mul_left _ _)

theorem val_bound {x : Flt} (hx : Finite x) : (val x).natAbs ≤ (2 ^ 24 - 1) * 2 ^ 253 := by
  obtain ⟨s, m, q, rfl, hc⟩ := hx
  rw [val_natAbs]
  exact Nat.mul_le_mul (by have := hc.1; omega) (Nat.pow_le_pow_right (by decide) hc.2.1)

/-- Comparison. -/
theorem lt_spec {x y : Flt} (hx : Finite x) (hy : Finite y) : lt x y = decide (val x < val y) := by
  obtain ⟨s, m, q, rfl, hc⟩ := hx
  obtain ⟨s', m', q', rfl, hc'⟩ := hy
  rfl

end Verif.B32
