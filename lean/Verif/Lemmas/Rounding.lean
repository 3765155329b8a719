import Verif.Lemmas.Nearest
import Verif.Model.Arith64

/-!
# Lemmas about a single rounding
-/

namespace Verif.B64

open Verif Verif.Spec

/-- A rounded significand and a normal number differ by at most `2^(-53)` of the smaller one. -/
theorem rne_relative {num u : Nat} (hu : 0 < u) (h : 2 ^ 52 * u ≤ num) :
    2 ^ 53 * (rne num u * u) ≤ (2 ^ 53 + 1) * num ∧ 2 ^ 53 * num ≤ (2 ^ 53 + 1) * (rne num u * u) := by
  obtain ⟨h1, h2⟩ := rne_near (n := num) hu
  have h3 : 2 ^ 52 * u ≤ rne num u * u := Nat.mul_le_mul_right _ ((rne_range hu).2 h)
  generalize rne num u * u = x at *
  omega

/-- Rounding a normal number that is not too large: finite, with an error of at most `2^(-53)` of either number. -/
theorem round_relative (s : Bool) {num den : Nat} (hd : 0 < den) (h : 2 ^ 52 * den ≤ num)
    (hb : 2 * num < (2 ^ 54 - 1) * 2 ^ 2045 * den) :
    ∃ m q, round s num den = .fin s m q ∧ Canonical m q ∧
      2 ^ 53 * (m * 2 ^ q * den) ≤ (2 ^ 53 + 1) * num ∧ 2 ^ 53 * num ≤ (2 ^ 53 + 1) * (m * 2 ^ q * den) := by
  have hn := round_nearest s num hd
  have hr := (round_range (num := num) hd).2
  have hpos : 0 < den * 2 ^ ((num / den).log2 - 52) := Nat.mul_pos hd (Nat.two_pow_pos _)
  have hlow : 2 ^ 52 * (den * 2 ^ ((num / den).log2 - 52)) ≤ num := by
    rcases hr with e | e
    · rw [e, Nat.pow_zero, Nat.mul_one]; exact h
    · exact e
  have hrel := rne_relative hpos hlow
  generalize hR : rne num (den * 2 ^ ((num / den).log2 - 52)) = R at hrel
  generalize hq : (num / den).log2 - 52 = q at *
  have hround : round s num den = pack s R q := by unfold round; rw [hq, hR]
  have e1 : R * (den * 2 ^ q) = R * 2 ^ q * den := by rw [Nat.mul_comm den, ← Nat.mul_assoc]
  rw [e1] at hrel
  cases hx : round s num den with
  | fin s' m q' =>
    rw [hx] at hn
    refine ⟨m, q', ?_, hn.2.1, ?_⟩
    · rw [hn.1]
    · have : m * 2 ^ q' = R * 2 ^ q := by
        rw [hround] at hx
        unfold pack at hx
        split at hx
        · next e =>
          split at hx
          · injection hx with a b c
            subst b; subst c; subst e
            rw [show q + 1 = 1 + q by omega, Nat.pow_add 2 1 q, ← Nat.mul_assoc]
          · exact absurd hx (by simp)
        · split at hx
          · injection hx with a b c
            subst b; subst c; rfl
          · exact absurd hx (by simp)
      rw [this]; exact hrel
  | inf s' => rw [hx] at hn; exact absurd hn.2 (by omega)
  | nan => rw [hx] at hn; exact hn.elim

/-- A bound. -/
def highest : Nat := 2 ^ 1023 * 2 ^ 1074

theorem highest_eq : highest = 2 ^ 1023 * 2 ^ 1074 := by unfold highest; rfl

theorem highest_room {n t : Nat} (ht : 0 < t) (h : n ≤ 2 ^ 52 * t) : 2 * n < (2 ^ 54 - 1) * t := by omega

theorem round_highest (s : Bool) {num den : Nat} (hd : 0 < den) (h : 2 ^ 52 * den ≤ num) (hb : num ≤ highest * den) :
    ∃ m q, round s num den = .fin s m q ∧ Canonical m q ∧
      2 ^ 53 * (m * 2 ^ q * den) ≤ (2 ^ 53 + 1) * num ∧ 2 ^ 53 * num ≤ (2 ^ 53 + 1) * (m * 2 ^ q * den) := by
  refine round_relative s hd h ?_
  rw [highest_eq, ← Nat.pow_add, show 1023 + 1074 = 52 + 2045 by omega, Nat.pow_add, Nat.mul_assoc] at hb
  rw [Nat.mul_assoc]
  exact highest_room (Nat.mul_pos (Nat.two_pow_pos _) hd) hb

/-- Nothing is rounded if the value is a double. -/
theorem round_exact (s : Bool) {den m q : Nat} (hd : 0 < den) (hc : Canonical m q) :
    round s (m * 2 ^ q * den) den = .fin s m q := by
  apply round_close s hd hc <;>
  · rw [show m * 2 ^ q * den = m * (den * 2 ^ q) by rw [Nat.mul_comm den, ← Nat.mul_assoc]]
    omega

theorem round_zero (s : Bool) {den : Nat} (hd : 0 < den) : round s 0 den = .fin s 0 0 := by
  have := round_exact s hd (m := 0) (q := 0) ⟨by decide, by decide, .inl rfl⟩
  rw [Nat.zero_mul] at this
  exact this

/-- Small multiples of a power of two are doubles. -/
theorem canonical_exists : ∀ (j n : Nat), n < 2 ^ 53 → j ≤ 2045 → ∃ m q, Canonical m q ∧ m * 2 ^ q = n * 2 ^ j := by
  intro j
  induction j with
  | zero => intro n h _; exact ⟨n, 0, ⟨h, by omega, .inl rfl⟩, rfl⟩
  | succ j ih =>
    intro n h hj
    by_cases hn : 2 ^ 52 ≤ n
    · exact ⟨n, j + 1, ⟨h, hj, .inr hn⟩, rfl⟩
    · obtain ⟨m, q, h1, h2⟩ := ih (2 * n) (by omega) (by omega)
      refine ⟨m, q, h1, ?_⟩
      rw [h2, Nat.pow_succ, Nat.mul_comm 2 n, Nat.mul_assoc, Nat.mul_comm 2]

/-- Rounding does not depend on how the fraction is written. -/
theorem round_scale (s : Bool) (num den : Nat) {k : Nat} (hk : 0 < k) : round s (num * k) (den * k) = round s num den := by
  have hr : ∀ n d, rne (n * k) (d * k) = rne n d := by
    intro n d
    unfold rne
    rw [Nat.mul_mod_mul_right, Nat.mul_div_mul_right _ _ hk, ← Nat.mul_assoc]
    have e1 : (2 * (n % d) * k < d * k) = (2 * (n % d) < d) := propext (Nat.mul_lt_mul_right hk)
    have e2 : (d * k < 2 * (n % d) * k) = (d < 2 * (n % d)) := propext (Nat.mul_lt_mul_right hk)
    simp only [e1, e2]
  unfold round
  rw [Nat.mul_div_mul_right _ _ hk, Nat.mul_right_comm, hr]

end Verif.B64
