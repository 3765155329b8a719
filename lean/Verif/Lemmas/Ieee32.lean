import Verif.Lemmas.Floor

/-!
# The model of floats against IEEE 754

Overflow, infinities, NaN and bits: the parts of `Model/Binary32` that the theorems about values do not need.
-/

namespace Verif.B32

open Verif Verif.Spec.F32
open Verif.B64 (rne rne_near)

/-- A float: finite, infinite or NaN. -/
def Valid (x : Flt) : Prop := Finite x ∨ (∃ s, x = .inf s) ∨ x = .nan

theorem toBits_fin (s : Bool) (m q : Nat) :
    toBits (.fin s m q) = (if s then 2 ^ 31 else 0) + (if m < 2 ^ 23 then m else m - 2 ^ 23 + (q + 1) * 2 ^ 23) := rfl

theorem val_fin (s : Bool) (m q : Nat) : val (.fin s m q) = if s then -((m * 2 ^ q : Nat) : Int) else ((m * 2 ^ q : Nat) : Int) := rfl

/-- Floats have 32 bits, which determine them. -/
theorem ofBits_toBits {x : Flt} (h : Valid x) : toBits x < 2 ^ 32 ∧ ofBits (toBits x) = x := by
  rcases h with ⟨s, m, q, rfl, h1, h2, h3⟩ | ⟨s, rfl⟩ | rfl
  · by_cases hm : m < 2 ^ 23
    · have hq : q = 0 := by omega
      subst hq
      have e : toBits (.fin s m 0) = (if s then 2 ^ 31 else 0) + m  := by rw [toBits_fin, if_pos hm]
      rw [e]
      unfold ofBits
      cases s
      · simp only [Bool.false_eq_true, if_false]
        refine ⟨by omega, ?_⟩
        rw [if_neg (by omega), if_pos (by omega), Nat.mod_eq_of_lt (by omega : 0 + m < 2 ^ 23)]
        simp only [Nat.zero_add]
        rw [decide_eq_false (by omega)]
      · simp only [if_true]
        refine ⟨by omega, ?_⟩
        rw [if_neg (by omega), if_pos (by omega), show (2 ^ 31 + m) % 2 ^ 23 = m by omega]
        rw [decide_eq_true (by omega)]
    · have e : toBits (.fin s m q) = (if s then 2 ^ 31 else 0) + (m - 2 ^ 23 + (q + 1) * 2 ^ 23)  := by rw [toBits_fin, if_neg hm]
      rw [e]
      have e1 : ∀ k, (k = 0 ∨ k = 2 ^ 31) → (k + (m - 2 ^ 23 + (q + 1) * 2 ^ 23)) / 2 ^ 23 % 256 = q + 1 := by omega
      have e2 : ∀ k, (k = 0 ∨ k = 2 ^ 31) → (k + (m - 2 ^ 23 + (q + 1) * 2 ^ 23)) % 2 ^ 23 = m - 2 ^ 23 := by omega
      unfold ofBits
      cases s
      · simp only [Bool.false_eq_true, if_false]
        rw [e1 0 (.inl rfl), e2 0 (.inl rfl), if_neg (by omega), if_neg (by omega), show 2 ^ 23 + (m - 2 ^ 23) = m by omega,
          Nat.add_sub_cancel, decide_eq_false (by omega)]
        exact ⟨by omega, rfl⟩
      · simp only [if_true]
        rw [e1 _ (.inr rfl), e2 _ (.inr rfl), if_neg (by omega), if_neg (by omega), show 2 ^ 23 + (m - 2 ^ 23) = m by omega,
          Nat.add_sub_cancel, decide_eq_true (by omega)]
        exact ⟨by omega, rfl⟩
  · cases s <;> decide
  · decide

/-- Every 32 bits are a float, and, other than NaN, the bits of that float. -/
theorem toBits_ofBits {b : Nat} (h : b < 2 ^ 32) : Valid (ofBits b) ∧ (ofBits b ≠ .nan → toBits (ofBits b) = b) := by
  unfold ofBits
  by_cases h1 : b / 2 ^ 23 % 256 = 255
  · simp only [h1, if_true]
    by_cases h2 : b % 2 ^ 23 = 0
    · rw [if_pos h2]
      refine ⟨.inr (.inl ⟨_, rfl⟩), fun _ => ?_⟩
      unfold toBits
      by_cases h3 : 2 ^ 31 ≤ b % 2 ^ 32
      · rw [decide_eq_true h3]; simp only [if_true]; omega
      · rw [decide_eq_false h3]; simp only [Bool.false_eq_true, if_false]; omega
    · rw [if_neg h2]
      exact ⟨.inr (.inr rfl), fun h => absurd rfl h⟩
  · simp only [h1, if_false]
    by_cases h2 : b / 2 ^ 23 % 256 = 0
    · rw [if_pos h2]
      refine ⟨.inl ⟨_, _, _, rfl, by omega, by omega, .inl rfl⟩, fun _ => ?_⟩
      rw [toBits_fin]
      by_cases h3 : 2 ^ 31 ≤ b % 2 ^ 32
      · rw [decide_eq_true h3]; simp only [if_true]; split <;> omega
      · rw [decide_eq_false h3]; simp only [Bool.false_eq_true, if_false]; split <;> omega
    · rw [if_neg h2]
      refine ⟨.inl ⟨_, _, _, rfl, by omega, by omega, .inr (by omega)⟩, fun _ => ?_⟩
      rw [toBits_fin]
      by_cases h3 : 2 ^ 31 ≤ b % 2 ^ 32
      · rw [decide_eq_true h3]; simp only [if_true]; split <;> omega
      · rw [decide_eq_false h3]; simp only [Bool.false_eq_true, if_false]; split <;> omega

/-- `x < y` is the order of the numbers and infinities, and false with a NaN. -/
theorem lt_iff (x y : Flt) : lt x y = true ↔ Le x y ∧ ¬ Le y x := by
  cases x with
  | nan => simp [lt, Le]
  | inf s =>
    cases y with
    | nan => cases s <;> simp [lt, Le]
    | inf s' => cases s <;> cases s' <;> simp [lt, Le]
    | fin => cases s <;> simp [lt, Le]
  | fin s m q =>
    cases y with
    | nan => simp [lt, Le]
    | inf s' => cases s' <;> simp [lt, Le]
    | fin s' m' q' =>
      have e : lt (.fin s m q) (.fin s' m' q') = decide (val (.fin s m q) < val (.fin s' m' q')) := rfl
      rw [e]
      simp only [Le, decide_eq_true_eq]
      omega

theorem rne_tie {n d c : Nat} (hd : 0 < d) (h : 2 * n = 2 * (c * d) + d) (hc : c % 2 = 1) : rne n d = c + 1 := by
  have e : n / d = c := by
    rw [Nat.div_eq_iff hd]
    omega
  have m := Nat.div_add_mod n d
  rw [e, Nat.mul_comm] at m
  unfold rne
  rw [e, if_neg (by omega), if_neg (by omega), if_neg (by omega)]

theorem rne_top {n d T : Nat} (hd : 0 < d) (h1 : n < T * d) (hT : T % 2 = 0) : rne n d = T ↔ 2 * (T * d) ≤ 2 * n + d := by
  obtain ⟨h3, h4⟩ := rne_near (n := n) hd
  constructor
  · intro h; rw [h] at h4; omega
  · intro h
    rcases Nat.lt_or_ge (2 * (T * d)) (2 * n + d) with h | h'
    · exact B64.rne_eq (by omega) (by omega)
    · cases T with
      | zero => omega
      | succ c =>
        have := Nat.succ_mul c d
        rw [Nat.succ_eq_add_one] at this
        exact rne_tie hd (by omega) (by omega)

/-- Rounding overflows exactly from half a unit above the greatest float `(2^24 - 1) * 2^253` on. -/
theorem round_overflow (s : Bool) {num den : Nat} (hd : 0 < den) :
    ((2 ^ 25 - 1) * (den * 2 ^ 252) ≤ num → round s num den = .inf s) ∧
    (num < (2 ^ 25 - 1) * (den * 2 ^ 252) → Finite (round s num den)) := by
  obtain ⟨r1, r2⟩ := round_range (num := num) hd
  unfold round
  generalize (num / den).log2 - 23 = k at *
  have hu : 0 < den * 2 ^ k := Nat.mul_pos hd (Nat.two_pow_pos k)
  have hW : 0 < den * 2 ^ 252 := Nat.mul_pos hd (Nat.two_pow_pos _)
  rcases Nat.lt_or_ge 253 k with hk | hk
  · have hk1 : 4 * (den * 2 ^ 252) ≤ den * 2 ^ k := by
      obtain ⟨j, rfl⟩ : ∃ j, k = j + 2 + 252 := ⟨k - 254, by omega⟩
      rw [Nat.pow_add, Nat.mul_left_comm den]
      refine Nat.mul_le_mul_right _ ?_
      rw [Nat.pow_add]
      have := Nat.two_pow_pos j
      omega
    refine ⟨fun _ => ?_, fun h => ?_⟩
    · unfold pack
      by_cases hm : rne num (den * 2 ^ k) = 2 ^ 24
      · rw [if_pos hm, if_neg (by omega)]
      · rw [if_neg hm, if_neg (by omega)]
    · exfalso
      generalize den * 2 ^ 252 = W at *
      generalize den * 2 ^ k = U at *
      omega
  obtain ⟨h1, h2⟩ := rne_near (n := num) hu
  have hR1 : rne num (den * 2 ^ k) ≤ 2 ^ 24 := by
    have : rne num (den * 2 ^ k) * (den * 2 ^ k) < (2 ^ 24 + 1) * (den * 2 ^ k) := by rw [Nat.add_mul, Nat.one_mul]; omega
    have := Nat.lt_of_mul_lt_mul_right this
    omega
  have hR2 : k = 0 ∨ 2 ^ 23 ≤ rne num (den * 2 ^ k) := by
    rcases r2 with h | h
    · exact .inl h
    · right
      have : 2 ^ 23 * (den * 2 ^ k) < (rne num (den * 2 ^ k) + 1) * (den * 2 ^ k) := by rw [Nat.add_mul, Nat.one_mul]; omega
      have := Nat.lt_of_mul_lt_mul_right this
      omega
  have top := rne_top hu r1 (by decide)
  unfold pack
  by_cases hk' : k = 253
  · have e : den * 2 ^ k = 2 * (den * 2 ^ 252) := by rw [hk', Nat.mul_left_comm]
    generalize den * 2 ^ k = U at *
    generalize den * 2 ^ 252 = W at *
    subst e
    refine ⟨fun h => ?_, fun h => ?_⟩
    · rw [if_pos (top.2 (by omega)), if_neg (by omega)]
    · have : rne num (2 * W) ≠ 2 ^ 24 := fun e => by have := top.1 e; omega
      rw [if_neg this, if_pos (by omega)]
      exact ⟨_, _, _, rfl, by omega, by omega, hR2⟩
  · have hk1 : den * 2 ^ k ≤ den * 2 ^ 252 := Nat.mul_le_mul_left _ (Nat.pow_le_pow_right (by decide) (by omega))
    refine ⟨fun h => ?_, fun h => ?_⟩
    · exfalso
      generalize den * 2 ^ 252 = W at *
      generalize den * 2 ^ k = U at *
      omega
    · by_cases hm : rne num (den * 2 ^ k) = 2 ^ 24
      · rw [if_pos hm, if_pos (by omega)]
        exact ⟨_, _, _, rfl, by decide, by omega, .inr (by decide)⟩
      · rw [if_neg hm, if_pos (by omega)]
        exact ⟨_, _, _, rfl, by omega, by omega, hR2⟩

/-- Sums, products and quotients with infinities, NaN and zeros (IEEE 754, 6.1, 6.3, 7.2 and 7.3). -/
theorem special_add (x : Flt) (s : Bool) (h : Finite x) :
    add (.inf s) x = .inf s ∧ add x (.inf s) = .inf s ∧ add (.inf s) (.inf s) = .inf s ∧ add (.inf s) (.inf (!s)) = .nan ∧
    sub (.inf s) (.inf s) = .nan ∧ sub (.inf s) x = .inf s ∧ sub x (.inf s) = .inf (!s) ∧
    add x .nan = .nan ∧ add .nan x = .nan ∧ add (.inf s) .nan = .nan ∧ add .nan (.inf s) = .nan := by
  obtain ⟨t, m, q, rfl, -⟩ := h
  cases s <;> exact ⟨rfl, rfl, rfl, rfl, rfl, rfl, rfl, rfl, rfl, rfl, rfl⟩

theorem special_mul (x : Flt) (s t : Bool) (h : Finite x) :
    mul (.inf s) (.inf t) = .inf (s ^^ t) ∧
    (0 < val x → mul (.inf s) x = .inf s ∧ mul x (.inf s) = .inf s) ∧
    (val x < 0 → mul (.inf s) x = .inf (!s) ∧ mul x (.inf s) = .inf (!s)) ∧
    (val x = 0 → mul (.inf s) x = .nan ∧ mul x (.inf s) = .nan) ∧
    mul x .nan = .nan ∧ mul .nan x = .nan ∧ mul (.inf s) .nan = .nan ∧ mul .nan (.inf s) = .nan := by
  obtain ⟨u, m, q, rfl, -⟩ := h
  have hp : m ≠ 0 → 0 < m * 2 ^ q := fun h => Nat.mul_pos (by omega) (Nat.two_pow_pos _)
  have h0 : m = 0 → m * 2 ^ q = 0 := fun h => by rw [h, Nat.zero_mul]
  refine ⟨by cases s <;> cases t <;> rfl, ?_, ?_, ?_, rfl, rfl, rfl, rfl⟩ <;>
  · rw [val_fin]
    unfold mul
    by_cases hm : m = 0
    · have := h0 hm
      rw [this]
      cases u <;> cases s <;> simp [hm]
    · have := hp hm
      generalize m * 2 ^ q = n at *
      cases u <;> cases s <;> simp only [hm, if_false, Bool.false_eq_true, if_true] <;>
        first | (intro h; exact ⟨rfl, rfl⟩) | (intro h; omega)

theorem special_div (x y : Flt) (s t : Bool) (hx : Finite x) (hy : Finite y) :
    div (.inf s) (.inf t) = .nan ∧ (val y = 0 → val x = 0 → div x y = .nan) ∧
    (0 < val x → val y = 0 → div x y = .inf (decide (2 ^ 31 ≤ toBits y))) ∧
    (val x < 0 → val y = 0 → div x y = .inf (decide (toBits y < 2 ^ 31))) ∧
    Finite (div x (.inf s)) ∧ val (div x (.inf s)) = 0 ∧ div (.inf s) x = .inf (s ^^ decide (2 ^ 31 ≤ toBits x)) ∧
    div x .nan = .nan ∧ div .nan x = .nan ∧ div (.inf s) .nan = .nan ∧ div .nan (.inf s) = .nan := by
  obtain ⟨u, m, q, rfl, c1, c2, c3⟩ := hx
  obtain ⟨v, k, r, rfl, d1, d2, d3⟩ := hy
  have hp : m ≠ 0 → 0 < m * 2 ^ q := fun h => Nat.mul_pos (by omega) (Nat.two_pow_pos _)
  have hk : k ≠ 0 → 0 < k * 2 ^ r := fun h => Nat.mul_pos (by omega) (Nat.two_pow_pos _)
  have h0 : m = 0 → m * 2 ^ q = 0 := fun h => by rw [h, Nat.zero_mul]
  have k0 : val (.fin v k r) = 0 → k = 0 := by
    intro h
    refine Decidable.byContradiction fun h' => ?_
    have := hk h'
    rw [val_fin] at h
    generalize k * 2 ^ r = n at *
    split at h <;> omega
  have kb : k = 0 → toBits (.fin v k r) = if v then 2 ^ 31 else 0 := by
    rintro rfl
    unfold toBits
    simp
  have mb : decide (2 ^ 31 ≤ toBits (.fin u m q)) = u := by
    unfold toBits
    cases u
    · rw [decide_eq_false_iff_not]
      simp only [Bool.false_eq_true, if_false]
      split <;> omega
    · rw [decide_eq_true_iff]
      simp only [if_true]
      omega
  refine ⟨rfl, ?_, ?_, ?_, ⟨_, 0, 0, rfl, by decide, by decide, .inl rfl⟩, by simp [div, val], ?_, rfl, rfl, rfl, rfl⟩
  · intro a b
    have e1 := k0 a
    have e2 : m = 0 := by
      refine Decidable.byContradiction fun h' => ?_
      have := hp h'
      rw [val_fin] at b
      generalize m * 2 ^ q = n at *
      split at b <;> omega
    simp [div, e1, e2]
  · intro a b
    have e1 := k0 b
    have e2 : m ≠ 0 := by
      intro h'; have := h0 h'; rw [val_fin] at a; rw [this] at a; split at a <;> omega
    have e3 : u = false := by
      cases u
      · rfl
      · rw [val_fin] at a; simp only [if_true] at a; omega
    rw [kb e1]
    cases v <;> simp [div, e1, e2, e3]
  · intro a b
    have e1 := k0 b
    have e2 : m ≠ 0 := by
      intro h'; have := h0 h'; rw [val_fin] at a; rw [this] at a; split at a <;> omega
    have e3 : u = true := by
      cases u
      · rw [val_fin] at a; simp only [Bool.false_eq_true, if_false] at a; omega
      · rfl
    rw [kb e1]
    cases v <;> simp [div, e1, e2, e3]
  · rw [mb]
    cases s <;> cases u <;> rfl

end Verif.B32
