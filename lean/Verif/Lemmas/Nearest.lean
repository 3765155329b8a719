import Verif.Lemmas.Binary64

/-!
# Rounding to the nearest double
-/

namespace Verif.B64

open Verif Verif.Number Verif.Spec

/-! ## Rounding to nearest -/

theorem rne_tie {n d : Nat} (hd : 0 < d) (h : 2 * n = 2 * (rne n d * d) + d ∨ 2 * (rne n d * d) = 2 * n + d) :
    rne n d % 2 = 0 := by
  have h' := Nat.div_add_mod n d
  have hm := Nat.mod_lt n hd
  rw [Nat.mul_comm] at h'
  revert h
  unfold rne
  split
  · omega
  · split
    · rw [Nat.add_mul, Nat.one_mul]; omega
    · split
      · omega
      · rw [Nat.add_mul, Nat.one_mul]; omega

theorem rne_best {n d : Nat} (hd : 0 < d) (k : Nat) :
    dist n (rne n d * d) ≤ dist n (k * d) ∧ (dist n (rne n d * d) = dist n (k * d) → rne n d ≠ k → rne n d % 2 = 0) := by
  obtain ⟨h1, h2⟩ := rne_near (n := n) hd
  have ht := rne_tie (n := n) hd
  generalize rne n d = r at *
  unfold dist
  rcases Nat.lt_trichotomy k r with h | h | h
  · have := Nat.mul_le_mul_right d (show k + 1 ≤ r from h)
    rw [Nat.add_mul, Nat.one_mul] at this
    exact ⟨by omega, fun _ _ => ht (by omega)⟩
  · subst h; exact ⟨Nat.le_refl _, fun _ h => absurd rfl h⟩
  · have := Nat.mul_le_mul_right d (show r + 1 ≤ k from h)
    rw [Nat.add_mul, Nat.one_mul] at this
    exact ⟨by omega, fun _ _ => ht (by omega)⟩

/-- The bits kept by `round`. -/
theorem round_range {num den : Nat} (hd : 0 < den) :
    num < 2 ^ 53 * (den * 2 ^ ((num / den).log2 - 52)) ∧
    ((num / den).log2 - 52 = 0 ∨ 2 ^ 52 * (den * 2 ^ ((num / den).log2 - 52)) ≤ num) := by
  have hlt : num / den < 2 ^ ((num / den).log2 + 1) := Nat.lt_log2_self
  have hself : num / den ≠ 0 → 2 ^ (num / den).log2 ≤ num / den := fun h => Nat.log2_self_le h
  have hlog0 : num / den = 0 → (num / den).log2 = 0 := fun h => by rw [h]; rfl
  have hup : ∀ k, num / den < k → num < k * den := fun k h => (Nat.div_lt_iff_lt_mul hd).1 h
  have hlo : ∀ k, k ≤ num / den → k * den ≤ num := fun k h => (Nat.le_div_iff_mul_le hd).1 h
  generalize num / den = v at *
  generalize v.log2 = L at *
  constructor
  · refine Nat.lt_of_lt_of_le (hup _ hlt) ?_
    rw [Nat.mul_left_comm, ← Nat.pow_add, Nat.mul_comm]
    exact Nat.mul_le_mul_left _ (Nat.pow_le_pow_right (by decide) (by omega))
  · by_cases h : L - 52 = 0
    · exact .inl h
    · right
      have := hlo _ (hself fun e => h (by have := hlog0 e; omega))
      rwa [Nat.mul_left_comm, ← Nat.pow_add, Nat.mul_comm, show 52 + (L - 52) = L by omega]

theorem rne_range {n d : Nat} (hd : 0 < d) : (n < 2 ^ 53 * d → rne n d ≤ 2 ^ 53) ∧ (2 ^ 52 * d ≤ n → 2 ^ 52 ≤ rne n d) := by
  obtain ⟨h1, h2⟩ := rne_near (n := n) hd
  generalize rne n d = r at *
  constructor
  · intro h
    have : r * d < (2 ^ 53 + 1) * d := by rw [Nat.add_mul, Nat.one_mul]; omega
    have := Nat.lt_of_mul_lt_mul_right this
    omega
  · intro h
    have : 2 ^ 52 * d < (r + 1) * d := by rw [Nat.add_mul, Nat.one_mul]; omega
    have := Nat.lt_of_mul_lt_mul_right this
    omega

/-- Every double is at least as far from the value as the rounded multiple of the unit. -/
theorem unit_best {num den q m' q' : Nat} (hd : 0 < den) (hc : Canonical m' q')
    (hlow : q = 0 ∨ 2 ^ 52 * (den * 2 ^ q) ≤ num) :
    dist num (rne num (den * 2 ^ q) * (den * 2 ^ q)) ≤ dist num (m' * 2 ^ q' * den) ∧
    (dist num (rne num (den * 2 ^ q) * (den * 2 ^ q)) = dist num (m' * 2 ^ q' * den) →
      rne num (den * 2 ^ q) * 2 ^ q ≠ m' * 2 ^ q' → rne num (den * 2 ^ q) % 2 = 0) := by
  have hu : 0 < den * 2 ^ q := Nat.mul_pos hd (Nat.two_pow_pos q)
  by_cases hq : q ≤ q'
  · have e : m' * 2 ^ q' * den = m' * 2 ^ (q' - q) * (den * 2 ^ q) := by
      rw [Nat.mul_comm den, ← Nat.mul_assoc, Nat.mul_assoc m' _ (2 ^ q), ← Nat.pow_add, Nat.sub_add_cancel hq]
    have e' : m' * 2 ^ q' = m' * 2 ^ (q' - q) * 2 ^ q := by
      rw [Nat.mul_assoc m', ← Nat.pow_add, Nat.sub_add_cancel hq]
    obtain ⟨h1, h2⟩ := rne_best (n := num) hu (m' * 2 ^ (q' - q))
    rw [e, e']
    exact ⟨h1, fun h hne => h2 h fun he => hne (by rw [he])⟩
  · have hlow' : 2 ^ 52 * (den * 2 ^ q) ≤ num := by
      rcases hlow with h | h
      · omega
      · exact h
    obtain ⟨h1, -⟩ := rne_best (n := num) hu (2 ^ 52)
    have hlt : m' * 2 ^ q' * den < 2 ^ 52 * (den * 2 ^ q) := by
      have a : m' * 2 ^ q' < 2 ^ 52 * 2 ^ q := by
        refine Nat.lt_of_lt_of_le (Nat.mul_lt_mul_of_pos_right hc.1 (Nat.two_pow_pos _)) ?_
        rw [← Nat.pow_add, ← Nat.pow_add]
        exact Nat.pow_le_pow_right (by decide) (by omega)
      rw [Nat.mul_left_comm, Nat.mul_comm den]
      exact Nat.mul_lt_mul_of_pos_right a hd
    unfold dist at *
    generalize 2 ^ 52 * (den * 2 ^ q) = a at *
    generalize m' * 2 ^ q' * den = b at *
    exact ⟨by omega, fun h _ => absurd h (by omega)⟩

theorem top_small {den P x num : Nat} (h1 : num < 2 ^ 53 * x) (h2 : x ≤ den * P) : 2 * num < (2 ^ 54 - 1) * (P * 2) * den := by
  rw [show (2 ^ 54 - 1) * (P * 2) * den = (2 ^ 54 - 1) * (den * P * 2) by
    rw [Nat.mul_assoc (2 ^ 54 - 1), Nat.mul_comm _ den, Nat.mul_assoc den]]
  generalize den * P = y at *
  omega

theorem top_big {den P x num : Nat} (h1 : 2 ^ 52 * x ≤ num) (h2 : den * (P * 2) ≤ x) : (2 ^ 54 - 1) * P * den ≤ 2 * num := by
  rw [show (2 ^ 54 - 1) * P * den = (2 ^ 54 - 1) * (den * P) by rw [Nat.mul_assoc, Nat.mul_comm den]]
  rw [← Nat.mul_assoc] at h2
  generalize den * P = y at *
  omega

theorem top_edge {den P num r : Nat} (hu : 0 < den * P) (hn1 : 2 * num ≤ 2 * (r * (den * P)) + den * P)
    (hn2 : 2 * (r * (den * P)) ≤ 2 * num + den * P)
    (htie : 2 * num = 2 * (r * (den * P)) + den * P ∨ 2 * (r * (den * P)) = 2 * num + den * P → r % 2 = 0) (hle : r ≤ 2 ^ 53) :
    r = 2 ^ 53 ↔ (2 ^ 54 - 1) * P * den ≤ 2 * num := by
  rw [show (2 ^ 54 - 1) * P * den = (2 ^ 54 - 1) * (den * P) by rw [Nat.mul_assoc, Nat.mul_comm den]]
  generalize den * P = u at *
  constructor
  · intro h; rw [h] at hn2; clear htie hn1; omega
  · intro h
    by_cases h2 : r = 2 ^ 53
    · exact h2
    · exfalso
      have h3 : r ≤ 9007199254740991 := by clear htie hn1 hn2 h; omega
      have h4 := Nat.mul_le_mul_right u h3
      have h9 := Nat.le_trans h hn1
      have h5 : r * u = 9007199254740991 * u := by
        refine Nat.le_antisymm h4 ?_
        clear h4 htie hn1 hn2 h h2 hle h3 hu
        generalize r * u = x at h9 ⊢
        omega
      have h6 : r = 9007199254740991 := Nat.eq_of_mul_eq_mul_right hu h5
      have h7 : 2 * num = 2 * (r * u) + u := by
        refine Nat.le_antisymm hn1 ?_
        rw [h5]
        refine Nat.le_trans ?_ h
        clear h5 h9 h4 htie hn1 hn2 h h2 hle h3 hu
        omega
      have h8 := htie (.inl h7)
      rw [h6] at h8
      exact absurd h8 (by decide)

/-- Rounding gives the nearest double. -/
theorem round_nearest (s : Bool) (num : Nat) {den : Nat} (hden : 0 < den) :
    match round s num den with
    | .fin s' m q => s' = s ∧ Canonical m q ∧ 2 * num < (2 ^ 54 - 1) * 2 ^ 2045 * den ∧
        ∀ m' q', Canonical m' q' → dist num (m * 2 ^ q * den) ≤ dist num (m' * 2 ^ q' * den) ∧
          (dist num (m * 2 ^ q * den) = dist num (m' * 2 ^ q' * den) → m * 2 ^ q ≠ m' * 2 ^ q' → m % 2 = 0)
    | .inf s' => s' = s ∧ (2 ^ 54 - 1) * 2 ^ 2045 * den ≤ 2 * num
    | .nan => False := by
  unfold round
  obtain ⟨hr1, hr2⟩ := round_range (num := num) hden
  have hbest := fun m' q' (hc : Canonical m' q') => unit_best (q := (num / den).log2 - 52) hden hc hr2
  generalize (num / den).log2 - 52 = q at *
  have hu : 0 < den * 2 ^ q := Nat.mul_pos hden (Nat.two_pow_pos q)
  obtain ⟨hn1, hn2⟩ := rne_near (n := num) hu
  have htie := rne_tie (n := num) hu
  have hle := (rne_range (n := num) hu).1 hr1
  have hge : q = 0 ∨ 2 ^ 52 ≤ rne num (den * 2 ^ q) := by
    rcases hr2 with h | h
    · exact .inl h
    · exact .inr ((rne_range hu).2 h)
  generalize hr : rne num (den * 2 ^ q) = r at *
  have e1 : 2 ^ 2045 = 2 ^ 2044 * 2 := Nat.pow_succ 2 _
  have e2 : 2 ^ 2046 = 2 ^ 2045 * 2 := Nat.pow_succ 2 _
  have hsmall : q ≤ 2044 → 2 * num < (2 ^ 54 - 1) * 2 ^ 2045 * den := by
    intro h
    rw [e1]
    exact top_small hr1 (Nat.mul_le_mul_left _ (Nat.pow_le_pow_right (by decide) h))
  have hbig : 2046 ≤ q → (2 ^ 54 - 1) * 2 ^ 2045 * den ≤ 2 * num := by
    intro h
    rcases hr2 with h0 | h0
    · rw [h0] at h; exact absurd h (by decide)
    · refine top_big h0 ?_
      rw [← e2]
      exact Nat.mul_le_mul_left _ (Nat.pow_le_pow_right (by decide) h)
  clear e1 e2
  have hedge : q = 2045 → (r = 2 ^ 53 ↔ (2 ^ 54 - 1) * 2 ^ 2045 * den ≤ 2 * num) := by
    intro h
    rw [h] at hu hn1 hn2 htie
    exact top_edge hu hn1 hn2 htie hle
  have hval : ∀ {m k}, m * 2 ^ k = r * 2 ^ q → m * 2 ^ k * den = r * (den * 2 ^ q) := by
    intro m k h
    rw [h, Nat.mul_assoc, Nat.mul_comm den]
  generalize (2 ^ 54 - 1) * 2 ^ 2045 * den = top at *
  unfold pack
  by_cases h53 : r = 2 ^ 53
  · rw [if_pos h53]
    have e : 2 ^ 52 * 2 ^ (q + 1) = r * 2 ^ q := by
      rw [h53, ← Nat.pow_add, ← Nat.pow_add, show 52 + (q + 1) = 53 + q by omega]
    by_cases hq : q + 1 ≤ 2045
    · rw [if_pos hq]
      refine ⟨rfl, ⟨by decide, hq, .inr (Nat.le_refl _)⟩, hsmall (by omega), fun m' q' hc => ?_⟩
      rw [hval e, e]
      exact ⟨(hbest m' q' hc).1, fun _ _ => by decide⟩
    · rw [if_neg hq]
      refine ⟨rfl, ?_⟩
      by_cases hq' : q = 2045
      · exact (hedge hq').1 h53
      · exact hbig (by omega)
  · rw [if_neg h53]
    by_cases hq : q ≤ 2045
    · rw [if_pos hq]
      refine ⟨rfl, ⟨by omega, hq, hge⟩, ?_, fun m' q' hc => ?_⟩
      · by_cases hq' : q = 2045
        · exact Nat.lt_of_not_le fun h => h53 ((hedge hq').2 h)
        · exact hsmall (by omega)
      · rw [hval rfl]
        exact hbest m' q' hc
    · rw [if_neg hq]
      exact ⟨rfl, hbig (by omega)⟩

/-- `conv` gives the nearest double. -/
theorem conv_nearest (d : Dec) : NearestDouble d (conv d.neg d.mantissa d.exponent) := by
  have h := round_nearest d.neg (NearestDouble.scaled d) (den := 10 ^ (-d.exponent).toNat) (Nat.pow_pos (by decide))
  have e : conv d.neg d.mantissa d.exponent = round d.neg (NearestDouble.scaled d) (10 ^ (-d.exponent).toNat) := by
    unfold conv NearestDouble.scaled; rfl
  rw [e]
  revert h
  generalize round d.neg (NearestDouble.scaled d) (10 ^ (-d.exponent).toNat) = x
  intro h
  cases x with
  | fin s m q => unfold NearestDouble; exact h
  | inf s => unfold NearestDouble; exact h
  | nan => exact h.elim

end Verif.B64
