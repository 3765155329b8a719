import Verif.Lemmas.Rounding
import Verif.Lemmas.Builtin

/-!
# The built-in number reader where only the last operation rounds
-/

namespace Verif.B64

open Verif Verif.Spec Verif.Builtin

/-- Small integers times small powers of ten are exact. -/
theorem conv_exact (n e : Nat) (h : n * 5 ^ e < 2 ^ 53) (he : e ≤ 900) :
    ∃ m q, conv false n e = .fin false m q ∧ Canonical m q ∧ m * 2 ^ q = n * 10 ^ e * 2 ^ 1074 := by
  obtain ⟨m, q, h1, h2⟩ := canonical_exists (e + 1074) (n * 5 ^ e) h (by omega)
  have e1 : n * 5 ^ e * 2 ^ (e + 1074) = n * 10 ^ e * 2 ^ 1074 := by
    rw [Nat.pow_add, ← Nat.mul_assoc, Nat.mul_assoc n, ← Nat.mul_pow]
  rw [e1] at h2
  refine ⟨m, q, ?_, h1, h2⟩
  have := round_exact false (den := 1) (by decide) h1
  unfold conv
  rw [Int.toNat_natCast, show (-(e : Int)).toNat = 0 by omega, Nat.pow_zero, ← h2]
  rw [Nat.mul_one] at this
  exact this

theorem ofNat_eq (n : Nat) : ofNat n = conv false n (0 : Nat) := by unfold ofNat; rw [Int.natCast_zero]

theorem ofNat_fin (n : Nat) (h : n < 2 ^ 53) : ∃ m q, ofNat n = .fin false m q ∧ Canonical m q ∧ m * 2 ^ q = n * 2 ^ 1074 := by
  rw [ofNat_eq]
  have := conv_exact n 0 (by simpa using h) (by omega)
  rw [Nat.pow_zero, Nat.mul_one] at this
  exact this

attribute [local irreducible] ofNat conv round

theorem conv_round (n e : Nat) : conv false n e = round false (n * 10 ^ e * 2 ^ 1074) 1 := by
  unfold conv
  rw [Int.toNat_natCast, show (-(e : Int)).toNat = 0 by omega, Nat.pow_zero]

theorem regroup (n k t u : Nat) : n * u * (k * t * u) = n * k * t * u * u := by ac_rfl

/-- A small integer times an exact power of ten is rounded once. -/
theorem mul_conv {n k e : Nat} (hn : n < 2 ^ 53) (hk : k * 5 ^ e < 2 ^ 53) (he : e ≤ 900) :
    mul (ofNat n) (conv false k e) = conv false (n * k) e := by
  obtain ⟨m, q, h1, -, h2⟩ := ofNat_fin n hn
  obtain ⟨m', q', h3, -, h4⟩ := conv_exact k e hk he
  rw [h1, h3, conv_round]
  simp only [mul, ulps]
  rw [h2, h4]
  have := round_scale (false != false) (n * k * 10 ^ e * 2 ^ 1074) 1 (k := 2 ^ 1074) (Nat.two_pow_pos _)
  rw [Nat.one_mul] at this
  rw [show n * 2 ^ 1074 * (k * 10 ^ e * 2 ^ 1074) = n * k * 10 ^ e * 2 ^ 1074 * 2 ^ 1074 from regroup _ _ _ _]
  exact this

theorem add_ofNat {n k : Nat} (hn : n < 2 ^ 53) (hk : k < 2 ^ 53) : add (ofNat n) (ofNat k) = ofNat (n + k) := by
  obtain ⟨m, q, h1, -, h2⟩ := ofNat_fin n hn
  obtain ⟨m', q', h3, -, h4⟩ := ofNat_fin k hk
  rw [h1, h3, ofNat_eq, conv_round]
  simp only [add, ulps, if_true]
  rw [h2, h4, Nat.pow_zero, Nat.mul_one, Nat.add_mul]

theorem mul_ten {n : Nat} (hn : n < 2 ^ 53) : mul (ofNat n) (ofNat 10) = ofNat (n * 10) := by
  have h : 10 * 5 ^ 0 < 2 ^ 53 := by decide
  rw [ofNat_eq 10, mul_conv hn h (by omega), ← ofNat_eq]

theorem feed_cons {S : Type} (f : S → Nat → S) (s : S) (c : Byte) (ds : Bytes) :
    feed f s (c :: ds) = feed f (f s (c.toNat - 48)) ds := rfl

theorem feed_nil {S : Type} (f : S → Nat → S) (s : S) : feed f s [] = s := rfl

theorem arith_add : arith.add = add := rfl

theorem arith_mul : arith.mul = mul := rfl

theorem arith_div : arith.div = div := rfl

theorem arith_ofNat : arith.ofNat = ofNat := rfl

theorem whole_exact (ds : Bytes) (hds : ∀ c ∈ ds, Digit c) : ∀ n : Nat, n * 10 ^ ds.length + decimal ds < 2 ^ 53 →
    feed (fun v y => arith.add (arith.mul v (arith.ofNat 10)) (arith.ofNat y)) (ofNat n) ds =
      ofNat (n * 10 ^ ds.length + decimal ds) := by
  induction ds with
  | nil => intro n _; rw [List.length_nil, Nat.pow_zero, Nat.mul_one, decimal, Nat.add_zero, feed, List.foldl_nil]
  | cons c ds ih =>
    intro n h
    have hc9 : c.toNat - 48 < 10 := by
      have hc : Digit c := hds c (by simp)
      unfold Digit at hc
      omega
    have e : n * 10 ^ (c :: ds).length + decimal (c :: ds) = (n * 10 + (c.toNat - 48)) * 10 ^ ds.length + decimal ds := by
      simp only [decimal, List.length_cons, Nat.pow_succ, Nat.add_mul]
      rw [Nat.add_assoc, Nat.mul_assoc n, Nat.mul_comm 10]
    rw [e] at h ⊢
    have hle : n * 10 + (c.toNat - 48) < 2 ^ 53 := by
      have h1 : 1 ≤ 10 ^ ds.length := Nat.pow_pos (by decide)
      have : (n * 10 + (c.toNat - 48)) * 1 ≤ (n * 10 + (c.toNat - 48)) * 10 ^ ds.length := Nat.mul_le_mul_left _ h1
      rw [Nat.mul_one] at this
      exact Nat.lt_of_le_of_lt (Nat.le_trans this (Nat.le_add_right _ _)) h
    rw [← ih (fun d hd => hds d (by simp [hd])) _ h]
    rw [feed_cons, arith_add, arith_mul, arith_ofNat, mul_ten (by omega), add_ofNat (by omega) (by omega)]

/-- The value read for digits with an exponent up to 22. -/
theorem valueOf_exact (ip : Bytes) (hip : ∀ c ∈ ip, Digit c) (e : Option Int) (h : decimal ip < 2 ^ 53) (h0 : 0 ≤ e.getD 0)
    (h22 : e.getD 0 ≤ 22) : valueOf arith ip [] e = conv false (decimal ip) (e.getD 0) := by
  have hw := whole_exact ip hip 0 (by omega)
  rw [Nat.zero_mul, Nat.zero_add] at hw
  rw [arith_ofNat] at hw
  unfold valueOf
  rw [arith_ofNat, hw]
  simp only [feed_nil]
  cases e with
  | none => exact ofNat_eq _
  | some e =>
    simp only [Option.getD_some] at h0 h22 ⊢
    obtain ⟨k, rfl⟩ : ∃ k : Nat, e = k := ⟨e.toNat, by omega⟩
    simp only [applyExp, power]
    rw [if_neg (by omega), if_neg (by omega)]
    show mul (ofNat (decimal ip)) (conv false 1 k) = _
    rw [mul_conv h _ (by omega), Nat.mul_one]
    have : 5 ^ k ≤ 5 ^ 22 := Nat.pow_le_pow_right (by decide) (by omega)
    have h5 : 5 ^ 22 < 2 ^ 53 := by decide
    omega

end Verif.B64
