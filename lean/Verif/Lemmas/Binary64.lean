import Verif.Spec.Binary64
import Verif.Spec.Rfc

namespace Verif.B64

open Verif Verif.Number Verif.Spec

/-! ## Rounding -/

theorem rne_near {n d : Nat} (hd : 0 < d) : 2 * n ≤ 2 * (rne n d * d) + d ∧ 2 * (rne n d * d) ≤ 2 * n + d := by
  have h := Nat.div_add_mod n d
  have hm := Nat.mod_lt n hd
  rw [Nat.mul_comm] at h
  unfold rne
  split
  · omega
  · split
    · rw [Nat.add_mul, Nat.one_mul]; omega
    · split
      · omega
      · rw [Nat.add_mul, Nat.one_mul]; omega

theorem rne_eq {n d k : Nat} (h1 : 2 * n < 2 * (k * d) + d) (h2 : 2 * (k * d) < 2 * n + d) : rne n d = k := by
  have hd : 0 < d := by
    rcases Nat.eq_zero_or_pos d with e | e
    · subst e; omega
    · exact e
  obtain ⟨h3, h4⟩ := rne_near (n := n) hd
  generalize rne n d = r at *
  have ha : r * d < (k + 1) * d := by rw [Nat.add_mul, Nat.one_mul]; omega
  have hb : k * d < (r + 1) * d := by rw [Nat.add_mul, Nat.one_mul]; omega
  have := Nat.lt_of_mul_lt_mul_right ha
  have := Nat.lt_of_mul_lt_mul_right hb
  omega

theorem log2_eq' {a k : Nat} (h1 : 2 ^ k ≤ a) (h2 : a < 2 ^ (k + 1)) : a.log2 = k :=
  (Nat.log2_eq_iff (by have := Nat.two_pow_pos k; omega)).2 ⟨h1, h2⟩

theorem log2_small {a : Nat} (h : a < 2 ^ 53) : a.log2 - 52 = 0 := by
  rcases Nat.eq_zero_or_pos a with e | e
  · subst e; rfl
  · have := (Nat.log2_lt (by omega)).2 h; omega

theorem pack_canonical {m q : Nat} (neg : Bool) (h : Canonical m q) : pack neg m q = .fin neg m q := by
  unfold Canonical at h
  unfold pack
  rw [if_neg (by omega), if_pos h.2.1]

/-- A value within half a unit of the seventeenth digit of a double is rounded to this double. -/
theorem round_close (neg : Bool) {num den m q : Nat} (hd : 0 < den) (hc : Canonical m q)
    (h1 : 20000000000000000 * num ≤ 20000000000000001 * (m * (den * 2 ^ q)))
    (h2 : 19999999999999999 * (m * (den * 2 ^ q)) ≤ 20000000000000000 * num) :
    round neg num den = .fin neg m q := by
  obtain ⟨hm, hq, hn⟩ := hc
  have hA : 0 < den * 2 ^ q := Nat.mul_pos hd (Nat.two_pow_pos q)
  have hP : m * (den * 2 ^ q) ≤ (2 ^ 53 - 1) * (den * 2 ^ q) := Nat.mul_le_mul_right _ (by omega)
  by_cases hz : m = 0
  · subst hz
    have hq0 : q = 0 := by omega
    subst hq0
    have : num = 0 := by omega
    subst this
    unfold round
    rw [Nat.zero_div]
    have : rne 0 (den * 2 ^ (Nat.log2 0 - 52)) = 0 := by
      apply rne_eq <;> simp <;> exact hd
    rw [this]
    exact pack_canonical neg ⟨hm, by simp, by simp⟩
  have hP1 : 1 * (den * 2 ^ q) ≤ m * (den * 2 ^ q) := Nat.mul_le_mul_right _ (by omega)
  have hup : num < 2 ^ 53 * (den * 2 ^ q) := by omega
  have hdiv_up : num / den < 2 ^ (q + 52 + 1) := by
    rw [Nat.div_lt_iff_lt_mul hd, show 2 ^ (q + 52 + 1) * den = 2 ^ 53 * (den * 2 ^ q) by
      rw [show q + 52 + 1 = 53 + q by omega, Nat.pow_add, Nat.mul_assoc, Nat.mul_comm (2 ^ q)]]
    exact hup
  by_cases hcase : q = 0 ∨ 2 ^ 52 * (den * 2 ^ q) ≤ num
  · have hlog : (num / den).log2 - 52 = q := by
      rcases Nat.eq_zero_or_pos q with e | e
      · subst e; exact log2_small (by simpa using hdiv_up)
      · have hlow : 2 ^ 52 * (den * 2 ^ q) ≤ num := by omega
        have : 2 ^ (q + 52) ≤ num / den := by
          rw [Nat.le_div_iff_mul_le hd, show 2 ^ (q + 52) * den = 2 ^ 52 * (den * 2 ^ q) by
            rw [show q + 52 = 52 + q by omega, Nat.pow_add, Nat.mul_assoc, Nat.mul_comm (2 ^ q)]]
          exact hlow
        rw [log2_eq' this hdiv_up]; omega
    unfold round
    rw [hlog, rne_eq (k := m) (by omega) (by omega)]
    exact pack_canonical neg ⟨hm, hq, hn⟩
  · have hq0 : q ≠ 0 := fun e => hcase (.inl e)
    have hlt : num < 2 ^ 52 * (den * 2 ^ q) := Nat.lt_of_not_le fun h => hcase (.inr h)
    have hml : 2 ^ 52 ≤ m := by omega
    have hm52 : m = 2 ^ 52 := by
      apply Classical.byContradiction
      intro hne
      have : (2 ^ 52 + 1) * (den * 2 ^ q) ≤ m * (den * 2 ^ q) := Nat.mul_le_mul_right _ (by omega)
      rw [Nat.add_mul, Nat.one_mul] at this
      omega
    subst hm52
    obtain ⟨p, rfl⟩ : ∃ p, q = p + 1 := ⟨q - 1, by omega⟩
    have hA2 : den * 2 ^ (p + 1) = 2 * (den * 2 ^ p) := by rw [Nat.pow_succ, ← Nat.mul_assoc, Nat.mul_comm]
    have hp : 0 < den * 2 ^ p := Nat.mul_pos hd (Nat.two_pow_pos p)
    rw [hA2] at h1 h2 hlt
    have hlog : (num / den).log2 - 52 = p := by
      have hu : num / den < 2 ^ (p + 52 + 1) := by
        rw [Nat.div_lt_iff_lt_mul hd, show 2 ^ (p + 52 + 1) * den = 2 ^ 52 * (2 * (den * 2 ^ p)) by
          rw [show p + 52 + 1 = 52 + (1 + p) by omega, Nat.pow_add, Nat.pow_add, Nat.mul_assoc, Nat.mul_assoc,
            Nat.mul_comm (2 ^ p)]]
        exact hlt
      have hl : 2 ^ (p + 52) ≤ num / den := by
        rw [Nat.le_div_iff_mul_le hd, show 2 ^ (p + 52) * den = 2 ^ 52 * (den * 2 ^ p) by
          rw [show p + 52 = 52 + p by omega, Nat.pow_add, Nat.mul_assoc, Nat.mul_comm (2 ^ p)]]
        omega
      rw [log2_eq' hl hu]; omega
    unfold round
    rw [hlog, rne_eq (k := 2 ^ 53) (by omega) (by omega)]
    unfold pack
    rw [if_pos rfl, if_pos hq]

/-! ## The seventeen digits -/

theorem seek_spec (n d : Nat) : ∀ (f s : Nat), (s = 0 ∨ d * 10 ^ s ≤ n) → n < d * 10 ^ (s + f + 1) →
    s ≤ seek n d f s ∧ seek n d f s ≤ s + f ∧ n < d * 10 ^ (seek n d f s + 1) ∧ (seek n d f s = 0 ∨ d * 10 ^ seek n d f s ≤ n)
  | 0, s, h1, h2 => by simp only [seek]; exact ⟨Nat.le_refl _, Nat.le_refl _, h2, h1⟩
  | f + 1, s, h1, h2 => by
      simp only [seek]
      split
      · rename_i h; exact ⟨Nat.le_refl _, by omega, h, h1⟩
      · rename_i h
        have := seek_spec n d f (s + 1) (.inr (by omega)) (by rwa [show s + 1 + f + 1 = s + (f + 1) + 1 by omega])
        refine ⟨by omega, by omega, this.2.2.1, this.2.2.2⟩

theorem big1 : 2 ^ 1074 ≤ 10 ^ 324 := by decide +kernel
theorem big2 : 2 ^ 53 * 2 ^ 2045 * 10 ^ 324 ≤ 2 ^ 1074 * 10 ^ 633 := by decide +kernel

/-- The decimal exponent: `10^x ≤ n * 2^(-1074) < 10^(x + 1)` for `x = exponent10 n - 324`. -/
theorem exponent10_spec {n : Nat} (h0 : 0 < n) (hn : n < 2 ^ 53 * 2 ^ 2045) :
    exponent10 n ≤ 633 ∧ 2 ^ 1074 * 10 ^ exponent10 n ≤ n * 10 ^ 324 ∧ n * 10 ^ 324 < 2 ^ 1074 * 10 ^ (exponent10 n + 1) := by
  have hb : n * 10 ^ 324 < 2 ^ 1074 * 10 ^ (0 + 633 + 1) := by
    refine Nat.lt_of_lt_of_le (Nat.mul_lt_mul_of_pos_right hn (Nat.pow_pos (by decide))) (Nat.le_trans big2 ?_)
    exact Nat.mul_le_mul_left _ (Nat.pow_le_pow_right (by decide) (by omega))
  obtain ⟨-, h2, h3, h4⟩ := seek_spec (n * 10 ^ 324) (2 ^ 1074) 633 0 (.inl rfl) hb
  refine ⟨by unfold exponent10; omega, ?_, h3⟩
  rcases h4 with h4 | h4
  · unfold exponent10; rw [h4, Nat.pow_zero, Nat.mul_one]
    exact Nat.le_trans big1 (Nat.le_mul_of_pos_left _ h0)
  · exact h4

/-- The digits: their value `d * 10^(x - 16)` differs from the number by at most half a unit of the last digit, which is at
most `10^(-16)` of the number. -/
theorem sig17_spec {n : Nat} (h0 : 0 < n) (hn : n < 2 ^ 53 * 2 ^ 2045) :
    10 ^ 16 ≤ (sig17 n).1 ∧ (sig17 n).1 < 10 ^ 17 ∧ (sig17 n).2 ≤ 634 ∧
    ∃ B, B * 10 ^ 16 ≤ n * 10 ^ 340 ∧ 2 * ((sig17 n).1 * (2 ^ 1074 * 10 ^ (sig17 n).2)) ≤ 2 * (n * 10 ^ 340) + B ∧
      2 * (n * 10 ^ 340) ≤ 2 * ((sig17 n).1 * (2 ^ 1074 * 10 ^ (sig17 n).2)) + B := by
  obtain ⟨h1, h2, h3⟩ := exponent10_spec h0 hn
  have hB : 0 < 2 ^ 1074 * 10 ^ exponent10 n := Nat.mul_pos (Nat.two_pow_pos _) (Nat.pow_pos (by decide))
  obtain ⟨h4, h5⟩ := rne_near (n := n * 10 ^ 340) hB
  have e1 : n * 10 ^ 340 = n * 10 ^ 324 * 10 ^ 16 := by rw [Nat.mul_assoc, ← Nat.pow_add]
  have h2' : 2 ^ 1074 * 10 ^ exponent10 n * 10 ^ 16 ≤ n * 10 ^ 340 := by rw [e1]; exact Nat.mul_le_mul_right _ h2
  have h3' : n * 10 ^ 340 < 2 ^ 1074 * 10 ^ exponent10 n * 10 ^ 17 := by
    rw [e1, show 2 ^ 1074 * 10 ^ exponent10 n * 10 ^ 17 = 2 ^ 1074 * 10 ^ (exponent10 n + 1) * 10 ^ 16 by
      rw [Nat.mul_assoc, Nat.mul_assoc, ← Nat.pow_add, ← Nat.pow_add]]
    exact Nat.mul_lt_mul_of_pos_right h3 (Nat.pow_pos (by decide))
  have hlow : 10 ^ 16 ≤ rne (n * 10 ^ 340) (2 ^ 1074 * 10 ^ exponent10 n) := by
    generalize rne (n * 10 ^ 340) (2 ^ 1074 * 10 ^ exponent10 n) = r at *
    generalize 2 ^ 1074 * 10 ^ exponent10 n = B at *
    have : 10 ^ 16 * B < (r + 1) * B := by rw [Nat.add_mul, Nat.one_mul, Nat.mul_comm]; omega
    have := Nat.lt_of_mul_lt_mul_right this
    omega
  have hup : rne (n * 10 ^ 340) (2 ^ 1074 * 10 ^ exponent10 n) ≤ 10 ^ 17 := by
    generalize rne (n * 10 ^ 340) (2 ^ 1074 * 10 ^ exponent10 n) = r at *
    generalize 2 ^ 1074 * 10 ^ exponent10 n = B at *
    have : r * B < (10 ^ 17 + 1) * B := by rw [Nat.add_mul (10 ^ 17), Nat.one_mul, Nat.mul_comm (10 ^ 17)]; omega
    have := Nat.lt_of_mul_lt_mul_right this
    omega
  have hs : sig17 n = if rne (n * 10 ^ 340) (2 ^ 1074 * 10 ^ exponent10 n) = 10 ^ 17 then (10 ^ 16, exponent10 n + 1)
      else (rne (n * 10 ^ 340) (2 ^ 1074 * 10 ^ exponent10 n), exponent10 n) := rfl
  rw [hs]
  split
  · rename_i he
    rw [he] at h4 h5
    have e2 : 10 ^ 16 * (2 ^ 1074 * 10 ^ (exponent10 n + 1)) = 10 ^ 17 * (2 ^ 1074 * 10 ^ exponent10 n) := by
      rw [Nat.pow_succ 10 (exponent10 n), ← Nat.mul_assoc (2 ^ 1074), Nat.mul_comm _ 10, ← Nat.mul_assoc (10 ^ 16)]
    refine ⟨Nat.le_refl _, Nat.pow_lt_pow_right (by decide) (by decide), by omega, _, h2', ?_, ?_⟩
    · rw [e2]; exact h5
    · rw [e2]; exact h4
  · rename_i he
    dsimp only
    refine ⟨hlow, Nat.lt_of_le_of_ne hup he, by omega, 2 ^ 1074 * 10 ^ exponent10 n, h2', h5, h4⟩

/-! ## Digits -/

theorem digs_length : ∀ (w n : Nat), (digs w n).length = w
  | 0, _ => rfl
  | w + 1, n => by simp [digs, digs_length w]

theorem digit_byte {k : Nat} (h : k < 10) : (UInt8.ofNat (48 + k)).toNat = 48 + k := by
  simp [UInt8.toNat_ofNat']; omega

theorem digs_digit : ∀ (w n : Nat), ∀ c ∈ digs w n, Digit c
  | 0, _ => by simp [digs]
  | w + 1, n => by
      intro c hc
      rcases List.mem_append.1 hc with hc | hc
      · exact digs_digit w _ c hc
      · rw [List.mem_singleton.1 hc]
        have := Nat.mod_lt n (show 0 < 10 by decide)
        unfold Digit; rw [digit_byte this]; omega

theorem decimal_append : ∀ (a b : Bytes), decimal (a ++ b) = decimal a * 10 ^ b.length + decimal b
  | [], b => by simp [decimal]
  | c :: a, b => by
      rw [List.cons_append, decimal, decimal, decimal_append a b, List.length_append, Nat.add_mul, Nat.pow_add, Nat.mul_assoc,
        Nat.add_assoc]

theorem digs_decimal : ∀ (w n : Nat), n < 10 ^ w → decimal (digs w n) = n
  | 0, n, h => by simp at h; subst h; rfl
  | w + 1, n, h => by
      have hm := Nat.mod_lt n (show 0 < 10 by decide)
      rw [digs, decimal_append, digs_decimal w (n / 10) (by rw [Nat.div_lt_iff_lt_mul (by decide)]; rwa [Nat.pow_succ] at h)]
      simp only [List.length_singleton, decimal, List.length_nil, digit_byte hm]
      omega

/-- The first of the digits is not zero if the number has as many digits. -/
theorem digs_head {w n : Nat} (h1 : 10 ^ w ≤ n) (h2 : n < 10 ^ (w + 1)) :
    ∃ c l, digs (w + 1) n = c :: l ∧ Digit c ∧ c ≠ 48 ∧ (∀ x ∈ l, Digit x) ∧ l.length = w := by
  have hl := digs_length (w + 1) n
  have hd := digs_digit (w + 1) n
  have hv := digs_decimal (w + 1) n h2
  generalize digs (w + 1) n = t at *
  cases t with
  | nil => simp at hl
  | cons c l =>
      refine ⟨c, l, rfl, hd c (by simp), ?_, fun x hx => hd x (by simp [hx]), by simpa using hl⟩
      rintro rfl
      have hl' : l.length = w := by simpa using hl
      have hlt : ∀ (l : Bytes), (∀ x ∈ l, Digit x) → decimal l < 10 ^ l.length := by
        intro l
        induction l with
        | nil => intro _; simp [decimal]
        | cons c l ih =>
            intro h
            have h1 := ih fun x hx => h x (by simp [hx])
            have h2 := h c (by simp)
            unfold Digit at h2
            rw [decimal, List.length_cons, Nat.pow_succ]
            have : (c.toNat - 48) * 10 ^ l.length ≤ 9 * 10 ^ l.length := Nat.mul_le_mul_right _ (by omega)
            omega
      have := hlt l fun x hx => hd x (by simp [hx])
      rw [decimal] at hv
      rw [hl'] at this
      simp at hv
      omega

/-- Trailing zeros. -/
theorem stripZ_spec (l : Bytes) : ∃ z, l = stripZ l ++ List.replicate z 48 := by
  have key : ∀ r : Bytes, ∃ z, r = List.replicate z 48 ++ r.dropWhile (· == 48) := by
    intro r
    induction r with
    | nil => exact ⟨0, rfl⟩
    | cons c r ih =>
        by_cases hc : c = 48
        · obtain ⟨z, hz⟩ := ih
          refine ⟨z + 1, ?_⟩
          subst hc
          rw [List.dropWhile_cons_of_pos (by simp), List.replicate_succ, List.cons_append, ← hz]
        · exact ⟨0, by rw [List.dropWhile_cons_of_neg (by simpa using hc)]; rfl⟩
  obtain ⟨z, hz⟩ := key l.reverse
  refine ⟨z, ?_⟩
  have := congrArg List.reverse hz
  rw [List.reverse_reverse, List.reverse_append, List.reverse_replicate] at this
  exact this

theorem decimal_zeros : ∀ z : Nat, decimal (List.replicate z 48) = 0
  | 0 => rfl
  | z + 1 => by rw [List.replicate_succ, decimal, decimal_zeros z]; simp

/-- Stripping zeros divides by a power of ten. -/
theorem strip_decimal (a b : Bytes) : ∃ z, b.length = (stripZ b).length + z ∧
    decimal (a ++ b) = decimal (a ++ stripZ b) * 10 ^ z ∧ ((∀ x ∈ b, Digit x) → ∀ x ∈ stripZ b, Digit x) := by
  obtain ⟨z, hz⟩ := stripZ_spec b
  refine ⟨z, by conv => lhs; rw [hz]
                simp, ?_, ?_⟩
  · conv => lhs; rw [hz]
    rw [← List.append_assoc, decimal_append _ (List.replicate z 48), decimal_zeros, List.length_replicate, Nat.add_zero]
  · intro h x hx
    apply h
    rw [hz]; exact List.mem_append_left _ hx

theorem frac_rfc {fp : Bytes} (h : ∀ x ∈ fp, Digit x) : RfcFrac (frac fp) fp := by
  unfold frac
  split
  · rename_i e; subst e; exact .none
  · rename_i e; exact .some e h

theorem expo_rfc {x : Int} (h : x.natAbs < 1000) : RfcExp (expo x) x := by
  have key : ∃ ds : Bytes, (if x.natAbs < 100 then digs 2 x.natAbs else digs 3 x.natAbs) = ds ∧ ds ≠ [] ∧ (∀ d ∈ ds, Digit d) ∧
      decimal ds = x.natAbs := by
    split
    · rename_i hx
      exact ⟨_, rfl, by intro e; have := digs_length 2 x.natAbs; rw [e] at this; simp at this, digs_digit _ _,
        digs_decimal 2 _ hx⟩
    · exact ⟨_, rfl, by intro e; have := digs_length 3 x.natAbs; rw [e] at this; simp at this, digs_digit _ _,
        digs_decimal 3 _ h⟩
  obtain ⟨ds, e1, e2, e3, e4⟩ := key
  unfold expo
  rw [e1]
  by_cases hx : x < 0
  · rw [if_pos hx]
    have := RfcExp.minus (c := 101) (.inl rfl) e2 e3
    rwa [e4, show -((x.natAbs : Nat) : Int) = x by omega] at this
  · rw [if_neg hx]
    have := RfcExp.plus (c := 101) (.inl rfl) e2 e3
    rwa [e4, show ((x.natAbs : Nat) : Int) = x by omega] at this

/-- The parts of the printed text: RFC 8259 integer, fraction and exponent, not a zero followed by an exponent; its value is
`d * 10^(x - 16)`. -/
theorem style_spec {d : Nat} {x : Int} (h1 : 10 ^ 16 ≤ d) (h2 : d < 10 ^ 17) (hx : x.natAbs < 1000) :
    ∃ i ft fd et e, style d x = i ++ (ft ++ et) ∧ RfcInt i ∧ RfcFrac ft fd ∧ RfcExp et e ∧ (i = [48] → et = []) ∧
      ∃ z : Nat, d = decimal (i ++ fd) * 10 ^ z ∧ e - fd.length = x - 16 + z := by
  have hl := digs_length 17 d
  have hd := digs_digit 17 d
  have hv := digs_decimal 17 d h2
  obtain ⟨c, l, e1, hc, hc0, hl', hll⟩ := digs_head (w := 16) h1 h2
  have hint : ∀ k, RfcInt ((digs 17 d).take (k + 1)) := by
    intro k
    rw [e1, List.take_succ_cons]
    exact .pos hc hc0 fun y hy => hl' y (List.mem_of_mem_take hy)
  have hne : ∀ k, (digs 17 d).take (k + 1) ≠ [48] := by
    intro k e
    rw [e1, List.take_succ_cons] at e
    injection e with e _
    exact hc0 e
  unfold style
  by_cases hf : -4 ≤ x ∧ x < 17
  · rw [if_pos hf]
    by_cases hp : 0 ≤ x
    · rw [if_pos hp]
      obtain ⟨z, hz1, hz2, hz3⟩ := strip_decimal ((digs 17 d).take (x.toNat + 1)) ((digs 17 d).drop (x.toNat + 1))
      rw [List.take_append_drop, hv] at hz2
      refine ⟨_, _, _, [], 0, by rw [List.append_nil], hint _, frac_rfc (hz3 fun y hy => hd y (List.mem_of_mem_drop hy)), .none,
        fun _ => rfl, z, hz2, ?_⟩
      rw [List.length_drop, hl] at hz1
      omega
    · rw [if_neg hp]
      obtain ⟨z, hz1, hz2, hz3⟩ := strip_decimal [48] (List.replicate ((-x).toNat - 1) 48 ++ digs 17 d)
      refine ⟨[48], _, _, [], 0, by rw [List.append_nil]; rfl, .zero, frac_rfc (hz3 ?_), .none, fun _ => rfl, z, ?_, ?_⟩
      · intro y hy
        rcases List.mem_append.1 hy with hy | hy
        · rw [(List.mem_replicate.1 hy).2]; unfold Digit; decide
        · exact hd y hy
      · rw [← hz2, decimal_append, decimal_append (List.replicate _ _), decimal_zeros, hv]
        simp [decimal]
      · rw [List.length_append, List.length_replicate, hl] at hz1
        omega
  · rw [if_neg hf]
    obtain ⟨z, hz1, hz2, hz3⟩ := strip_decimal ((digs 17 d).take 1) ((digs 17 d).drop 1)
    rw [List.take_append_drop, hv] at hz2
    refine ⟨_, _, _, _, x, rfl, hint 0, frac_rfc (hz3 fun y hy => hd y (List.mem_of_mem_drop hy)), expo_rfc hx,
      fun e => absurd e (hne 0), z, hz2, ?_⟩
    rw [List.length_drop, hl] at hz1
    omega

/-! ## Length of the text -/

theorem stripZ_length (l : Bytes) : (stripZ l).length ≤ l.length := by
  obtain ⟨z, hz⟩ := stripZ_spec l
  have := congrArg List.length hz
  rw [List.length_append] at this
  omega

theorem frac_length (l : Bytes) : (frac l).length ≤ l.length + 1 := by
  unfold frac; split <;> simp

theorem expo_length (x : Int) : (expo x).length ≤ 5 := by
  unfold expo
  rw [List.length_cons, List.length_cons]
  split <;> rw [digs_length] <;> omega

theorem style_length (d : Nat) (x : Int) : (style d x).length ≤ 23 := by
  unfold style
  have hl := digs_length 17 d
  split
  · rename_i h
    split
    · rw [List.length_append]
      have h1 := frac_length (stripZ ((digs 17 d).drop (x.toNat + 1)))
      have h2 := stripZ_length ((digs 17 d).drop (x.toNat + 1))
      rw [List.length_drop] at h2
      rw [List.length_take]
      omega
    · rw [List.length_cons]
      have h1 := frac_length (stripZ (List.replicate ((-x).toNat - 1) 48 ++ digs 17 d))
      have h2 := stripZ_length (List.replicate ((-x).toNat - 1) 48 ++ digs 17 d)
      rw [List.length_append, List.length_replicate] at h2
      omega
  · rw [List.length_append, List.length_append]
    have h1 := frac_length (stripZ ((digs 17 d).drop 1))
    have h2 := stripZ_length ((digs 17 d).drop 1)
    have h3 := expo_length x
    rw [List.length_drop] at h2
    rw [List.length_take]
    omega

theorem fmt_length (x : Dbl) : (fmt x).length ≤ 24 := by
  cases x with
  | fin s m q =>
      have : (magnitude (m * 2 ^ q)).length ≤ 23 := by
        unfold magnitude; split
        · decide
        · exact style_length _ _
      rw [fmt, List.length_append]
      cases s <;> simp <;> omega
  | inf s => cases s <;> decide
  | nan => decide

/-- The buffer is large enough. -/
theorem ops_fmt (x : Dbl) : ops.fmt x = fmt x := List.take_of_length_le (Nat.le_trans (fmt_length x) (by decide))

theorem stripZ_mem {l : Bytes} {c : Byte} (h : c ∈ stripZ l) : c ∈ l := by
  obtain ⟨z, hz⟩ := stripZ_spec l
  rw [hz]; exact List.mem_append_left _ h

theorem frac_mem {l : Bytes} {c : Byte} (h : c ∈ frac l) : c = 46 ∨ c ∈ l := by
  unfold frac at h
  split at h
  · cases h
  · simpa using h

theorem digs_mem {w n : Nat} {c : Byte} (h : c ∈ digs w n) : c ≠ 0 := by
  have := digs_digit w n c h
  rintro rfl
  unfold Digit at this
  simp at this

theorem style_nul_free (d : Nat) (x : Int) : (0 : Byte) ∉ style d x := by
  intro h
  unfold style at h
  split at h
  · split at h
    · rcases List.mem_append.1 h with h | h
      · exact digs_mem (List.mem_of_mem_take h) rfl
      · rcases frac_mem h with h | h
        · exact absurd h (by decide)
        · exact digs_mem (List.mem_of_mem_drop (stripZ_mem h)) rfl
    · rcases List.mem_cons.1 h with h | h
      · exact absurd h (by decide)
      · rcases frac_mem h with h | h
        · exact absurd h (by decide)
        · rcases List.mem_append.1 (stripZ_mem h) with h | h
          · exact absurd (List.mem_replicate.1 h).2 (by decide)
          · exact digs_mem h rfl
  · rcases List.mem_append.1 h with h | h
    · exact digs_mem (List.mem_of_mem_take h) rfl
    · rcases List.mem_append.1 h with h | h
      · rcases frac_mem h with h | h
        · exact absurd h (by decide)
        · exact digs_mem (List.mem_of_mem_drop (stripZ_mem h)) rfl
      · unfold expo at h
        rcases List.mem_cons.1 h with h | h
        · exact absurd h (by decide)
        · rcases List.mem_cons.1 h with h | h
          · split at h <;> exact absurd h (by decide)
          · split at h <;> exact digs_mem h rfl

theorem fmt_nul_free (x : Dbl) : (0 : Byte) ∉ fmt x := by
  cases x with
  | fin s m q =>
      intro h
      rw [fmt] at h
      rcases List.mem_append.1 h with h | h
      · split at h
        · exact absurd h (by decide)
        · cases h
      · unfold magnitude at h
        split at h
        · exact absurd h (by decide)
        · exact style_nul_free _ _ h
  | inf s => cases s <;> decide
  | nan => decide

/-! ## Round trip -/

theorem conv_style {n m q : Nat} (neg : Bool) (hc : Canonical m q) (hn : n = m * 2 ^ q) (h0 : 0 < n) {k z : Nat} {e : Int}
    (hd : (sig17 n).1 = k * 10 ^ z) (he : e = ((sig17 n).2 : Int) - 324 - 16 + z) : conv neg k e = .fin neg m q := by
  have hlt : n < 2 ^ 53 * 2 ^ 2045 := by
    rw [hn]
    refine Nat.lt_of_lt_of_le (Nat.mul_lt_mul_of_pos_right hc.1 (Nat.two_pow_pos q)) ?_
    exact Nat.mul_le_mul_left _ (Nat.pow_le_pow_right (by decide) hc.2.1)
  obtain ⟨-, -, -, B, hB, h3, h4⟩ := sig17_spec h0 hlt
  unfold conv
  have hden : 0 < 10 ^ (-e).toNat := Nat.pow_pos (by decide)
  have key : k * 10 ^ e.toNat * 2 ^ 1074 * 10 ^ 340 =
      (sig17 n).1 * (2 ^ 1074 * 10 ^ (sig17 n).2) * 10 ^ (-e).toNat := by
    rw [hd]
    have hp : 10 ^ e.toNat * 10 ^ 340 = 10 ^ z * 10 ^ (sig17 n).2 * 10 ^ (-e).toNat := by
      rw [← Nat.pow_add, ← Nat.pow_add, ← Nat.pow_add]
      have hexp : e.toNat + 340 = z + (sig17 n).2 + (-e).toNat := by clear hlt hB h3 h4 hden hd hn h0; omega
      rw [hexp]
    calc k * 10 ^ e.toNat * 2 ^ 1074 * 10 ^ 340 = k * (10 ^ e.toNat * 10 ^ 340) * 2 ^ 1074 := by
          rw [Nat.mul_assoc k, Nat.mul_assoc k, Nat.mul_assoc k, Nat.mul_right_comm]
      _ = k * (10 ^ z * 10 ^ (sig17 n).2 * 10 ^ (-e).toNat) * 2 ^ 1074 := by rw [hp]
      _ = k * 10 ^ z * (2 ^ 1074 * 10 ^ (sig17 n).2) * 10 ^ (-e).toNat := by
          simp only [Nat.mul_assoc, Nat.mul_comm (2 ^ 1074), Nat.mul_left_comm (2 ^ 1074)]
  have hK : 0 < 10 ^ 340 := Nat.pow_pos (by decide)
  have hx : m * (10 ^ (-e).toNat * 2 ^ q) = n * 10 ^ (-e).toNat := by
    rw [hn, Nat.mul_comm (10 ^ _), Nat.mul_assoc]
  generalize (sig17 n).1 * (2 ^ 1074 * 10 ^ (sig17 n).2) = S at *
  generalize 10 ^ (-e).toNat = den at *
  generalize k * 10 ^ e.toNat * 2 ^ 1074 = num at *
  have hBd : B * den * 10 ^ 16 ≤ n * den * 10 ^ 340 := by
    have := Nat.mul_le_mul_right den hB
    rwa [Nat.mul_right_comm, Nat.mul_right_comm n] at this
  have h3' : 2 * (num * 10 ^ 340) ≤ 2 * (n * den * 10 ^ 340) + B * den := by
    have := Nat.mul_le_mul_right den h3
    rwa [Nat.add_mul, Nat.mul_assoc, ← key, Nat.mul_assoc, Nat.mul_right_comm n] at this
  have h4' : 2 * (n * den * 10 ^ 340) ≤ 2 * (num * 10 ^ 340) + B * den := by
    have := Nat.mul_le_mul_right den h4
    rwa [Nat.add_mul, Nat.mul_assoc 2, Nat.mul_assoc 2, ← key, Nat.mul_right_comm n] at this
  apply round_close neg hden hc
  · rw [hx]
    apply Nat.le_of_mul_le_mul_right _ hK
    rw [Nat.mul_assoc, Nat.mul_assoc]
    generalize 10 ^ 340 = K at *
    generalize num * K = u at *
    generalize n * den * K = v at *
    omega
  · rw [hx]
    apply Nat.le_of_mul_le_mul_right _ hK
    rw [Nat.mul_assoc 19999999999999999, Nat.mul_assoc 20000000000000000]
    generalize 10 ^ 340 = K at *
    generalize num * K = u at *
    generalize n * den * K = v at *
    omega

theorem pow_pos_canon {m q : Nat} (h : m * 2 ^ q = 0) : m = 0 := by
  rcases Nat.mul_eq_zero.1 h with h | h
  · exact h
  · exact absurd h (Nat.pos_iff_ne_zero.1 (Nat.two_pow_pos q))

/-- The text printed for a finite double is an RFC 8259 number, not a zero followed by an exponent, and is converted to the
same double. -/
theorem fmt_conv (s : Bool) {m q : Nat} (hc : Canonical m q) :
    ∃ d : Dec, SafeNum (ops.fmt (.fin s m q)) d ∧ .fin s m q = ops.conv d.neg d.mantissa d.exponent := by
  rw [ops_fmt]
  have hparts : ∃ i ft fd et e, magnitude (m * 2 ^ q) = i ++ (ft ++ et) ∧ RfcInt i ∧ RfcFrac ft fd ∧ RfcExp et e ∧
      (i = [48] → et = []) ∧ conv s (decimal (i ++ fd)) (e - fd.length) = .fin s m q := by
    unfold magnitude
    by_cases h0 : m * 2 ^ q = 0
    · rw [if_pos h0]
      refine ⟨[48], [], [], [], 0, rfl, .zero, .none, .none, fun _ => rfl, ?_⟩
      have hm := pow_pos_canon h0
      subst hm
      have hq : q = 0 := by
        rcases hc.2.2 with h | h
        · exact h
        · exact absurd h (by decide)
      subst hq
      exact round_close s (by decide) hc (by decide +kernel) (by decide +kernel)
    · rw [if_neg h0]
      have hlt : m * 2 ^ q < 2 ^ 53 * 2 ^ 2045 := by
        refine Nat.lt_of_lt_of_le (Nat.mul_lt_mul_of_pos_right hc.1 (Nat.two_pow_pos q)) ?_
        exact Nat.mul_le_mul_left _ (Nat.pow_le_pow_right (by decide) hc.2.1)
      obtain ⟨h1, h2, h3, -⟩ := sig17_spec (by omega) hlt
      obtain ⟨i, ft, fd, et, e, e1, e2, e3, e4, e5, z, e6, e7⟩ :=
        style_spec (x := ((sig17 (m * 2 ^ q)).2 : Int) - 324) h1 h2 (by omega)
      exact ⟨i, ft, fd, et, e, e1, e2, e3, e4, e5, conv_style s hc rfl (by omega) e6 e7⟩
  obtain ⟨i, ft, fd, et, e, e1, e2, e3, e4, e5, e6⟩ := hparts
  have hz : ∀ sg : Bytes, sg = [] ∨ sg = [0x2D] → ¬ ZeroExp (sg ++ (i ++ (ft ++ et))) := by
    rintro sg hsg ⟨sg', c, r, hsg', hc', e⟩
    have hhead : ∃ a l, i = a :: l ∧ a ≠ 0x2D := by
      cases e2 with
      | zero => exact ⟨_, _, rfl, by decide⟩
      | pos h1 h2 h3 =>
          refine ⟨_, _, rfl, ?_⟩
          rintro rfl
          exact absurd h1 (by unfold Digit; decide)
    obtain ⟨a, l, hi, ha⟩ := hhead
    have hsame : i ++ (ft ++ et) = 0x30 :: c :: r := by
      rcases hsg with rfl | rfl <;> rcases hsg' with rfl | rfl
      · exact e
      · rw [hi] at e; simp at e; exact absurd e.1 ha
      · simp at e
      · simpa using e
    cases e2 with
    | zero =>
        have het := e5 rfl
        subst het
        cases e3 with
        | none => simp at hsame
        | some _ _ =>
            simp at hsame
            rcases hc' with rfl | rfl <;> exact absurd hsame.1 (by decide)
    | pos h1 h2 h3 => simp at hsame; exact h2 hsame.1
  cases s with
  | false =>
      refine ⟨⟨false, decimal (i ++ fd), e - fd.length⟩, ⟨?_, ?_⟩, e6.symm⟩
      · show RfcNum (fmt (.fin false m q)) _
        rw [fmt, e1]; exact RfcNum.pos e2 e3 e4
      · show ¬ ZeroExp (fmt (.fin false m q))
        rw [fmt, e1]; exact hz [] (.inl rfl)
  | true =>
      refine ⟨⟨true, decimal (i ++ fd), e - fd.length⟩, ⟨?_, ?_⟩, e6.symm⟩
      · show RfcNum (fmt (.fin true m q)) _
        rw [fmt, e1]; exact RfcNum.neg e2 e3 e4
      · show ¬ ZeroExp (fmt (.fin true m q))
        rw [fmt, e1]; exact hz [0x2D] (.inr rfl)

/-! ## Bits -/

theorem ofBits_finite {b : Nat} (h : b / 2 ^ 52 % 2048 ≠ 2047) : Finite (ofBits b) := by
  have hf := Nat.mod_lt b (show 0 < 2 ^ 52 by decide)
  have he := Nat.mod_lt (b / 2 ^ 52) (show 0 < 2048 by decide)
  unfold ofBits
  simp only [h, if_false]
  generalize b % 2 ^ 52 = f at *
  generalize b / 2 ^ 52 % 2048 = e at *
  split
  · exact ⟨by omega, by omega, .inl rfl⟩
  · exact ⟨by omega, by omega, .inr (by omega)⟩

theorem bits_parts {b : Nat} (h : b < 2 ^ 64) : b = b / 2 ^ 63 % 2 * 2 ^ 63 + b / 2 ^ 52 % 2048 * 2 ^ 52 + b % 2 ^ 52 := by
  omega

/-- Two doubles with the same value and sign have the same bits. -/
theorem ofBits_injective {b c : Nat} (hb : b < 2 ^ 64) (hc : c < 2 ^ 64) (hf : b / 2 ^ 52 % 2048 ≠ 2047)
    (h : ofBits b = ofBits c) : b = c := by
  rw [bits_parts hb, bits_parts hc]
  have h1 := Nat.mod_lt b (show 0 < 2 ^ 52 by decide)
  have h2 := Nat.mod_lt c (show 0 < 2 ^ 52 by decide)
  have h3 : b / 2 ^ 63 % 2 < 2 := Nat.mod_lt _ (by decide)
  have h4 : c / 2 ^ 63 % 2 < 2 := Nat.mod_lt _ (by decide)
  clear hb hc
  unfold ofBits at h
  generalize b / 2 ^ 63 % 2 = s1 at *
  generalize c / 2 ^ 63 % 2 = s2 at *
  generalize b / 2 ^ 52 % 2048 = e1 at *
  generalize c / 2 ^ 52 % 2048 = e2 at *
  generalize b % 2 ^ 52 = f1 at *
  generalize c % 2 ^ 52 = f2 at *
  have hs : ∀ {p q : Prop} [Decidable p] [Decidable q], decide p = decide q → (p ↔ q) := fun h => by simpa using h
  simp only [hf, if_false] at h
  have e : s1 = s2 ∧ e1 = e2 ∧ f1 = f2 := by
    split at h <;> split at h <;> try split at h
    all_goals first
      | (simp only [Dbl.fin.injEq] at h
         obtain ⟨h5, h6, h7⟩ := h
         have h8 := hs h5
         refine ⟨?_, ?_, ?_⟩ <;> omega)
      | cases h
  rw [e.1, e.2.1, e.2.2]

/-- Every finite double has its bits. -/
theorem ofBits_surjective {x : Dbl} (h : Finite x) : ∃ b, b < 2 ^ 64 ∧ b / 2 ^ 52 % 2048 ≠ 2047 ∧ ofBits b = x := by
  cases x with
  | inf _ => exact h.elim
  | nan => exact h.elim
  | fin s m q =>
      obtain ⟨h1, h2, h3⟩ := h
      have key : ∀ a e f : Nat, a < 2 → e < 2047 → f < 2 ^ 52 → a * 2 ^ 63 + e * 2 ^ 52 + f < 2 ^ 64 ∧
          (a * 2 ^ 63 + e * 2 ^ 52 + f) / 2 ^ 63 % 2 = a ∧ (a * 2 ^ 63 + e * 2 ^ 52 + f) / 2 ^ 52 % 2048 = e ∧
          (a * 2 ^ 63 + e * 2 ^ 52 + f) % 2 ^ 52 = f := by
        intro a e f ha he hf
        omega
      have hsign : decide ((if s then 1 else 0) = 1) = s := by cases s <;> rfl
      by_cases hm : m < 2 ^ 52
      · obtain ⟨k1, k2, k3, k4⟩ := key (if s then 1 else 0) 0 m (by split <;> decide) (by decide) hm
        refine ⟨_, k1, by rw [k3]; decide, ?_⟩
        unfold ofBits
        simp only [k2, k3, k4, hsign]
        have : q = 0 := by omega
        subst this
        rfl
      · obtain ⟨k1, k2, k3, k4⟩ := key (if s then 1 else 0) (q + 1) (m - 2 ^ 52) (by split <;> decide) (by omega) (by omega)
        refine ⟨_, k1, by rw [k3]; omega, ?_⟩
        unfold ofBits
        simp only [k2, k3, k4, hsign]
        rw [if_neg (by omega), if_neg (by omega), show 2 ^ 52 + (m - 2 ^ 52) = m by omega]
        rfl

end Verif.B64
