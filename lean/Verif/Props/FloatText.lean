import Verif.Lemmas.FloatValue
import Verif.Lemmas.NumTokens
import Verif.Props.DynString

/-!
# Properties of printed floats (C79, C80)

Without `JSON4C4_USE_SYSTEM_DOUBLE_STRING_CONVERSIONS` numbers are written with `Text::FloatToString`. Everything here
holds for every behaviour of `Log` and `Exp` (the parameter `e`), under the stated conditions.
-/

namespace Verif.Props

open Verif Verif.Texts Verif.Str Verif.Spec Verif.FloatText
open Verif.Dyn (Dyn WF)

/-! ## C79 -/

/-- **C79**: every finite float is written as an RFC 8259 number, and the float nearest to that number is the given one. -/
def C79_statement (e : Elem) (wrapv : Bool) : Prop :=
  ∀ num c, FiniteFloat num → c.length = 16 →
    ∃ c' t d, fixedSetFloat e wrapv 15 num c = .ok c' ∧ Holds c' t ∧ RfcNum t d ∧ NearestFloat d num

theorem rfc_loose {t : Bytes} {d : Dec} (h : RfcNum t d) : LooseNum t d := by
  have hi : ∀ {i : Bytes}, RfcInt i → (∀ c ∈ i, Digit c) ∧ i ≠ [] := by
    intro i hi
    cases hi with
    | zero => exact ⟨by simp [Digit], by simp⟩
    | pos h1 _ h2 => exact ⟨by simpa using ⟨h1, h2⟩, by simp⟩
  have hf : ∀ {ft fd : Bytes}, RfcFrac ft fd → (∀ c ∈ fd, Digit c) ∧ (ft = [] ∧ fd = [] ∨ ft = 0x2E :: fd) := by
    intro ft fd h
    cases h with
    | none => exact ⟨by simp, .inl ⟨rfl, rfl⟩⟩
    | some _ h => exact ⟨h, .inr rfl⟩
  cases h with
  | pos h1 h2 h3 =>
    exact .mk (sg := []) (.inl ⟨rfl, rfl⟩) (hi h1).1 (hf h2).1 (hf h2).2
      (fun h => (hi h1).2 (List.append_eq_nil_iff.mp h).1) h3
  | neg h1 h2 h3 =>
    exact .mk (sg := [0x2D]) (.inr (.inr ⟨rfl, rfl⟩)) (hi h1).1 (hf h2).1 (hf h2).2
      (fun h => (hi h1).2 (List.append_eq_nil_iff.mp h).1) h3

/-- From 1e-4 to 1e5 nothing is divided. -/
theorem fixed_mid {e : Elem} {wrapv : Bool} {num : Nat} {c : Bytes} (h1 : 0x38D1B717 ≤ num % 2 ^ 31)
    (h2 : num % 2 ^ 31 < 0x47C35000) : fixedSetFloat e wrapv 15 num c =
      (digits wrapv (decide (2 ^ 31 ≤ num)) (num % 2 ^ 31) 0 15 c >>= fun r => .ok r.1) := by
  have hs : scale e (num % 2 ^ 31) = (num % 2 ^ 31, 0) := by rw [scale, if_neg (by omega)]
  rw [fixedSetFloat, floatToString, if_neg (by omega), if_neg (by omega), if_neg (by omega), hs]
  rfl

/-- **C79 fails** whatever `Log` and `Exp` do: the float `1/3` (`0x3EAAAAAB`) is written as `0.3333332`, which is read as
`0x3EAAAAA6`. -/
theorem C79_violated (e : Elem) (wrapv : Bool) : ¬ C79_statement e wrapv := by
  intro h
  obtain ⟨c', t, d, h1, h2, h3, h4⟩ := h 0x3EAAAAAB (List.replicate 16 0) ⟨by decide, by decide⟩ (by decide)
  have e1 : fixedSetFloat e wrapv 15 0x3EAAAAAB (List.replicate 16 0) =
      .ok ([48, 46, 51, 51, 51, 51, 51, 51, 50] ++ 0 :: List.replicate 6 0) := by
    rw [fixed_mid (by decide) (by decide)]
    cases wrapv <;> decide +kernel
  rw [e1] at h1
  cases h1
  obtain rfl : [48, 46, 51, 51, 51, 51, 51, 51, 50] = t := holds_unique ⟨by decide, _, rfl⟩ h2
  have h5 : RfcNum [48, 46, 51, 51, 51, 51, 51, 51, 50] ⟨false, 3333332, -7⟩ :=
    RfcNum.pos (i := [48]) (ft := [46, 51, 51, 51, 51, 51, 51, 50]) (et := []) .zero (.some (by decide) (by simp [Digit])) .none
  obtain rfl := Verif.Parser.loose_det (rfc_loose h3) (rfc_loose h5)
  have h6 := (h4.2.2 0x3EAAAAA6 ⟨by decide, by decide⟩).1
  revert h6
  decide +kernel

/-- Zeros and subnormal numbers are written as `0.0`, also negative ones. -/
theorem C79_zero (e : Elem) (wrapv : Bool) (c : Bytes) (h : c.length = 16) (num : Nat)
    (hn : num / 2 ^ 23 % 256 = 0) : ∃ c', fixedSetFloat e wrapv 15 num c = .ok c' ∧ Holds c' [48, 46, 48] := by
  rw [fixedSetFloat, floatToString, if_neg (by omega), if_pos hn, if_pos (by omega)]
  match c, h with
  | a :: b :: c :: d :: r, _ => exact ⟨_, rfl, by decide, r, rfl⟩

/-- The shift at TSText.cpp:1345 is undefined from 512 to 1e5 in C++17. -/
theorem C79_undefined (e : Elem) (num : Nat) (c : Bytes) (hc : c.length = 16) (h1 : 0x44000000 ≤ num % 2 ^ 31)
    (h2 : num % 2 ^ 31 < 0x47C35000) : fixedSetFloat e false 15 num c = .ub := by
  have hE : num % 2 ^ 31 / 2 ^ 23 % 256 = num / 2 ^ 23 % 256 := by omega
  have r1 : 136 ≤ num / 2 ^ 23 % 256 := by omega
  have r2 : num / 2 ^ 23 % 256 ≤ 143 := by omega
  have hs : scale e (num % 2 ^ 31) = (num % 2 ^ 31, 0) := by rw [scale, if_neg (by omega)]
  rw [fixedSetFloat, floatToString, if_neg (by omega), if_neg (by omega), if_neg (by omega), hs, digits]
  have hp : 2 ^ 9 ≤ 2 ^ (num % 2 ^ 31 / 2 ^ 23 % 256 - 127) := Nat.pow_le_pow_right (by decide) (by omega)
  have hb : 2 ^ 32 ≤ (num % 2 ^ 31 % 2 ^ 23 + 2 ^ 23) * 2 ^ (num % 2 ^ 31 / 2 ^ 23 % 256 - 127) :=
    Nat.le_trans (by decide) (Nat.mul_le_mul (Nat.le_add_left (2 ^ 23) _) hp)
  have hw : ∃ x, (if decide (2 ^ 31 ≤ num) = true then wr c 0 45 >>= fun b => Out.ok (b, 1) else .ok (c, 0)) = .ok x := by
    split
    · match c, hc with
      | a :: r, _ => exact ⟨_, rfl⟩
    · exact ⟨_, rfl⟩
  obtain ⟨x, hw⟩ := hw
  simp only [hw, Out.ok_bind]
  rw [if_pos (by omega), if_neg (by omega), if_pos ⟨trivial, hb⟩]
  rfl

/-- Where the exponent is found to be -38 (from 1.18e-38 to 1e-37), `Exp` returns zero, the quotient is infinite, and the
shift count at TSText.cpp:1345 is too large (and the one at 1344 negative), for every compiler. -/
theorem C79_undefined_tiny (e : Elem) (wrapv : Bool) (num : Nat) (c : Bytes) (hc : c.length = 16)
    (h0 : num / 2 ^ 23 % 256 ≠ 0) (h1 : num % 2 ^ 31 < 0x38D1B717) (h2 : e.lg (num % 2 ^ 31) = -38) :
    fixedSetFloat e wrapv 15 num c = .ub := by
  have hs : scale e (num % 2 ^ 31) = (0x7F800000, -38) := by
    rw [scale, if_pos (.inl h1), h2, quotient, if_pos (by decide)]
  rw [fixedSetFloat, floatToString, if_neg (by omega), if_neg h0, if_neg (by omega), hs, digits]
  have hw : ∃ x, (if decide (2 ^ 31 ≤ num) = true then wr c 0 45 >>= fun b => Out.ok (b, 1) else .ok (c, 0)) = .ok x := by
    split
    · match c, hc with
      | a :: r, _ => exact ⟨_, rfl⟩
    · exact ⟨_, rfl⟩
  obtain ⟨x, hw⟩ := hw
  simp only [hw, Out.ok_bind]
  rw [if_pos (by decide), if_pos (by decide)]
  rfl

/-- **C79 is violated** if `Log` and `Exp` are so inaccurate that the scaled number is 2^24 or more, or less than 2^(-31): the
shifts by more than 31 bits are undefined. -/
theorem C79_undefined_scaled (e : Elem) (wrapv : Bool) (num : Nat) (c : Bytes) (hc : c.length = 16)
    (h0 : num / 2 ^ 23 % 256 ≠ 0) (h255 : num / 2 ^ 23 % 256 ≠ 255) (h1 : num % 2 ^ 31 < 0x38D1B717 ∨ 0x47C35000 ≤ num % 2 ^ 31)
    (f : Int) (h2 : e.lg (num % 2 ^ 31) = f) (h3 : -38 < f)
    (h4 : 150 < e.quot (num % 2 ^ 31) f / 2 ^ 23 % 256 ∨ e.quot (num % 2 ^ 31) f / 2 ^ 23 % 256 ≤ 95) :
    fixedSetFloat e wrapv 15 num c = .ub := by
  have hs : scale e (num % 2 ^ 31) = (e.quot (num % 2 ^ 31) f, f) := by
    rw [scale, if_pos (by omega), h2, quotient, if_neg (by omega)]
  rw [fixedSetFloat, floatToString, if_neg (by omega), if_neg h0, if_neg h255, hs, digits]
  have hw : ∃ b k, (if decide (2 ^ 31 ≤ num) = true then wr c 0 45 >>= fun b => Out.ok (b, 1) else .ok (c, 0)) = .ok (b, k) ∧
      k ≤ 1 ∧ b.length = 16 := by
    match c, hc with
    | a :: r, hc =>
      split
      · exact ⟨_, _, rfl, by omega, by simpa using hc⟩
      · exact ⟨_, _, rfl, by omega, hc⟩
  obtain ⟨b, k, hw, hk, hb⟩ := hw
  simp only [hw, Out.ok_bind]
  rcases h4 with h4 | h4
  · rw [if_pos (by omega), if_pos h4]; rfl
  · rw [if_neg (by omega), Int.toNat_natCast, if_pos (by omega)]
    have w1 : wr b k 48 = .ok (b.set k 48) := by unfold wr; rw [if_pos (by omega)]
    have w2 : wr (b.set k 48) (k + 1) 46 = .ok ((b.set k 48).set (k + 1) 46) := by
      unfold wr; rw [if_pos (by rw [List.length_set]; omega)]
    rw [w1, Out.ok_bind, w2, Out.ok_bind, if_neg (by omega), if_pos (by omega)]
    rfl

theorem shifts_mid {wrapv : Bool} {a : Nat} (h1 : 0x38D1B717 ≤ a) (h2 : a < 0x47C35000)
    (hw : wrapv = true ∨ a < 0x44000000) : Shifts wrapv a := by
  refine ⟨by omega, by omega, hw.imp id fun h => ?_⟩
  have hp : 2 ^ (a / 2 ^ 23 % 256 - 127) ≤ 2 ^ 8 := Nat.pow_le_pow_right (by decide) (by omega)
  have hm : a % 2 ^ 23 + 2 ^ 23 < 2 ^ 24 := by omega
  calc _ ≤ (a % 2 ^ 23 + 2 ^ 23) * 2 ^ 8 := Nat.mul_le_mul_left _ hp
    _ < 2 ^ 24 * 2 ^ 8 := Nat.mul_lt_mul_of_pos_right hm (by decide)
    _ = 2 ^ 32 := by decide

theorem natText_length {n k : Nat} {t : Bytes} (h : NatText n t) (hn : n < 10 ^ k) (hk : 0 < k) : t.length ≤ k := by
  have hd := natText_digits h
  cases hd.2.2.2 with
  | zero => simp; omega
  | pos h1 h2 h3 =>
    rename_i c ds
    have := hd.2.1
    rw [decimal] at this
    have hc : 1 ≤ c.toNat - 0x30 := by
      have : c.toNat ≠ 0x30 := fun h => h2 (UInt8.toNat_inj.mp (by simpa using h))
      have := h1.1
      omega
    have h4 : 1 * 10 ^ ds.length ≤ (c.toNat - 0x30) * 10 ^ ds.length := Nat.mul_le_mul_right _ hc
    have h5 : 10 ^ ds.length < 10 ^ k := by omega
    have := (Nat.pow_lt_pow_iff_right (a := 10) (by decide)).mp h5
    simp only [List.length_cons]; omega

theorem units_mod (num : Nat) : units (num % 2 ^ 31) = units num := by
  have h1 : num % 2 ^ 31 / 2 ^ 23 % 256 = num / 2 ^ 23 % 256 := by omega
  have h2 : num % 2 ^ 31 % 2 ^ 23 = num % 2 ^ 23 := by omega
  rw [units, units, h1, h2]

/-- The printed text when there is room. -/
theorem printed {wrapv neg : Bool} {a : Nat} {power : Int} {c : Bytes} {K L : Nat} (hs : Shifts wrapv a) (hc : c.length = 16)
    (h1 : -2147483648 < power) (h2 : power < 2147483648) (hK : 0 < K) (hw : whole a < 10 ^ K)
    (hL : ∀ u, ExpText power u → u.length ≤ L) (hroom : 1 + K + 8 + L ≤ 15) :
    ∃ r n t d, digits wrapv neg a power 15 c = .ok (r, n) ∧ Holds r t ∧ RfcNum t d ∧ d.neg = neg ∧
      Near d.mantissa (power - d.exponent).toNat a ∧ d.exponent ≤ power ∧
      (2 ^ 145 ∣ units a → d.mantissa * 2 ^ 149 = units a * 10 ^ (power - d.exponent).toNat) ∧
      (power = 0 → n = t.length) := by
  obtain ⟨T, r', n, w, e1, -, -, e4, e5, e6, u, e7, e8⟩ := digits_spec wrapv neg a power 15 c hs (by decide) (by omega) h1 h2
  have hwl := natText_length e6 hw hK
  have hul := hL u e7
  have hsl : (sign neg).length ≤ 1 := by cases neg <;> simp [sign]
  obtain ⟨⟨ts, t1, rfl⟩, -⟩ := e8 (by omega)
  obtain ⟨n1, n2⟩ := trimmed_near (by have := hs.1; omega) hs.2.1 t1
  have hk : (power - (power - (ts.length : Int))).toNat = ts.length := by omega
  refine ⟨_, n, _, _, e1, ⟨e4, r', rfl⟩, printed_rfc e6 t1.1 t1.2.1 e7, rfl, ?_, ?_, ?_, e5⟩
  · dsimp only; rw [hk]; exact n1
  · dsimp only; omega
  · dsimp only; rw [hk]; exact n2

/-- **C79, the part that holds (1)**: from 1e-4 to 1e5 (to 512 if the compiler does not define the overflowing shift) the
text is an RFC 8259 number with the sign of the float, and differs from it by less than `10^(-5) + 2^(-23)`. Missing: that it
identifies the float. -/
theorem C79_near_partial (e : Elem) (wrapv : Bool) (num : Nat) (c : Bytes) (hf : num < 2 ^ 32) (hc : c.length = 16)
    (h1 : 0x38D1B717 ≤ num % 2 ^ 31) (h2 : num % 2 ^ 31 < 0x47C35000) (hw : wrapv = true ∨ num % 2 ^ 31 < 0x44000000) :
    ∃ c' t d, fixedSetFloat e wrapv 15 num c = .ok c' ∧ Holds c' t ∧ RfcNum t d ∧ d.neg = decide (2 ^ 31 ≤ num) ∧
      d.exponent ≤ 0 ∧ Near d.mantissa (-d.exponent).toNat num ∧
      (2 ^ 145 ∣ units num → NearestFloat d num ∧ d.mantissa * 2 ^ 149 = units num * 10 ^ (-d.exponent).toNat) := by
  have hwh : whole (num % 2 ^ 31) < 10 ^ 5 := by
    obtain ⟨u1, -, -⟩ := units_split (num % 2 ^ 31) (by omega) (by omega)
    have hm : units (num % 2 ^ 31) < 10 ^ 5 * 2 ^ 149 := by
      have hE : num % 2 ^ 31 / 2 ^ 23 % 256 = num % 2 ^ 31 / 2 ^ 23 := by omega
      rw [units, if_neg (by omega), hE]
      generalize num % 2 ^ 31 = a at *
      by_cases h : a / 2 ^ 23 = 143
      · rw [h]
        have : 2 ^ 23 + a % 2 ^ 23 < 10 ^ 5 * 2 ^ 7 := by omega
        calc _ < 10 ^ 5 * 2 ^ 7 * 2 ^ (143 - 1) := Nat.mul_lt_mul_of_pos_right this (Nat.two_pow_pos _)
          _ = _ := by decide
      · have hp : 2 ^ (a / 2 ^ 23 - 1) ≤ 2 ^ 141 := Nat.pow_le_pow_right (by decide) (by omega)
        have : 2 ^ 23 + a % 2 ^ 23 < 2 ^ 24 := by omega
        calc _ ≤ (2 ^ 23 + a % 2 ^ 23) * 2 ^ 141 := Nat.mul_le_mul_left _ hp
          _ < 2 ^ 24 * 2 ^ 141 := Nat.mul_lt_mul_of_pos_right this (Nat.two_pow_pos _)
          _ ≤ _ := by decide
    have e1 : 10 ^ 5 * 2 ^ 149 = 10 ^ 5 * 2 ^ 23 * 2 ^ 126 := by decide
    rw [e1] at hm
    have := Nat.lt_of_mul_lt_mul_right (Nat.lt_of_le_of_lt u1 hm)
    omega
  obtain ⟨r, n, t, d, p1, p2, p3, p4, p5, p6, p7, -⟩ := printed (neg := decide (2 ^ 31 ≤ num)) (power := 0) (c := c) (K := 5)
    (L := 0) (shifts_mid h1 h2 hw) hc (by decide) (by decide) (by decide) hwh (by
      intro u hu
      cases hu with
      | none => simp
      | some h => exact absurd rfl h) (by decide)
  rw [Int.zero_sub] at p5 p7
  refine ⟨r, t, d, ?_, p2, p3, p4, p6, ?_, ?_⟩
  · rw [fixed_mid h1 h2, p1]; rfl
  · rw [Near, units_mod] at p5; exact p5
  · rw [units_mod] at p7
    intro hd
    have hx := p7 hd
    have hz : NearestFloat.scaled d = units num * 10 ^ (-d.exponent).toNat := by
      rw [NearestFloat.scaled, show d.exponent.toNat = 0 by omega, Nat.pow_zero, Nat.mul_one, hx]
    refine ⟨⟨⟨hf, by omega⟩, p4, fun b' _ => ?_⟩, hx⟩
    rw [hz]
    have h0 : ∀ x, dist x x = 0 := by intro x; simp [dist]
    rw [h0]
    refine ⟨Nat.zero_le _, fun h hne => absurd ?_ hne⟩
    have : units num * 10 ^ (-d.exponent).toNat = units b' * 10 ^ (-d.exponent).toNat := by
      unfold dist at h; omega
    exact Nat.eq_of_mul_eq_mul_right (Nat.pow_pos (by decide)) this

/-- `0x40490FDB` is written as `3.1415927`, 0.1F as `0.1`, `0xC7C34FFF` exactly as `-99999.9921875`, and 12.0625 exactly. -/
example (e : Elem) (wrapv : Bool) :
    fixedSetFloat e wrapv 15 0x40490FDB (List.replicate 16 7) = .ok ("3.1415927".toUTF8.data.toList ++ 0 :: List.replicate 6 7) ∧
    fixedSetFloat e wrapv 15 0x3DCCCCCD (List.replicate 16 7) = .ok ("0.1".toUTF8.data.toList ++ 0 :: 57 :: 57 :: 57 :: List.replicate 9 7) ∧
    fixedSetFloat e true 15 0xC7C34FFF (List.replicate 16 7) = .ok ("-99999.9921875".toUTF8.data.toList ++ 0 :: List.replicate 1 7) ∧
    fixedSetFloat e wrapv 15 0x41410000 (List.replicate 16 7) = .ok ("12.0625".toUTF8.data.toList ++ 0 :: List.replicate 8 7) := by
  rw [fixed_mid (by decide) (by decide), fixed_mid (by decide) (by decide), fixed_mid (by decide) (by decide),
    fixed_mid (by decide) (by decide)]
  cases wrapv <;> decide +kernel

/-- The digits are counted, not only those at the end: 0.000105F is written as `0.0001`, and 0.99099F as `0.991`. -/
example (e : Elem) (wrapv : Bool) :
    fixedSetFloat e wrapv 15 0x38DC3372 (List.replicate 16 0) = .ok ("0.0001".toUTF8.data.toList ++ List.replicate 10 0) ∧
    fixedSetFloat e wrapv 15 0x3F7DB186 (List.replicate 16 0) = .ok ("0.991".toUTF8.data.toList ++ 0 :: 57 :: List.replicate 9 0) := by
  rw [fixed_mid (by decide) (by decide), fixed_mid (by decide) (by decide)]
  cases wrapv <;> decide +kernel

theorem expText_length {p : Int} {u : Bytes} (h1 : -100 < p) (h2 : p < 100) (h : ExpText p u) : u.length ≤ 4 := by
  cases h with
  | none => simp
  | some _ h =>
    rcases h with ⟨h0, h⟩ | ⟨h0, v, rfl, h⟩
    · have := natText_length (k := 2) h (by omega) (by decide)
      simp only [List.length_cons]; omega
    · have := natText_length (k := 2) h (by omega) (by decide)
      simp only [List.length_cons]; omega

theorem units_whole {q : Nat} (h1 : 0 < q / 2 ^ 23 % 256) (h2 : q / 2 ^ 23 % 256 ≤ 150) (hu : units q < 100 * 2 ^ 149) :
    whole q < 10 ^ 2 := by
  obtain ⟨u1, -, -⟩ := units_split q h1 h2
  rw [show 100 * 2 ^ 149 = 100 * 2 ^ 23 * 2 ^ 126 by decide] at hu
  have := Nat.lt_of_mul_lt_mul_right (Nat.lt_of_le_of_lt u1 hu)
  omega

theorem shifts_small {wrapv : Bool} {q : Nat} (h1 : 96 ≤ q / 2 ^ 23 % 256) (hu : units q < 100 * 2 ^ 149) : Shifts wrapv q := by
  have hE : q / 2 ^ 23 % 256 ≤ 133 := by
    refine Nat.le_of_not_lt fun h => ?_
    rw [units, if_neg (by omega)] at hu
    have hp : 2 ^ 133 ≤ 2 ^ (q / 2 ^ 23 % 256 - 1) := Nat.pow_le_pow_right (by decide) (by omega)
    have := Nat.mul_le_mul (Nat.le_add_right (2 ^ 23) (q % 2 ^ 23)) hp
    exact absurd (Nat.lt_of_le_of_lt this hu) (by decide)
  refine ⟨by omega, by omega, .inr ?_⟩
  have hp : 2 ^ (q / 2 ^ 23 % 256 - 127) ≤ 2 ^ 6 := Nat.pow_le_pow_right (by decide) (by omega)
  have hm : q % 2 ^ 23 + 2 ^ 23 < 2 ^ 24 := by omega
  calc _ ≤ (q % 2 ^ 23 + 2 ^ 23) * 2 ^ 6 := Nat.mul_le_mul_left _ hp
    _ < 2 ^ 24 * 2 ^ 6 := Nat.mul_lt_mul_of_pos_right hm (by decide)
    _ < 2 ^ 32 := by decide

/-- **C79, the part that holds (2)**: below 1e-4 and from 1e5 on, let `f` be the exponent found by `Log` and `q` the float
that results from the division by `Exp`. If `q` is less than 100 (and not less than `2^(-31)`) then the text is an
RFC 8259 number with the sign of the float, equal to a decimal near `q`, multiplied by `10^f`. Missing: how near `q` is to
the quotient. -/
theorem C79_scaled_partial (e : Elem) (wrapv : Bool) (num : Nat) (c : Bytes) (f : Int) (q : Nat) (hc : c.length = 16)
    (h0 : num / 2 ^ 23 % 256 ≠ 0) (h255 : num / 2 ^ 23 % 256 ≠ 255)
    (h1 : num % 2 ^ 31 < 0x38D1B717 ∨ 0x47C35000 ≤ num % 2 ^ 31) (hf : e.lg (num % 2 ^ 31) = f) (hf1 : -38 < f) (hf2 : f < 100)
    (hq : e.quot (num % 2 ^ 31) f = q) (hq1 : 96 ≤ q / 2 ^ 23 % 256) (hq2 : units q < 100 * 2 ^ 149) :
    ∃ c' t d, fixedSetFloat e wrapv 15 num c = .ok c' ∧ Holds c' t ∧ RfcNum t d ∧ d.neg = decide (2 ^ 31 ≤ num) ∧
      d.exponent ≤ f ∧ Near d.mantissa (f - d.exponent).toNat q := by
  have hs : scale e (num % 2 ^ 31) = (q, f) := by
    rw [scale, if_pos (by omega), hf, quotient, if_neg (by omega), hq]
  have hsh := shifts_small (wrapv := wrapv) hq1 hq2
  obtain ⟨r, n, t, d, p1, p2, p3, p4, p5, p6, -, -⟩ := printed (neg := decide (2 ^ 31 ≤ num)) (power := f) (c := c) (K := 2)
    (L := 4) hsh hc (by omega) (by omega) (by decide) (units_whole (by omega) hsh.2.1 hq2)
    (fun u hu => expText_length (by omega) (by omega) hu) (by decide)
  refine ⟨r, t, d, ?_, p2, p3, p4, p6, p5⟩
  rw [fixedSetFloat, floatToString, if_neg (by omega), if_neg h0, if_neg h255, hs]
  show (digits wrapv _ q f 15 c >>= _) = _
  rw [p1]; rfl

/-- A `Log` and an `Exp` that are right for 123456.0F, up to rounding. -/
def sample : Elem := ⟨fun _ => 5, fun _ _ => 0x3F9E0610⟩

/-- 123456.0F is written as `1.23456e5` (the quotient is `0x3F9E0610`). -/
example : fixedSetFloat sample false 15 0x47F12000 (List.replicate 16 0) =
    .ok ("1.23456e5".toUTF8.data.toList ++ List.replicate 7 0) := by decide +kernel

/-! ## C80 -/

/-- **C80**: for every float, `FloatToString` returns the length of the text it stores, which is terminated and has at most
`max` bytes; bytes after `text[max]` are not touched. -/
def C80_statement (e : Elem) (wrapv : Bool) : Prop :=
  ∀ num max b, num < 2 ^ 32 → max.toNat < b.length → ∃ b' t, floatToString e wrapv num max b = .ok (b', t.length) ∧
    Holds b' t ∧ t.length ≤ max.toNat ∧ b'.length = b.length ∧ b'.drop (max.toNat + 1) = b.drop (max.toNat + 1)

/-- The floats for which the shifts are defined, after the division if there is one. -/
def Printable (e : Elem) (wrapv : Bool) (num : Nat) : Prop :=
  num / 2 ^ 23 % 256 ≠ 0 → num / 2 ^ 23 % 256 ≠ 255 → Shifts wrapv (scale e (num % 2 ^ 31)).1 ∧
    -2147483648 < (scale e (num % 2 ^ 31)).2 ∧ (scale e (num % 2 ^ 31)).2 < 2147483648

/-- **C80, the part that holds (1)**: the text is terminated, has at most `max` bytes, and nothing behind it is touched; the
length is returned if no exponent is printed. -/
theorem C80_safe_partial (e : Elem) (wrapv : Bool) (num : Nat) (max : Int) (b : Bytes) (hmax : max.toNat < b.length)
    (hp : Printable e wrapv num) :
    ∃ b' n t, floatToString e wrapv num max b = .ok (b', n) ∧ Holds b' t ∧ t.length ≤ max.toNat ∧ b'.length = b.length ∧
      b'.drop (max.toNat + 1) = b.drop (max.toNat + 1) ∧
      (num / 2 ^ 23 % 256 = 0 ∨ num / 2 ^ 23 % 256 = 255 ∨ (scale e (num % 2 ^ 31)).2 = 0 ∨ max < 1 → n = t.length) := by
  have short : ∀ (t : Bytes), 0 ∉ t → t.length ≤ max.toNat → ∃ b' n t', (.ok (put b 0 (t ++ [0]), t.length) : Out (Bytes × Nat)) =
      .ok (b', n) ∧ Holds b' t' ∧ t'.length ≤ max.toNat ∧ b'.length = b.length ∧
      b'.drop (max.toNat + 1) = b.drop (max.toNat + 1) ∧
      (num / 2 ^ 23 % 256 = 0 ∨ num / 2 ^ 23 % 256 = 255 ∨ (scale e (num % 2 ^ 31)).2 = 0 ∨ max < 1 → n = t'.length) := by
    intro t ht hl
    have hf : Frame max.toNat b (put b 0 (t ++ [0])) := frame_put (by simp; omega) hmax
    exact ⟨_, _, t, rfl, holds_put_zero ht, hl, hf.1, hf.2, fun _ => rfl⟩
  have wrs : ∀ (t : Bytes), t.length ≤ max.toNat → Dyn.wrAll (t ++ [0]) 0 b = .ok (put b 0 (t ++ [0])) := by
    intro t hl
    exact Dyn.wrAll_spec _ _ _ (by simp; omega)
  have wr0 : wr b 0 0 = .ok (put b 0 [0]) := by
    have := wrs [] (by simp)
    simp only [List.nil_append, Dyn.wrAll] at this
    cases h : wr b 0 0 with
    | ok x => rw [h] at this; simpa using this
    | ub => rw [h] at this; cases this
    | fuel => rw [h] at this; cases this
  rw [floatToString]
  by_cases h1 : max < 1
  · rw [if_pos h1, wr0, Out.ok_bind]
    exact short [] (by simp) (by simp)
  rw [if_neg h1]
  by_cases h2 : num / 2 ^ 23 % 256 = 0
  · rw [if_pos h2]
    by_cases h3 : 3 ≤ max
    · rw [if_pos h3, show [48, 46, 48, 0] = [48, 46, 48] ++ [(0 : Byte)] from rfl, wrs _ (by simp; omega), Out.ok_bind]
      exact short [48, 46, 48] (by decide) (by simp; omega)
    · rw [if_neg h3, show [48, 0] = [48] ++ [(0 : Byte)] from rfl, wrs _ (by simp; omega), Out.ok_bind]
      exact short [48] (by decide) (by simp; omega)
  rw [if_neg h2]
  by_cases h3 : num / 2 ^ 23 % 256 = 255
  · rw [if_pos h3]
    by_cases h4 : 4 ≤ max
    · rw [if_pos h4]
      obtain ⟨v, hv, hv0, hvl⟩ : ∃ v : Bytes, (if num % 2 ^ 23 = 0 then [73, 78, 70, 0] else [78, 65, 78, 0]) = v ++ [(0 : Byte)] ∧
          0 ∉ v ∧ v.length = 3 := by
        by_cases h5 : num % 2 ^ 23 = 0
        · exact ⟨[73, 78, 70], by rw [if_pos h5]; rfl, by decide, rfl⟩
        · exact ⟨[78, 65, 78], by rw [if_neg h5]; rfl, by decide, rfl⟩
      rw [hv]
      by_cases h6 : 2 ^ 31 ≤ num
      · rw [if_pos h6]
        have hw := wrs (45 :: v) (by simp; omega)
        simp only [List.cons_append, Dyn.wrAll] at hw
        have := short (45 :: v) (by simp [hv0]) (by simp; omega)
        cases h7 : wr b 0 45 with
        | ok x =>
          rw [h7, Out.ok_bind] at hw
          simp only [Out.ok_bind, hw]
          rw [show 3 + 1 = (45 :: v).length by simp; omega]
          exact this
        | ub => rw [h7] at hw; cases hw
        | fuel => rw [h7] at hw; cases hw
      · rw [if_neg h6, Out.ok_bind]
        dsimp only
        rw [wrs v (by omega), Out.ok_bind, show 3 + 0 = v.length by omega]
        exact short v hv0 (by omega)
    · rw [if_neg h4, wr0, Out.ok_bind]
      exact short [] (by simp) (by simp)
  rw [if_neg h3]
  obtain ⟨s1, s2, s3⟩ := hp h2 h3
  obtain ⟨T, r', n, w, e1, e2, e3, e4, e5, -⟩ := digits_spec wrapv (decide (2 ^ 31 ≤ num)) _ _ max.toNat b s1 (by omega) hmax s2 s3
  refine ⟨_, n, T, e1, ⟨e4, r', rfl⟩, e3, e2.1, e2.2, ?_⟩
  rintro (h | h | h | h)
  · exact absurd h h2
  · exact absurd h h3
  · exact e5 h
  · exact absurd h h1

/-- All floats from 1e-4 to 512, and to 1e5 if the compiler defines the overflowing shift, are printable; so their lengths are
right. -/
theorem C80_length_partial (e : Elem) (wrapv : Bool) (num : Nat) (max : Int) (b : Bytes) (hmax : max.toNat < b.length)
    (h1 : 0x38D1B717 ≤ num % 2 ^ 31) (h2 : num % 2 ^ 31 < 0x47C35000) (hw : wrapv = true ∨ num % 2 ^ 31 < 0x44000000) :
    ∃ b' t, floatToString e wrapv num max b = .ok (b', t.length) ∧
      Holds b' t ∧ t.length ≤ max.toNat ∧ b'.length = b.length ∧ b'.drop (max.toNat + 1) = b.drop (max.toNat + 1) := by
  have hs : scale e (num % 2 ^ 31) = (num % 2 ^ 31, 0) := by rw [scale, if_neg (by omega)]
  obtain ⟨b', n, t, e1, e2, e3, e4, e5, e6⟩ := C80_safe_partial e wrapv num max b hmax (by
    intro _ _
    rw [hs]
    exact ⟨shifts_mid h1 h2 hw, show (-2147483648 : Int) < 0 by decide, show (0 : Int) < 2147483648 by decide⟩)
  rw [e6 (by rw [hs]; exact .inr (.inr (.inl rfl)))] at e1
  exact ⟨b', t, e1, e2, e3, e4, e5⟩

/-- **C80 fails**: where an exponent is printed, the length of the exponent alone is returned. -/
theorem C80_exponent_length (e : Elem) (wrapv : Bool) (num : Nat) (max : Int) (b : Bytes) (f : Int) (q : Nat)
    (hmax : max.toNat < b.length) (h15 : 15 ≤ max) (h0 : num / 2 ^ 23 % 256 ≠ 0) (h255 : num / 2 ^ 23 % 256 ≠ 255)
    (h1 : num % 2 ^ 31 < 0x38D1B717 ∨ 0x47C35000 ≤ num % 2 ^ 31) (hf : e.lg (num % 2 ^ 31) = f) (hf0 : f ≠ 0) (hf1 : -38 < f)
    (hf2 : f < 100) (hq : e.quot (num % 2 ^ 31) f = q) (hq1 : 96 ≤ q / 2 ^ 23 % 256) (hq2 : units q < 100 * 2 ^ 149) :
    ∃ b' n t, floatToString e wrapv num max b = .ok (b', n) ∧ Holds b' t ∧ n + 4 ≤ t.length := by
  have hs : scale e (num % 2 ^ 31) = (q, f) := by
    rw [scale, if_pos (by omega), hf, quotient, if_neg (by omega), hq]
  have hsh := shifts_small (wrapv := wrapv) hq1 hq2
  obtain ⟨T, r', n, w, e1, -, -, e4, -, e6, u, e7, e8⟩ := digits_spec wrapv (decide (2 ^ 31 ≤ num)) q f max.toNat b hsh (by omega)
    hmax (by omega) (by omega)
  have hwl := natText_length e6 (units_whole (by omega) hsh.2.1 hq2) (by decide)
  have hul := expText_length (by omega) (by omega) e7
  have hsl : (sign (decide (2 ^ 31 ≤ num))).length ≤ 1 := by cases decide (2 ^ 31 ≤ num) <;> simp [sign]
  obtain ⟨⟨ts, t1, rfl⟩, t2⟩ := e8 (by omega)
  have := t2 hf0
  have hw0 := (natText_digits e6).2.2.1
  have ht0 := t1.1
  refine ⟨_, n, _, ?_, ⟨e4, r', rfl⟩, ?_⟩
  · rw [floatToString, if_neg (by omega), if_neg h0, if_neg h255, hs]
    exact e1
  · have := List.length_pos_iff.mpr hw0
    have := List.length_pos_iff.mpr ht0
    simp only [List.length_append, List.length_cons]; omega

/-- **C80 fails** whatever `Log` and `Exp` do from 512 to 1e5 when the shift is undefined; and when it is not, for every `Log`
and `Exp` that give an exponent of 1 to 99 and a quotient of 1 to 100 for some float from 1e5 on. -/
theorem C80_violated (e : Elem) (wrapv : Bool)
    (h : wrapv = true → ∃ a, 0x47C35000 ≤ a ∧ a < 0x7F800000 ∧ 0 < e.lg a ∧ e.lg a < 100 ∧
      127 ≤ e.quot a (e.lg a) / 2 ^ 23 % 256 ∧ units (e.quot a (e.lg a)) < 100 * 2 ^ 149) : ¬ C80_statement e wrapv := by
  intro hc
  cases wrapv with
  | false =>
    obtain ⟨b', t, e1, -⟩ := hc 0x44000000 15 (List.replicate 16 0) (by decide) (by decide)
    have := C79_undefined e 0x44000000 (List.replicate 16 0) (by decide) (by decide) (by decide)
    have e1' : floatToString e false 0x44000000 ((15 : Nat) : Int) (List.replicate 16 0) = .ok (b', t.length) := e1
    rw [fixedSetFloat, e1'] at this
    cases this
  | true =>
    obtain ⟨a, a1, a2, a3, a4, a5, a6⟩ := h rfl
    have ha : a % 2 ^ 31 = a := Nat.mod_eq_of_lt (by omega)
    obtain ⟨b', t, e1, e2, -⟩ := hc a 15 (List.replicate 16 0) (by omega) (by decide)
    obtain ⟨b'', n, t', e3, e4, e5⟩ := C80_exponent_length e true a 15 (List.replicate 16 0) (e.lg a) _ (by decide) (by decide)
      (by omega) (by omega) (by rw [ha]; exact .inr a1) (by rw [ha]) (by omega) (by omega) a4 (by rw [ha]) (by omega) a6
    rw [e1] at e3
    cases e3
    have := holds_unique e2 e4
    subst this
    omega

/-- With the sample functions, `1.23456e5` is stored and 1 is returned; the string made of it reports length 1. -/
example : ¬ C80_statement sample true ∧
    floatToString sample true 0x47F12000 15 (List.replicate 16 0) = .ok ("1.23456e5".toUTF8.data.toList ++ List.replicate 7 0, 1) ∧
    newFloat sample true (fun _ => 0) 0x47F12000 =
      .ok { logical := 2, physical := 64, heap := some ("1.23456e5".toUTF8.data.toList ++ List.replicate 55 0), loc := Dyn.loc0 } :=
  ⟨C80_violated _ _ fun _ => ⟨0x47F12000, by decide, by decide, by decide, by decide, by decide, by decide +kernel⟩,
    by decide +kernel, by decide +kernel⟩

/-- **C80, the part that holds (2)**: strings made of floats from 1e-4 to 512 (to 1e5) have the length of their text. -/
theorem C80_strings_partial (e : Elem) (wrapv : Bool) (g : Nat → Byte) (num : Nat) (s : Dyn) (a : Bytes) (hs : WF s a)
    (h1 : 0x38D1B717 ≤ num % 2 ^ 31) (h2 : num % 2 ^ 31 < 0x47C35000) (hw : wrapv = true ∨ num % 2 ^ 31 < 0x44000000) :
    (∃ t s', newFloat e wrapv g num = .ok s' ∧ WF s' t) ∧ (∃ t s', setFloat e wrapv g num s = .ok s' ∧ WF s' t) := by
  constructor
  · obtain ⟨b', t, e1, e2, e3, e4, -⟩ := C80_length_partial e wrapv num 63 (Dyn.fresh g 64) (by simp [Dyn.fresh]) h1 h2 hw
    refine ⟨t, { logical := t.length + 1, physical := 64, heap := some b', loc := Dyn.loc0 }, by rw [newFloat, e1]; rfl, rfl, e2, ?_, rfl⟩
    show b'.length = 64
    rw [e4]; simp [Dyn.fresh]
  · obtain ⟨r1, r2, r3, r4⟩ := Dyn.resize_props g 64 hs.block hs.loc
    obtain ⟨b', t, e1, e2, e3, e4, -⟩ := C80_length_partial e wrapv num 63 (Dyn.resize g 64 s).1.data (by
      show 63 < _
      omega) h1 h2 hw
    refine ⟨t, { (Dyn.resize g 64 s).1.store b' with logical := t.length + 1 }, by rw [setFloat]; simp only [e1, Out.ok_bind], ?_⟩
    exact Dyn.wf_store rfl r2 r3 e4 e2

/-- The string made of -2.5 holds `-2.5`. -/
example (e : Elem) (wrapv : Bool) : newFloat e wrapv (fun _ => 0) 0xC0200000 =
    .ok { logical := 5, physical := 64, heap := some ([45, 50, 46, 53] ++ List.replicate 60 0), loc := Dyn.loc0 } := by
  have hs : floatToString e wrapv 0xC0200000 63 (Dyn.fresh (fun _ => 0) 64) =
      digits wrapv true 0x40200000 0 63 (Dyn.fresh (fun _ => 0) 64) := rfl
  rw [newFloat, hs]
  cases wrapv <;> decide +kernel

end Verif.Props
