import Verif.Props.NumTrip
import Verif.Lemmas.RoundNearest
import Verif.Lemmas.ReaderExact

/-!
# Numbers that do not change when they are written and read again and again
-/

namespace Verif.NumTrip

open Verif Verif.Text Verif.Texts Verif.Str Verif.B32 Verif.MathFns Verif.FloatText Verif.Spec.F32
open Verif.B64 (Dbl)
open Verif.Spec (units FiniteFloat RfcNum RfcInt RfcFrac RfcExp Digit Dec decReal value SignedNum SignedLit decimal Ws)

/-! ## Floats -/

theorem canonical_same {m q m' q' : Nat} (h : Canonical m q) (h' : Canonical m' q') (e : m * 2 ^ q = m' * 2 ^ q') : m = m' ∧ q = q' := by
  have key : ∀ {m q m' q' : Nat}, Canonical m q → Canonical m' q' → m * 2 ^ q = m' * 2 ^ q' → ¬ q < q' := by
    intro m q m' q' h h' e hlt
    obtain ⟨k, rfl⟩ : ∃ k, q' = q + (k + 1) := ⟨q' - q - 1, by omega⟩
    rw [Nat.pow_add, Nat.mul_comm (2 ^ q), ← Nat.mul_assoc] at e
    have e := Nat.eq_of_mul_eq_mul_right (Nat.two_pow_pos q) e
    have h1 : 2 ^ 23 ≤ m' := h'.2.2.resolve_left (by omega)
    have h2 : 2 ≤ 2 ^ (k + 1) := by rw [Nat.pow_succ]; have := Nat.two_pow_pos k; omega
    have h3 : 2 ^ 23 * 2 ≤ m' * 2 ^ (k + 1) := Nat.mul_le_mul h1 h2
    have := h.1
    omega
  have : q = q' := Nat.le_antisymm (Nat.not_lt.1 (key h' h e.symm)) (Nat.not_lt.1 (key h h' e))
  subst this
  exact ⟨Nat.eq_of_mul_eq_mul_right (Nat.two_pow_pos q) e, rfl⟩

theorem flt_same {x y : Flt} (hx : Spec.F32.Finite x) (hy : Spec.F32.Finite y) (e : val x = val y) (h0 : val x ≠ 0) : x = y := by
  obtain ⟨s, m, q, rfl, hc⟩ := hx
  obtain ⟨s', m', q', rfl, hc'⟩ := hy
  rw [val_fin, val_fin] at e
  rw [val_fin] at h0
  generalize ha : m * 2 ^ q = a at *
  generalize hb : m' * 2 ^ q' = b at *
  have hs : s = s' ∧ a = b := by
    cases s <;> cases s' <;> simp at e h0 ⊢ <;> omega
  obtain ⟨rfl, rfl⟩ := hs
  obtain ⟨rfl, rfl⟩ := canonical_same hc hc' (ha.trans hb.symm)
  rfl

/-- Small multiples of a power of two are floats. -/
theorem float_exists : ∀ (j n : Nat), n < 2 ^ 24 → j ≤ 253 → ∃ m q, Canonical m q ∧ m * 2 ^ q = n * 2 ^ j := by
  intro j
  induction j with
  | zero => intro n h _; exact ⟨n, 0, ⟨h, by omega, .inl rfl⟩, rfl⟩
  | succ j ih =>
    intro n h hj
    by_cases hn : 2 ^ 23 ≤ n
    · exact ⟨n, j + 1, ⟨h, hj, .inr hn⟩, rfl⟩
    · obtain ⟨m, q, h1, h2⟩ := ih (2 * n) (by omega) (by omega)
      refine ⟨m, q, h1, ?_⟩
      rw [h2, Nat.pow_succ, Nat.mul_comm 2 n, Nat.mul_assoc, Nat.mul_comm 2]

/-- The float is nearest to the double. -/
theorem narrow_nearest {x : Dbl} {v : Rat} (hx : value x = some v) (hv : |v| ≤ 2 ^ 127) :
    Spec.F32.Finite (narrow x) ∧ ∀ y, Spec.F32.Finite y → |real (narrow x) - v| ≤ |real y - v| := by
  cases x with
  | fin s m q =>
    rw [value_fin] at hx
    injection hx with hx
    have ha : |v| = m * 2 ^ q / 2 ^ 1074 := by
      rw [← hx, abs_mul, abs_of_nonneg (a := (m * 2 ^ q / 2 ^ 1074 : Rat)) (by positivity)]
      split <;> simp
    have hb : m * 2 ^ q ≤ 2 ^ 276 * 2 ^ 925 := by
      rw [ha, div_le_iff₀ (by positivity)] at hv
      have h : ((m * 2 ^ q : Nat) : Rat) ≤ ((2 ^ 127 * 2 ^ 1074 : Nat) : Rat) := by push_cast; exact hv
      have h' := Nat.cast_le.1 h
      rw [← pow_add] at h' ⊢
      exact h'
    have e1 : (((m * 2 ^ q : Nat) : ℝ) / ((2 ^ 925 : Nat) : ℝ) / 2 ^ 149) = m * 2 ^ q / 2 ^ 1074 := by
      push_cast
      rw [div_div, ← pow_add]
    have e3 : (v : ℝ) = (if s then -1 else 1) * (m * 2 ^ q / 2 ^ 1074) := by
      rw [← hx]; push_cast; cases s <;> simp
    have r := round_nearest s (num := m * 2 ^ q) (den := 2 ^ 925) (by positivity) hb
    rw [e1, ← e3] at r
    exact r
  | inf s => cases hx
  | nan => cases hx

theorem narrowBits_real {x : Dbl} (h : Spec.F32.Finite (narrow x)) : ofBits (narrowBits x) = narrow x := (ofBits_toBits (.inl h)).2

theorem sixteenth_real {x : Flt} {k : Int} (h : val x = k * 2 ^ 145) : real x = (((k : Rat) / 16 : Rat) : ℝ) := by
  unfold real
  rw [h]
  have h0 : (2 : ℝ) ^ 145 ≠ 0 := by positivity
  rw [show (2 : ℝ) ^ 149 = 2 ^ 145 * 16 by rw [show 149 = 145 + 4 from rfl, pow_add]; norm_num only]
  rw [Int.cast_mul, Int.cast_pow, Int.cast_ofNat, mul_comm, mul_div_mul_left _ _ h0]
  push_cast
  rfl

/-- Multiples of 1/16 below `2^20` are floats. -/
theorem narrow_sixteenth {x : Dbl} {k : Int} (hx : value x = some ((k : Rat) / 16)) (hk : k.natAbs < 2 ^ 24) :
    Spec.F32.Finite (narrow x) ∧ val (narrow x) = k * 2 ^ 145 := by
  have hv : |(k / 16 : Rat)| ≤ 2 ^ 127 := by
    rw [abs_div, div_le_iff₀ (by norm_num)]
    have h1 : ((k.natAbs : Nat) : Rat) ≤ ((2 ^ 24 : Nat) : Rat) := Nat.cast_le.2 hk.le
    rw [Nat.cast_natAbs] at h1
    push_cast at h1
    refine h1.trans ?_
    norm_num
  obtain ⟨m, q, c1, c2⟩ := float_exists 145 k.natAbs hk (by omega)
  obtain ⟨f, n⟩ := narrow_nearest hx hv
  have hy : Spec.F32.Finite (.fin (decide (k < 0)) m q) := ⟨_, m, q, rfl, c1⟩
  have vy : val (.fin (decide (k < 0)) m q) = k * 2 ^ 145 := by
    rw [val_fin, c2]
    push_cast
    by_cases h : k < 0
    · rw [decide_eq_true h, if_pos rfl]
      rw [show |k| = -k from abs_of_neg h]; ring
    · rw [decide_eq_false h, if_neg (by simp), show |k| = k from abs_of_nonneg (by omega)]
  have ry : real (.fin (decide (k < 0)) m q) = (((k : Rat) / 16 : Rat) : ℝ) := by
    exact sixteenth_real vy
  have := n _ hy
  rw [ry, sub_self, abs_zero, abs_nonpos_iff, sub_eq_zero, ← ry] at this
  refine ⟨f, ?_⟩
  rw [← vy]
  unfold real at this
  have h2 := (div_left_inj' (by positivity : (2 : ℝ) ^ 149 ≠ 0)).1 this
  exact_mod_cast h2

/-- A double very near to such a number becomes the same float. -/
theorem narrow_stable {x y : Dbl} {k : Int} {w : Rat} (hx : value x = some ((k : Rat) / 16)) (hk0 : k ≠ 0) (hk : k.natAbs ≤ 16 * 10 ^ 5)
    (hy : value y = some w) (hw : |(w : ℝ) - (((k : Rat) / 16 : Rat) : ℝ)| ≤ 2 / 10 ^ 14 * |(((k : Rat) / 16 : Rat) : ℝ)|) : narrow y = narrow x := by
  obtain ⟨f, v⟩ := narrow_sixteenth hx (by omega)
  have rx := sixteenth_real v
  have k1 : (1 : ℝ) ≤ |(k : ℝ)| := by
    rw [← Int.cast_abs]
    exact_mod_cast Int.one_le_abs hk0
  have k2 : |(k : ℝ)| ≤ 16 * 10 ^ 5 := by
    rw [← Int.cast_abs]
    have : |k| ≤ 16 * 10 ^ 5 := by rw [Int.abs_eq_natAbs]; omega
    exact_mod_cast this
  have kk : |(((k : Rat) / 16 : Rat) : ℝ)| = |(k : ℝ)| / 16 := by
    push_cast
    rw [abs_div, abs_of_pos (by norm_num : (0 : ℝ) < 16)]
  have hw127 : |w| ≤ 2 ^ 127 := by
    refine (Rat.cast_le (K := ℝ)).1 ?_
    push_cast
    have h1 : |(w : ℝ)| ≤ |(((k : Rat) / 16 : Rat) : ℝ)| + |(w : ℝ) - (((k : Rat) / 16 : Rat) : ℝ)| := by
      have := abs_add_le (((k : Rat) / 16 : Rat) : ℝ) ((w : ℝ) - (((k : Rat) / 16 : Rat) : ℝ))
      rwa [add_sub_cancel] at this
    rw [kk] at h1 hw
    generalize |(w : ℝ) - (((k : Rat) / 16 : Rat) : ℝ)| = D at *
    norm_num at hw k2 ⊢
    linarith
  obtain ⟨fy, n⟩ := narrow_nearest hy hw127
  have n := n _ f
  rw [rx, abs_sub_comm (((k : Rat) / 16 : Rat) : ℝ)] at n
  have hd : |real (narrow y) - real (narrow x)| ≤ 4 / 10 ^ 14 * (|(k : ℝ)| / 16) := by
    have := abs_sub_le (real (narrow y)) w (real (narrow x))
    rw [rx] at this ⊢
    rw [kk] at hw
    linarith
  -- in units
  have hd' : |(val (narrow y) : ℝ) - k * 2 ^ 145| ≤ 4 / 10 ^ 14 * (|(k : ℝ)| * 2 ^ 145) := by
    unfold real at hd
    rw [v, ← sub_div, abs_div, abs_of_pos (by positivity : (0 : ℝ) < 2 ^ 149), div_le_iff₀ (by positivity)] at hd
    rw [Int.cast_mul, Int.cast_pow, Int.cast_ofNat] at hd
    refine hd.trans (le_of_eq ?_)
    rw [show (2 : ℝ) ^ 149 = 2 ^ 145 * 16 by rw [show 149 = 145 + 4 from rfl, pow_add]; norm_num only]
    generalize (2 : ℝ) ^ 145 = P
    ring
  refine flt_same fy f ?_ ?_
  · rw [v]
    obtain ⟨s, m, q, e, hc⟩ := fy
    rw [e] at hd' ⊢
    have hmag : |(val (.fin s m q) : ℝ)| = m * 2 ^ q := by
      rw [val_fin]; cases s <;> simp [abs_mul]
    have hq : |(k : ℝ)| * 2 ^ 145 < 2 ^ 25 * 2 ^ q := by
      have h1 : |(k : ℝ) * 2 ^ 145| ≤ |(val (.fin s m q) : ℝ)| + |(val (.fin s m q) : ℝ) - k * 2 ^ 145| := by
        have := abs_sub_le ((k : ℝ) * 2 ^ 145) (val (.fin s m q) : ℝ) 0
        rw [sub_zero, sub_zero, abs_sub_comm] at this
        linarith
      rw [abs_mul, abs_of_pos (by positivity : (0 : ℝ) < 2 ^ 145), hmag] at h1
      have hm : (m : ℝ) ≤ 2 ^ 24 := by exact_mod_cast hc.1.le
      have h2 : (m : ℝ) * 2 ^ q ≤ 2 ^ 24 * 2 ^ q := mul_le_mul_of_nonneg_right hm (by positivity)
      have h3 : (0 : ℝ) < 2 ^ q := by positivity
      generalize |(k : ℝ)| * 2 ^ 145 = K at *
      generalize (2 : ℝ) ^ q = Q at *
      norm_num at hd' h2 h1 ⊢
      linarith
    have hdv : ((2 ^ q : Nat) : Int) ∣ val (.fin s m q) := by
      rw [val_fin]
      cases s
      · simp
      · simp
    have zero : ∀ (u : Nat), (u : Int) ∣ val (.fin s m q) → (u : Int) ∣ k * 2 ^ 145 → |(val (.fin s m q) : ℝ) - k * 2 ^ 145| < (u : ℝ) →
        val (.fin s m q) = k * 2 ^ 145 := by
      intro u d1 d2 h
      have d3 := Int.dvd_sub d1 d2
      have h' : |val (.fin s m q) - k * 2 ^ 145| < (u : Int) := by
        have h2 : ((|val (.fin s m q) - k * 2 ^ 145| : Int) : ℝ) < ((u : Int) : ℝ) := by
          rw [Int.cast_abs, Int.cast_sub, Int.cast_mul, Int.cast_pow, Int.cast_ofNat, Int.cast_natCast]; exact h
        exact Int.cast_lt.1 h2
      have := Int.eq_zero_of_abs_lt_dvd d3 h'
      omega
    by_cases hle : q ≤ 145
    · refine zero (2 ^ q) hdv ?_ ?_
      · have : ((2 ^ q : Nat) : Int) ∣ 2 ^ 145 := by exact_mod_cast Nat.pow_dvd_pow 2 hle
        exact this.mul_left k
      · push_cast
        have : (0 : ℝ) < 2 ^ q := by positivity
        generalize |(k : ℝ)| * 2 ^ 145 = K at *
        generalize (2 : ℝ) ^ q = Q at *
        norm_num at hd' hq ⊢
        linarith
    · refine zero (2 ^ 145) (dvd_trans (by exact_mod_cast Nat.pow_dvd_pow 2 (by omega)) hdv) (by push_cast; exact dvd_mul_left _ _) ?_
      push_cast
      refine lt_of_le_of_lt hd' ?_
      have : (0 : ℝ) < 2 ^ 145 := by positivity
      have h2 : |(k : ℝ)| * 2 ^ 145 ≤ 16 * 10 ^ 5 * 2 ^ 145 := mul_le_mul_of_nonneg_right k2 this.le
      generalize |(k : ℝ)| * 2 ^ 145 = K at *
      clear hd' hq hk
      norm_num at h2 ⊢
      linarith
  · intro h0
    rw [h0] at hd'
    have : (0 : ℝ) < |(k : ℝ)| * 2 ^ 145 := by positivity
    rw [Int.cast_zero, zero_sub, abs_neg, abs_mul, abs_of_pos (by positivity : (0 : ℝ) < 2 ^ 145)] at hd'
    generalize |(k : ℝ)| * 2 ^ 145 = K at *
    norm_num at hd'
    linarith

/-! ## Bits -/

theorem exact_real {num : Nat} {d : Dec} (hf : FiniteFloat num) (hn : d.neg = decide (2 ^ 31 ≤ num)) (he : d.exponent ≤ 0)
    (h : d.mantissa * 2 ^ 149 = units num * 10 ^ (-d.exponent).toNat) : decReal d = real (ofBits num) := by
  rw [real_ofBits hf, decReal, hn]
  congr 1
  obtain ⟨k, hk⟩ : ∃ k : Nat, d.exponent = -(k : Int) := ⟨(-d.exponent).toNat, by omega⟩
  rw [hk] at h ⊢
  rw [show (- -(k : Int)).toNat = k by omega] at h
  have h' : (d.mantissa : ℝ) * 2 ^ 149 = units num * 10 ^ k := by exact_mod_cast h
  rw [zpow_neg, zpow_natCast, ← div_eq_mul_inv, div_eq_div_iff (by positivity) (by positivity), h']

theorem sixteenth_units {num : Nat} {k : Int} (hf : FiniteFloat num) (h : val (ofBits num) = k * 2 ^ 145) :
    units num = k.natAbs * 2 ^ 145 := by
  have h1 := sixteenth_real h
  rw [real_ofBits hf] at h1
  have h2 := congrArg (|·|) h1
  simp only [abs_mul, abs_div] at h2
  have h3 : |(if decide (2 ^ 31 ≤ num) = true then (-1 : ℝ) else 1)| = 1 := by split <;> simp
  rw [Rat.cast_div, Rat.cast_intCast, Rat.cast_ofNat] at h2
  rw [h3, one_mul, abs_of_nonneg (by positivity), abs_div, abs_of_pos (by norm_num : (0 : ℝ) < 16),
    div_eq_div_iff (by positivity) (by norm_num)] at h2
  have h4 : (units num : ℝ) * 16 = (k.natAbs : ℝ) * 2 ^ 145 * 16 := by
    rw [Nat.cast_natAbs, Int.cast_abs, mul_assoc, show (2 : ℝ) ^ 145 * 16 = 2 ^ 149 by
      rw [show 149 = 145 + 4 from rfl, pow_add]; norm_num only]
    rw [h2, abs_of_pos (by positivity : (0 : ℝ) < 2 ^ 149)]
  have h5 := mul_right_cancel₀ (by norm_num : (16 : ℝ) ≠ 0) h4
  have h6 : (units num : ℝ) = ((k.natAbs * 2 ^ 145 : Nat) : ℝ) := by
    rw [h5, Nat.cast_mul, Nat.cast_pow, Nat.cast_ofNat]
  exact Nat.cast_injective h6

/-- The bits of a float of given size. -/
theorem units_range {num j : Nat} (hf : FiniteFloat num) (h : units num = j * 2 ^ 145) (h0 : j ≠ 0) :
    123 * 2 ^ 23 ≤ num % 2 ^ 31 ∧ (j < 16 * 10 ^ 5 → num % 2 ^ 31 < 0x47C35000) ∧ (j < 16 * 512 → num % 2 ^ 31 < 0x44000000) := by
  have f2 := hf.2
  rw [units] at h
  have hM : num % 2 ^ 31 = (num / 2 ^ 23 % 256) * 2 ^ 23 + num % 2 ^ 23 := by omega
  have m1 : num % 2 ^ 23 < 2 ^ 23 := Nat.mod_lt _ (by decide)
  generalize num / 2 ^ 23 % 256 = E at *
  generalize num % 2 ^ 23 = M at *
  rw [hM]
  have hE : 123 ≤ E := by
    by_contra hE
    have j1 : 1 * 2 ^ 145 ≤ j * 2 ^ 145 := Nat.mul_le_mul_right _ (by omega)
    rw [← h] at j1
    split at j1
    · have : M < 2 ^ 145 := Nat.lt_of_lt_of_le m1 (by decide)
      omega
    · have hp : 2 ^ (E - 1) ≤ 2 ^ 121 := Nat.pow_le_pow_right (by decide) (by omega)
      have : (2 ^ 23 + M) * 2 ^ (E - 1) < 2 ^ 24 * 2 ^ 121 :=
        Nat.lt_of_le_of_lt (Nat.mul_le_mul_left _ hp) (Nat.mul_lt_mul_of_pos_right (by omega) (Nat.two_pow_pos _))
      rw [← Nat.pow_add] at this
      omega
  rw [if_neg (by omega)] at h
  refine ⟨by omega, fun hj => ?_, fun hj => ?_⟩
  · by_contra hlt
    have a1 : j * 2 ^ 145 < 16 * 10 ^ 5 * 2 ^ 145 := Nat.mul_lt_mul_of_pos_right hj (Nat.two_pow_pos _)
    rw [← h] at a1
    by_cases h3 : E = 143
    · subst h3
      have : (2 ^ 23 + 4411392) * 2 ^ (143 - 1) ≤ (2 ^ 23 + M) * 2 ^ (143 - 1) := Nat.mul_le_mul_right _ (by omega)
      have e : 16 * 10 ^ 5 * 2 ^ 145 = (2 ^ 23 + 4411392) * 2 ^ (143 - 1) := by decide
      omega
    · have hp : 2 ^ 143 ≤ 2 ^ (E - 1) := Nat.pow_le_pow_right (by decide) (by omega)
      have : 2 ^ 23 * 2 ^ 143 ≤ (2 ^ 23 + M) * 2 ^ (E - 1) := Nat.mul_le_mul (by omega) hp
      have e : 16 * 10 ^ 5 * 2 ^ 145 ≤ 2 ^ 23 * 2 ^ 143 := by decide
      omega
  · by_contra hlt
    have a1 : j * 2 ^ 145 < 16 * 512 * 2 ^ 145 := Nat.mul_lt_mul_of_pos_right hj (Nat.two_pow_pos _)
    rw [← h] at a1
    have hp : 2 ^ 135 ≤ 2 ^ (E - 1) := Nat.pow_le_pow_right (by decide) (by omega)
    have : 2 ^ 23 * 2 ^ 135 ≤ (2 ^ 23 + M) * 2 ^ (E - 1) := Nat.mul_le_mul (by omega) hp
    have e : 16 * 512 * 2 ^ 145 = 2 ^ 23 * 2 ^ 135 := by decide
    omega

/-! ## Whole numbers -/

theorem value_ofNat {n : Nat} (h : n < 2 ^ 53) : value (B64.ofNat n) = some (n : Rat) := by
  obtain ⟨m, q, h1, -, h2⟩ := B64.ofNat_fin n h
  rw [h1, value_fin, if_neg (by simp), one_mul]
  have h3 : (m : Rat) * 2 ^ q = n * 2 ^ 1074 := by
    have := congrArg (Nat.cast (R := Rat)) h2
    rw [Nat.cast_mul, Nat.cast_mul, Nat.cast_pow, Nat.cast_pow, Nat.cast_ofNat] at this
    exact this
  rw [h3, mul_div_assoc, div_self (by positivity), mul_one]

theorem div_zero_ten : B64.div (B64.ofNat 0) (B64.ofNat 10) = B64.ofNat 0 := by decide +kernel

attribute [local irreducible] B64.ofNat B64.conv B64.round B64.add B64.div B64.mul

/-- A whole number followed by `.0` is read exactly. -/
theorem read_point_zero {w : Bytes} (hi : RfcInt w) (hd : decimal w < 2 ^ 53) :
    Builtin.readDouble B64.arith (w ++ [46, 48] ++ [0]) = .ok (.inr (B64.ofNat (decimal w), [0])) := by
  have hf : RfcFrac [46, 48] [48] := .some (by simp) (by simp [Digit])
  obtain ⟨e, hu, he⟩ := Props.rfc_under hi hf .none
  have h := Builtin.readDouble_ok B64.arith hu (c := 0) ⟨by simp [Digit], by decide, by decide, by decide, by decide⟩ []
  rw [List.append_nil] at h
  rw [h, Builtin.valueOf]
  have hw := B64.whole_exact w (Parser.rfcInt_digits hi).1 0 (by simpa using hd)
  rw [Nat.zero_mul, Nat.zero_add] at hw
  rw [B64.arith_ofNat] at hw ⊢
  rw [hw, B64.feed_cons, B64.feed_nil]
  have h1 : B64.add (B64.ofNat (decimal w)) (B64.div (B64.ofNat 0) (B64.ofNat 10)) = B64.ofNat (decimal w) := by
    rw [div_zero_ten, B64.add_ofNat hd (by decide), Nat.add_zero]
  show Out.ok (Sum.inr (Builtin.applyExp B64.arith e (B64.add (B64.ofNat (decimal w)) (B64.div (B64.ofNat 0) (B64.ofNat 10))), [0])) = _
  rw [h1]
  cases e with
  | none => rfl
  | some e =>
    obtain rfl : e = 0 := he
    have h2 : Builtin.applyExp B64.arith (some 0) (B64.ofNat (decimal w)) = B64.mul (B64.ofNat (decimal w)) (B64.conv false 1 (0 : Nat)) := rfl
    rw [h2, B64.mul_conv hd (by decide) (by decide), Nat.mul_one, ← B64.ofNat_eq]

end Verif.NumTrip
