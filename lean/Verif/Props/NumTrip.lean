import Verif.Lemmas.NumTrip

/-!
# The numbers of a document written and read without the C library (C148)
-/

namespace Verif.Props

open Verif Verif.Text Verif.Number Verif.Map Verif.Parser Verif.Doc Verif.Texts Verif.Str Verif.B32 Verif.MathFns Verif.FloatText Verif.Spec.F32
open Verif.NumTrip
open Verif.B64 (Dbl)
open Verif.Spec (units FiniteFloat RfcNum Dec decReal value Ws)

/-- The values of two doubles differ by at most `r` times the first one. -/
def Within (r : Rat) (x y : Dbl) : Prop := ∃ v w, value x = some v ∧ value y = some w ∧ |w - v| ≤ r * |v|

/-- Strings and names are harmless. -/
def HarmlessStrings (v : Value Dbl) : Prop :=
  ∀ path x, walk v path = some x → (∀ s, x = .str s → Serial.ReadableText s) ∧
    ∀ t o, x = .obj t o → (∀ k, (findMapElement nameLt k t).isSome ↔ k ∈ o) ∧ ∀ k ∈ o, Serial.ReadableText k

/-- Every number of the document has a value `v` with `P v`. -/
def NumbersAre (P : Rat → Prop) (d : Value Dbl) : Prop := ∀ path x, walk d path = some (.num x) → ∃ v, value x = some v ∧ P v

/-- Without the C library, `d` can be written, what is written is accepted, and every number `x` of the document comes back as a
number `y` with `rel x y`. -/
def NumbersComeBack (wrapv : Bool) (rel : Dbl → Dbl → Prop) (d : Value Dbl) : Prop :=
  (∀ path x, walk d path = some (.num x) → ∃ t, PrintsAs elem wrapv narrowBits x t) ∧
  ∀ (N : NumOps Dbl) (il : Nat) (ic : Byte), (il = 0 ∨ Ws [ic]) →
    (∀ path x, walk d path = some (.num x) → PrintsAs elem wrapv narrowBits x (N.fmt x)) →
    ∃ out, Emits N il ic d out ∧
      (2 ≤ out.length → ∃ d', BuiltinAccepts B64.arith B64.negate (out ++ [0]) d' ∧ ParserB.SameDoc rel d d')

/-- **C148**: if the numbers of a document are zero or lie between the least and (half of) the greatest normal float, they come back
from writing and parsing with a relative error of at most `3e-5`: five digits are printed. -/
def C148_statement (wrapv : Bool) : Prop :=
  ∀ d, HarmlessStrings d → NumbersAre (fun v => v = 0 ∨ 1 / 2 ^ 126 ≤ |v| ∧ |v| ≤ 2 ^ 127) d →
    NumbersComeBack wrapv (Within (3 / 10 ^ 5)) d

/-- The numbers that are printed without undefined behaviour: those that become zero, and those from `1.0002e-37` to
`2^127`, in C++17 without the ones from 511 to 100001. -/
def Writable (wrapv : Bool) (v : Rat) : Prop :=
  |v| ≤ 1 / 2 ^ 127 ∨ 10002 / 10 ^ 41 ≤ |v| ∧ |v| ≤ 2 ^ 127 ∧ (wrapv = true ∨ |v| ≤ 511 ∨ 100001 ≤ |v|)

/-- What becomes of a number: nothing, if it is tiny; between 0.0001 and 1 five digits behind the point are kept; otherwise the
relative error is at most `3e-5`. -/
def Roughly (x y : Dbl) : Prop :=
  ∃ v w, value x = some v ∧ value y = some w ∧
    (|v| ≤ 1 / 2 ^ 127 ∧ w = 0 ∨ 99999 / 10 ^ 9 ≤ |v| ∧ |v| < 1 ∧ |w - v| ≤ 11 / 10 ^ 6 ∨ |w - v| ≤ 3 / 10 ^ 5 * |v|)

/-! ## Single numbers -/

theorem bits_pos {num : Nat} (hf : FiniteFloat num) (h : 0x38D1B717 ≤ num % 2 ^ 31) : 999999 / 10 ^ 10 ≤ |real (ofBits num)| := by
  rw [abs_bits (by omega) hf, normal_real (by omega) (by have := hf.2; omega)]
  by_cases h1 : num % 2 ^ 31 / 2 ^ 23 = 113
  · rw [h1]
    have h2 : (5355287 : ℝ) ≤ ((num % 2 ^ 31 % 2 ^ 23 : Nat) : ℝ) := by exact_mod_cast (by omega : 5355287 ≤ num % 2 ^ 31 % 2 ^ 23)
    generalize ((num % 2 ^ 31 % 2 ^ 23 : Nat) : ℝ) = M at h2 ⊢
    norm_num
    linarith
  · have h1 : (2 : ℝ) ^ (-13 : Int) ≤ 2 ^ (((num % 2 ^ 31 / 2 ^ 23 : Nat) : Int) - 127) := zpow_le_zpow_right₀ (by norm_num) (by omega)
    have m0 : (0 : ℝ) ≤ ((num % 2 ^ 31 % 2 ^ 23 : Nat) : ℝ) / 2 ^ 23 := by positivity
    have : (1 : ℝ) * 2 ^ (-13 : Int) ≤ (1 + ((num % 2 ^ 31 % 2 ^ 23 : Nat) : ℝ) / 2 ^ 23) * 2 ^ (((num % 2 ^ 31 / 2 ^ 23 : Nat) : Int) - 127) :=
      mul_le_mul (by linarith) h1 (by positivity) (by positivity)
    refine le_trans ?_ this
    norm_num

theorem bits_normal {num : Nat} (hf : FiniteFloat num) (h : num / 2 ^ 23 % 256 ≠ 0) : 1 / 2 ^ 126 ≤ |real (ofBits num)| := by
  rw [abs_bits h hf, normal_real (by omega) (by have := hf.2; omega)]
  have h1 : (2 : ℝ) ^ (-126 : Int) ≤ 2 ^ (((num % 2 ^ 31 / 2 ^ 23 : Nat) : Int) - 127) := zpow_le_zpow_right₀ (by norm_num) (by omega)
  have m0 : (0 : ℝ) ≤ ((num % 2 ^ 31 % 2 ^ 23 : Nat) : ℝ) / 2 ^ 23 := by positivity
  have : (1 : ℝ) * 2 ^ (-126 : Int) ≤ (1 + ((num % 2 ^ 31 % 2 ^ 23 : Nat) : ℝ) / 2 ^ 23) * 2 ^ (((num % 2 ^ 31 / 2 ^ 23 : Nat) : Int) - 127) :=
    mul_le_mul (by linarith) h1 (by positivity) (by positivity)
  refine le_trans ?_ this
  norm_num

theorem bits_subnormal {num : Nat} (hf : FiniteFloat num) (h : num / 2 ^ 23 % 256 = 0) : |real (ofBits num)| ≤ 1 / 2 ^ 126 := by
  rw [real_ofBits hf, abs_mul]
  have h1 : |(if decide (2 ^ 31 ≤ num) = true then (-1 : ℝ) else 1)| = 1 := by split <;> simp
  have hu : (units num : ℝ) ≤ 2 ^ 23 := by
    unfold units
    rw [if_pos h]
    exact_mod_cast (by omega : num % 2 ^ 23 ≤ 2 ^ 23)
  rw [h1, one_mul, abs_of_nonneg (by positivity), div_le_iff₀ (by positivity)]
  refine hu.trans ?_
  norm_num

/-- The float between 512 and 1e5. -/
theorem bits_mid {num : Nat} (hf : FiniteFloat num) (h1 : 0x44000000 ≤ num % 2 ^ 31) (h2 : num % 2 ^ 31 < 0x47C35000) :
    512 ≤ |real (ofBits num)| ∧ |real (ofBits num)| ≤ 100000 := by
  rw [abs_bits (by omega) hf, normal_real (by omega) (by have := hf.2; omega)]
  have m0 : (0 : ℝ) ≤ ((num % 2 ^ 31 % 2 ^ 23 : Nat) : ℝ) / 2 ^ 23 := by positivity
  have m1 : ((num % 2 ^ 31 % 2 ^ 23 : Nat) : ℝ) / 2 ^ 23 ≤ 1 := by
    rw [div_le_one (by positivity)]
    exact_mod_cast (by omega : num % 2 ^ 31 % 2 ^ 23 ≤ 2 ^ 23)
  constructor
  · have h3 : (2 : ℝ) ^ (9 : Int) ≤ 2 ^ (((num % 2 ^ 31 / 2 ^ 23 : Nat) : Int) - 127) := zpow_le_zpow_right₀ (by norm_num) (by omega)
    have : (1 : ℝ) * 2 ^ (9 : Int) ≤ (1 + ((num % 2 ^ 31 % 2 ^ 23 : Nat) : ℝ) / 2 ^ 23) * 2 ^ (((num % 2 ^ 31 / 2 ^ 23 : Nat) : Int) - 127) :=
      mul_le_mul (by linarith) h3 (by positivity) (by positivity)
    refine le_trans ?_ this
    norm_num
  · by_cases h3 : num % 2 ^ 31 / 2 ^ 23 = 143
    · rw [h3]
      have h4 : ((num % 2 ^ 31 % 2 ^ 23 : Nat) : ℝ) ≤ 4411392 := by exact_mod_cast (by omega : num % 2 ^ 31 % 2 ^ 23 ≤ 4411392)
      generalize ((num % 2 ^ 31 % 2 ^ 23 : Nat) : ℝ) = M at h4 ⊢
      norm_num
      linarith
    · have h4 : (2 : ℝ) ^ (((num % 2 ^ 31 / 2 ^ 23 : Nat) : Int) - 127) ≤ 2 ^ (15 : Int) := zpow_le_zpow_right₀ (by norm_num) (by omega)
      have : (1 + ((num % 2 ^ 31 % 2 ^ 23 : Nat) : ℝ) / 2 ^ 23) * 2 ^ (((num % 2 ^ 31 / 2 ^ 23 : Nat) : Int) - 127) ≤ 2 * 2 ^ (15 : Int) :=
        mul_le_mul (by linarith) h4 (by positivity) (by positivity)
      refine this.trans ?_
      norm_num

/-- The exponent is only found to be -38 for small floats. -/
theorem lg_large {num : Nat} (hf : FiniteFloat num) (h0 : num / 2 ^ 23 % 256 ≠ 0) (h : 100011 / 10 ^ 42 ≤ |real (ofBits num)|) :
    elem.lg (num % 2 ^ 31) ≠ -38 := by
  intro e
  obtain ⟨-, a⟩ := decade_ratio (b := num % 2 ^ 31) (by omega) (by have := hf.2; omega)
  rw [e, ← abs_bits h0 hf, div_le_iff₀ (by positivity)] at a
  have := h.trans a
  norm_num at this

theorem printed_real {wrapv : Bool} {num : Nat} (hf : FiniteFloat num) (h : 100011 / 10 ^ 42 ≤ |real (ofBits num)|)
    (hw : wrapv = true ∨ ¬ (512 ≤ |real (ofBits num)| ∧ |real (ofBits num)| ≤ 100000)) :
    ∃ c' t d, fixedSetFloat elem wrapv 15 num (List.replicate 16 0) = .ok c' ∧ Holds c' t ∧ RfcNum t d ∧
      (|decReal d - real (ofBits num)| ≤ 2 / 10 ^ 5 * |real (ofBits num)| ∨
        999999 / 10 ^ 10 ≤ |real (ofBits num)| ∧ |decReal d - real (ofBits num)| ≤ 10121 / 10 ^ 9) := by
  have h0 : num / 2 ^ 23 % 256 ≠ 0 := by
    intro h0
    have := h.trans (bits_subnormal hf h0)
    norm_num at this
  by_cases h1 : num % 2 ^ 31 < 0x38D1B717 ∨ 0x47C35000 ≤ num % 2 ^ 31
  · obtain ⟨c', t, d, p1, p2, p3, p4⟩ := C98_scaled_partial wrapv num (List.replicate 16 0) hf rfl h0 h1 (lg_large hf h0 h)
    exact ⟨c', t, d, p1, p2, p3, .inl p4⟩
  by_cases h2 : num % 2 ^ 31 < 0x3F800000
  · obtain ⟨c', t, d, p1, p2, p3, p4⟩ := C98_absolute_partial wrapv num (List.replicate 16 0) hf rfl (by omega) h2
    exact ⟨c', t, d, p1, p2, p3, .inr ⟨bits_pos hf (by omega), p4⟩⟩
  · have h3 : wrapv = true ∨ num % 2 ^ 31 < 0x44000000 := by
      rcases hw with hw | hw
      · exact .inl hw
      · right
        by_contra h3
        exact hw (bits_mid hf (by omega) (by omega))
    obtain ⟨c', t, d, p1, p2, p3, p4⟩ := C98_mid_partial wrapv num (List.replicate 16 0) hf rfl (by omega) (by omega) h3
    exact ⟨c', t, d, p1, p2, p3, .inl p4⟩

/-- The errors of conversion, printing and reading add up. -/
theorem errors_add {V R D W : ℝ} (h1 : |R - V| ≤ 7 / 10 ^ 8 * |V|) (h3 : |W - D| ≤ 2 / 10 ^ 14 * |D|)
    (h2 : |D - R| ≤ 2 / 10 ^ 5 * |R| ∨ 999999 / 10 ^ 10 ≤ |R| ∧ |D - R| ≤ 10121 / 10 ^ 9) :
    99999 / 10 ^ 9 ≤ |V| ∧ |V| < 1 ∧ |W - V| ≤ 11 / 10 ^ 6 ∨ |W - V| ≤ 3 / 10 ^ 5 * |V| := by
  have a0 : |W - V| ≤ |W - D| + |D - R| + |R - V| := by
    have := abs_add_three (W - D) (D - R) (R - V)
    rwa [show W - D + (D - R) + (R - V) = W - V by ring] at this
  have a1 : |R| ≤ |V| + |R - V| := by
    have := abs_add_le V (R - V)
    rwa [show V + (R - V) = R by ring] at this
  have a2 : |D| ≤ |R| + |D - R| := by
    have := abs_add_le R (D - R)
    rwa [show R + (D - R) = D by ring] at this
  have v0 := abs_nonneg V
  generalize |W - V| = X at *
  generalize |W - D| = A at *
  generalize |D - R| = B at *
  generalize |R - V| = C at *
  generalize |V| = V at *
  generalize |R| = R at *
  generalize |D| = D at *
  rcases h2 with h2 | ⟨h2, h4⟩
  · right
    norm_num at h1 h2 h3 ⊢
    linarith
  · by_cases hv : V < 1
    · left
      norm_num at h1 h2 h3 h4 ⊢
      exact ⟨by linarith, hv, by linarith⟩
    · right
      norm_num at h1 h2 h3 h4 ⊢
      linarith

theorem number_trip {wrapv : Bool} {x : Dbl} {v : Rat} (hx : value x = some v) (hw : Writable wrapv v) :
    ∃ t d, PrintsAs elem wrapv narrowBits x t ∧ RfcNum t d ∧
      ∀ s y, Spec.SignedNum t s → LitValue B64.arith B64.negate s y → Roughly x y := by
  have h127 : |v| ≤ 2 ^ 127 := by
    rcases hw with h | ⟨-, h, -⟩
    · refine h.trans ?_; norm_num
    · exact h
  obtain ⟨hf, hr⟩ := narrow_real hx h127
  have cast_abs : ((|v| : Rat) : ℝ) = |(v : ℝ)| := by push_cast; rfl
  rcases hw with h | ⟨h1, -, h3⟩
  · have h0 : narrowBits x / 2 ^ 23 % 256 = 0 := by
      by_contra h0
      have b := bits_normal hf h0
      have c : |(v : ℝ)| ≤ 1 / 2 ^ 127 := by
        rw [← cast_abs]
        have := (Rat.cast_le (K := ℝ)).2 h
        push_cast at this ⊢; exact this
      have a1 : |real (ofBits (narrowBits x))| ≤ |(v : ℝ)| + |real (ofBits (narrowBits x)) - v| := by
        have := abs_add_le (v : ℝ) (real (ofBits (narrowBits x)) - v)
        rwa [show (v : ℝ) + (real (ofBits (narrowBits x)) - v) = real (ofBits (narrowBits x)) by ring] at this
      unfold eps tiny at hr
      norm_num at hr b c
      linarith
    obtain ⟨c', p1, p2⟩ := C79_zero elem wrapv (List.replicate 16 0) rfl _ h0
    refine ⟨_, ⟨false, _, _⟩, ⟨c', p1, p2⟩, RfcNum.pos (i := [48]) (ft := [46, 48]) (et := []) .zero (.some (by decide) (by simp [Spec.Digit])) .none,
      fun s y hs hy => ⟨v, 0, hx, read_zero hs hy, .inl ⟨h, rfl⟩⟩⟩
  · have c1 : 10002 / 10 ^ 41 ≤ |(v : ℝ)| := by
      rw [← cast_abs]
      have := (Rat.cast_le (K := ℝ)).2 h1
      push_cast at this ⊢; exact this
    have c2 : |(v : ℝ)| ≤ 2 ^ 127 := by
      rw [← cast_abs]
      have := (Rat.cast_le (K := ℝ)).2 h127
      push_cast at this ⊢; exact this
    have r1 : |real (ofBits (narrowBits x)) - v| ≤ 7 / 10 ^ 8 * |(v : ℝ)| := by
      unfold eps tiny at hr
      norm_num at hr c1 ⊢
      linarith
    generalize hR : real (ofBits (narrowBits x)) = R at r1
    have a1 : |R| ≤ |(v : ℝ)| + |R - v| := by
      have := abs_add_le (v : ℝ) (R - v)
      rwa [show (v : ℝ) + (R - v) = R by ring] at this
    have a2 : |(v : ℝ)| ≤ |R| + |R - v| := by
      have := abs_add_le R (v - R)
      rwa [show R + (v - R) = (v : ℝ) by ring, abs_sub_comm (v : ℝ) R] at this
    obtain ⟨c', t, d, p1, p2, p3, p4⟩ := printed_real (wrapv := wrapv) hf (by rw [hR]; norm_num at c1 r1 ⊢; linarith) (by
      rw [hR]
      refine h3.imp id fun h3 => ?_
      rintro ⟨g1, g2⟩
      rcases h3 with h3 | h3
      · have := (Rat.cast_le (K := ℝ)).2 h3
        push_cast at this
        norm_num at r1
        linarith
      · have := (Rat.cast_le (K := ℝ)).2 h3
        push_cast at this
        norm_num at r1
        linarith)
    rw [hR] at p4
    have a3 : |decReal d| ≤ |R| + |decReal d - R| := by
      have := abs_add_le R (decReal d - R)
      rwa [show R + (decReal d - R) = decReal d by ring] at this
    have a4 : |R| ≤ |decReal d| + |decReal d - R| := by
      have := abs_add_le (decReal d) (R - decReal d)
      rwa [show decReal d + (R - decReal d) = R by ring, abs_sub_comm R] at this
    refine ⟨t, d, ⟨c', p1, p2⟩, p3, fun s y hs hy => ?_⟩
    obtain ⟨w, w1, w2⟩ := read_near p3 (printed_length (by rfl) p1 p2)
      (by rcases p4 with p4 | ⟨p4, p5⟩
          · norm_num at p4 c1 r1 ⊢; linarith
          · norm_num at p4 p5 c1 r1 ⊢; linarith)
      (by rcases p4 with p4 | ⟨p4, p5⟩
          · norm_num at p4 c2 r1 ⊢; linarith
          · norm_num at p4 p5 c2 r1 ⊢; linarith) hs hy
    refine ⟨v, w, hx, w1, .inr ?_⟩
    rcases errors_add r1 w2 p4 with ⟨e1, e2, e3⟩ | e
    · left
      refine ⟨(Rat.cast_le (K := ℝ)).1 ?_, (Rat.cast_lt (K := ℝ)).1 ?_, (Rat.cast_le (K := ℝ)).1 ?_⟩
      · push_cast; exact e1
      · push_cast; exact e2
      · push_cast; exact e3
    · right
      refine (Rat.cast_le (K := ℝ)).1 ?_
      push_cast; exact e

/-! ## Documents -/

theorem prints_det {e : Elem} {wrapv : Bool} {x : Dbl} {t t' : Bytes} (h : PrintsAs e wrapv narrowBits x t)
    (h' : PrintsAs e wrapv narrowBits x t') : t = t' := by
  obtain ⟨c, h1, h2⟩ := h
  obtain ⟨c', h1', h2'⟩ := h'
  rw [h1] at h1'
  cases h1'
  exact holds_unique h2 h2'

theorem alike_mono {rel rel' : Dbl → Dbl → Prop} {x x' : Value Dbl} (h : ParserB.Alike rel x x')
    (hr : ∀ a b, x = .num a → rel a b → rel' a b) : ParserB.Alike rel' x x' := by
  cases x <;> cases x' <;> first | exact h | exact hr _ _ rfl h

theorem sameDoc_mono {rel rel' : Dbl → Dbl → Prop} {d d' : Value Dbl} (h : ParserB.SameDoc rel d d')
    (hr : ∀ path a b, walk d path = some (.num a) → rel a b → rel' a b) : ParserB.SameDoc rel' d d' := by
  intro path
  rcases h path with h | ⟨x, x', h1, h2, h3⟩
  · exact .inl h
  · exact .inr ⟨x, x', h1, h2, alike_mono h3 fun a b e => hr path a b (e ▸ h1)⟩

theorem comeBack_mono {wrapv : Bool} {rel rel' : Dbl → Dbl → Prop} {d : Value Dbl} (h : NumbersComeBack wrapv rel d)
    (hr : ∀ path a b, walk d path = some (.num a) → rel a b → rel' a b) : NumbersComeBack wrapv rel' d := by
  refine ⟨h.1, fun N il ic hic hp => ?_⟩
  obtain ⟨out, h1, h2⟩ := h.2 N il ic hic hp
  refine ⟨out, h1, fun hl => ?_⟩
  obtain ⟨d', h3, h4⟩ := h2 hl
  exact ⟨d', h3, sameDoc_mono h4 hr⟩

/-- **C148, the part that holds**: every document with harmless strings whose numbers can be printed is written and accepted again,
and its numbers are roughly the same. Missing: the precision between 0.0001 and 1, and the numbers whose printing is undefined, for both of
which it fails. -/
theorem C148_numbers_partial (wrapv : Bool) (d : Value Dbl) (hs : HarmlessStrings d) (hn : NumbersAre (Writable wrapv) d) :
    NumbersComeBack wrapv Roughly d := by
  refine ⟨fun path x hx => ?_, fun N il ic hic hp => ?_⟩
  · obtain ⟨v, h1, h2⟩ := hn path x hx
    obtain ⟨t, -, h3, -⟩ := number_trip h1 h2
    exact ⟨t, h3⟩
  · have key : ∀ path x, walk d path = some (.num x) → ∃ e, RfcNum (N.fmt x) e ∧
        ∀ s y, Spec.SignedNum (N.fmt x) s → LitValue B64.arith B64.negate s y → Roughly x y := by
      intro path x hx
      obtain ⟨v, h1, h2⟩ := hn path x hx
      obtain ⟨t, e, h3, h4, h5⟩ := number_trip h1 h2
      obtain rfl := prints_det h3 (hp path x hx)
      exact ⟨e, h4, h5⟩
    obtain ⟨out, h1, h2⟩ := C145_builtin_round_trip_partial B64.arith B64.negate N d il ic hic
      (fun path x hx => let ⟨e, h, _⟩ := key path x hx; ⟨e, h⟩) hs
    refine ⟨out, h1, fun hl => ?_⟩
    obtain ⟨d', h3, h4⟩ := h2 hl
    refine ⟨d', h3, sameDoc_mono h4 fun path a b ha h => ?_⟩
    obtain ⟨s, h5, h6⟩ := h
    obtain ⟨-, -, h7⟩ := key path a ha
    exact h7 s b h5 h6

/-- In particular the relative error is at most `3e-5`, if the numbers are zero or avoid the bad ranges. -/
theorem C148_relative_partial (wrapv : Bool) (d : Value Dbl) (hs : HarmlessStrings d)
    (hn : NumbersAre (fun v => v = 0 ∨ 10002 / 10 ^ 41 ≤ |v| ∧ |v| < 99999 / 10 ^ 9 ∨ 1 ≤ |v| ∧ |v| ≤ 511 ∨
      100001 ≤ |v| ∧ |v| ≤ 2 ^ 127) d) : NumbersComeBack wrapv (Within (3 / 10 ^ 5)) d := by
  have hw : NumbersAre (Writable wrapv) d := by
    intro path x hx
    obtain ⟨v, h1, h2⟩ := hn path x hx
    refine ⟨v, h1, ?_⟩
    rcases h2 with rfl | ⟨h2, h3⟩ | ⟨h2, h3⟩ | ⟨h2, h3⟩
    · left; simp
    · exact .inr ⟨h2, by norm_num at h3 ⊢; linarith, .inr (.inl (by norm_num at h3 ⊢; linarith))⟩
    · exact .inr ⟨by norm_num at h2 ⊢; linarith, by norm_num at h3 ⊢; linarith, .inr (.inl h3)⟩
    · exact .inr ⟨by norm_num at h2 ⊢; linarith, h3, .inr (.inr h2)⟩
  refine comeBack_mono (C148_numbers_partial wrapv d hs hw) ?_
  intro path a b ha ⟨v, w, h1, h2, h3⟩
  obtain ⟨v', h1', h4⟩ := hn path a ha
  obtain rfl : v = v' := by rw [h1] at h1'; exact Option.some.inj h1'
  refine ⟨v, w, h1, h2, ?_⟩
  rcases h3 with ⟨h3, rfl⟩ | ⟨h3, h5, h6⟩ | h3
  · rcases h4 with rfl | ⟨h4, -⟩ | ⟨h4, -⟩ | ⟨h4, -⟩
    · simp
    all_goals norm_num at h3 h4; linarith
  · rcases h4 with rfl | ⟨-, h4⟩ | ⟨h4, -⟩ | ⟨h4, -⟩
    · norm_num at h3
    all_goals linarith
  · exact h3

/-! ## Violations -/

theorem harmless_num (x : Dbl) : HarmlessStrings (.num x) := by
  intro path w hw
  cases path with
  | nil =>
    simp only [walk, Option.some.injEq] at hw
    subst hw
    constructor <;> simp
  | cons s p => simp [walk, Doc.step] at hw

theorem walk_num {x y : Dbl} {path} (h : walk (.num x) path = some (.num y)) : y = x := by
  cases path with
  | nil => simp only [walk, Option.some.injEq, Value.num.injEq] at h; exact h.symm
  | cons s p => simp [walk, Doc.step] at h

/-- **C148 fails**: printing the least normal float is undefined. -/
theorem C148_violated (wrapv : Bool) : ¬ C148_statement wrapv := by
  intro H
  have hv : value (.fin false (2 ^ 52) 896) = some (1 / 2 ^ 126) := by
    rw [value_fin]
    congr 1
    have : (2 : Rat) ^ 1074 = 2 ^ 52 * 2 ^ 896 * 2 ^ 126 := by rw [← pow_add, ← pow_add]
    rw [if_neg (by simp), one_mul, this]
    push_cast
    field_simp
    norm_num
  have hb : narrowBits (.fin false (2 ^ 52) 896) = 2 ^ 23 := by decide +kernel
  obtain ⟨h, -⟩ := H (.num (.fin false (2 ^ 52) 896)) (harmless_num _) (by
    intro path x hx
    obtain rfl := walk_num hx
    refine ⟨_, hv, .inr ?_⟩
    rw [abs_of_pos (by positivity)]
    norm_num)
  obtain ⟨t, c', h1, -⟩ := h [] _ rfl
  rw [hb, C98_undefined wrapv (2 ^ 23) _ ⟨by decide, by decide⟩ rfl (by decide) ?_] at h1
  · cases h1
  · have : ofBits (2 ^ 23) = .fin false (2 ^ 23) 0 := by decide
    rw [this, real_fin, Nat.cast_mul, Nat.cast_pow, Nat.cast_pow, Nat.cast_ofNat]
    norm_num

/-- The float nearest to 0.000105, as a double. -/
def offender : Dbl := .fin false (14431090 * 2 ^ 29) 1008

theorem offender_value : value offender = some (14431090 / 2 ^ 37) := by
  rw [offender, value_fin]
  congr 1
  have : (2 : Rat) ^ 1074 = 2 ^ 29 * 2 ^ 1008 * 2 ^ 37 := by rw [← pow_add, ← pow_add]
  rw [if_neg (by simp), one_mul, this]
  push_cast
  field_simp
  norm_num

/-- **C148 fails between 0.0001 and 1**: 0.000105 comes back as 0.0001, which is not even right to four percent. -/
theorem C148_middle_violated (wrapv : Bool) : ¬ NumbersComeBack wrapv (Within (4 / 100)) (.num offender) := by
  rintro ⟨-, H⟩
  let N : NumOps Dbl := ⟨fun _ _ _ => offender, id, fun _ => [48, 46, 48, 48, 48, 49]⟩
  have hb : narrowBits offender = 0x38DC3372 := by decide +kernel
  have hp : PrintsAs elem wrapv narrowBits offender [48, 46, 48, 48, 48, 49] := by
    refine ⟨[48, 46, 48, 48, 48, 49] ++ 0 :: List.replicate 9 0, ?_, by decide, _, rfl⟩
    rw [hb, fixed_mid (by decide) (by decide)]
    cases wrapv <;> decide +kernel
  have hr : RfcNum [48, 46, 48, 48, 48, 49] ⟨false, 1, -4⟩ :=
    RfcNum.pos (i := [48]) (ft := [46, 48, 48, 48, 49]) (et := []) .zero (.some (by decide) (by simp [Spec.Digit])) .none
  obtain ⟨out, h1, h2⟩ := H N 0 0x20 (.inl rfl) (fun path x hx => by obtain rfl := walk_num hx; exact hp)
  obtain ⟨out', h1', h2'⟩ := C145_builtin_round_trip_partial B64.arith B64.negate N (.num offender) 0 0x20 (.inl rfl)
    (fun _ _ _ => ⟨_, hr⟩) (harmless_num _)
  obtain rfl := emits_det h1 h1'
  obtain rfl := emits_det h1 ⟨1, _, rfl, rfl, rfl⟩
  obtain ⟨d, a1, a2⟩ := h2 (by decide)
  obtain ⟨d', a1', a2'⟩ := h2' (by decide)
  have e := (a1 _ (Nat.le_refl _)).symm.trans (a1' _ (Nat.le_refl _))
  injection e with e
  obtain rfl : d = d' := by simpa using e
  rcases a2 [] with ⟨h, -⟩ | ⟨p, q, b1, b2, b3⟩
  · simp [walk] at h
  rcases a2' [] with ⟨h, -⟩ | ⟨p', q', b1', b2', b3'⟩
  · simp [walk] at h
  simp only [walk, Option.some.injEq] at b1 b2 b1' b2'
  subst b1 b2 b1' b2'
  cases d <;> simp only [ParserB.Alike] at b3 b3'
  obtain ⟨v, w, c1, c2, c3⟩ := b3
  obtain ⟨s, c4, c5⟩ := b3'
  have hd : decReal ⟨false, 1, -4⟩ = 1 / 10 ^ 4 := by
    unfold decReal
    norm_num
  obtain ⟨w', c6, c7⟩ := read_near hr (by decide) (by rw [hd]; norm_num) (by rw [hd]; norm_num) c4 c5
  obtain rfl : w = w' := by rw [c2] at c6; exact Option.some.inj c6
  rw [offender_value] at c1
  obtain rfl := Option.some.inj c1
  have c8 := (Rat.cast_le (K := ℝ)).2 c3
  rw [hd] at c7
  push_cast at c8
  rw [abs_of_pos (by norm_num : (0 : ℝ) < 14431090 / 2 ^ 37), abs_le] at c8
  rw [abs_of_pos (by norm_num : (0 : ℝ) < 1 / 10 ^ 4), abs_le] at c7
  norm_num at c7 c8
  linarith

/-! ## Examples -/

/-- `[1.5, -250, "a"]`. -/
def tripExample : Value Dbl := .arr [.num (.fin false (3 * 2 ^ 51) 1022), .num (.fin true (125 * 2 ^ 46) 1029), .str [0x61]]

theorem tripExample_facts : HarmlessStrings tripExample ∧
    (∀ path x, walk tripExample path = some (.num x) → x = .fin false (3 * 2 ^ 51) 1022 ∨ x = .fin true (125 * 2 ^ 46) 1029) ∧
    value (.fin false (3 * 2 ^ 51) 1022) = some (3 / 2) ∧ value (.fin true (125 * 2 ^ 46) 1029) = some (-250) := by
  have hv1 : value (.fin false (3 * 2 ^ 51) 1022) = some (3 / 2) := by
    rw [value_fin]
    congr 1
    have : (2 : Rat) ^ 1074 = 2 ^ 51 * 2 ^ 1022 * 2 := by rw [← pow_add, ← pow_succ]
    rw [if_neg (by simp), one_mul, this]
    push_cast
    field_simp
    norm_num
  have hv2 : value (.fin true (125 * 2 ^ 46) 1029) = some (-250) := by
    rw [value_fin]
    congr 1
    have : (2 : Rat) ^ 1074 = 2 ^ 45 * 2 ^ 1029 := by rw [← pow_add]
    rw [if_pos rfl, this]
    push_cast
    field_simp
    norm_num
  have hwalk : ∀ path x, walk tripExample path = some x → (∃ l, x = .arr l) ∨
      x = .num (Dbl.fin false (3 * 2 ^ 51) 1022) ∨ x = .num (Dbl.fin true (125 * 2 ^ 46) 1029) ∨ x = .str [0x61] := by
    intro path x hx
    match path, hx with
    | [], hx => left; exact ⟨_, (Option.some.inj hx).symm⟩
    | [.index 0], hx => right; left; exact (Option.some.inj hx).symm
    | [.index 1], hx => right; right; left; exact (Option.some.inj hx).symm
    | [.index 2], hx => right; right; right; exact (Option.some.inj hx).symm
    | .index 0 :: _ :: _, hx => simp [walk, Doc.step, tripExample] at hx
    | .index 1 :: _ :: _, hx => simp [walk, Doc.step, tripExample] at hx
    | .index 2 :: _ :: _, hx => simp [walk, Doc.step, tripExample] at hx
    | .index (n + 3) :: _, hx => simp [walk, Doc.step, tripExample] at hx
    | .member _ :: _, hx => simp [walk, Doc.step, tripExample] at hx
  refine ⟨?_, ?_, hv1, hv2⟩
  · intro path x hx
    refine ⟨fun s hs => ?_, fun t o ho => ?_⟩
    · obtain ⟨l, rfl⟩ | rfl | rfl | rfl := hwalk path x hx <;> cases hs
      exact ⟨[0x61], by decide, by decide⟩
    · obtain ⟨l, rfl⟩ | rfl | rfl | rfl := hwalk path x hx <;> cases ho
  · intro path x hx
    obtain ⟨l, h⟩ | h | h | h := hwalk path _ hx <;> cases h
    · exact .inl rfl
    · exact .inr rfl

/-- The hypotheses of `C148_relative_partial` hold. -/
example (wrapv : Bool) : NumbersComeBack wrapv (Within (3 / 10 ^ 5)) tripExample := by
  obtain ⟨h1, h2, h3, h4⟩ := tripExample_facts
  refine C148_relative_partial wrapv _ h1 fun path x hx => ?_
  rcases h2 path x hx with rfl | rfl
  · exact ⟨_, h3, .inr (.inr (.inl (by norm_num [abs_of_pos])))⟩
  · exact ⟨_, h4, .inr (.inr (.inl (by norm_num)))⟩

/-- 1.5 is converted to the float with the bits `0x3FC00000`, 1e39 to infinity. -/
example : narrowBits (.fin false (3 * 2 ^ 51) 1022) = 0x3FC00000 ∧
    narrowBits (.fin false 6617444900424222 1151) = 0x7F800000 := by decide +kernel

end Verif.Props
