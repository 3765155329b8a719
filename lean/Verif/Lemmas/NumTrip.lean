import Verif.Model.Narrow
import Verif.Lemmas.Ieee32
import Verif.Props.PrintedFloat
import Verif.Props.Reader64
import Verif.Props.WriteBuiltin

/-!
# A number printed as a float and read as a double
-/

namespace Verif.NumTrip

open Verif Verif.Text Verif.Texts Verif.Str Verif.Dyn Verif.B32 Verif.FloatText Verif.Spec.F32
open Verif.B64 (Dbl)
open Verif.Spec (units FiniteFloat RfcNum RfcInt RfcFrac RfcExp Digit Dec decReal value SignedNum SignedLit decimal Ws)

/-! ## The block keeps its length -/

/-- Whenever there is a result, its block has length `n`. -/
def Keeps {β : Type} (n : Nat) (o : Out (Bytes × β)) : Prop := ∀ r, o = .ok r → r.1.length = n

theorem keeps_ub {β : Type} {n : Nat} : Keeps (β := β) n .ub := by intro r h; cases h
theorem keeps_ok {β : Type} {b : Bytes} {n : Nat} {x : β} (h : b.length = n) : Keeps n (.ok (b, x)) := by
  intro r e; cases e; exact h

theorem keeps_bind {α β : Type} {n : Nat} {o : Out α} {f : α → Out (Bytes × β)} (h : ∀ a, o = .ok a → Keeps n (f a)) :
    Keeps n (o >>= f) := by
  intro r e
  cases o with
  | ok a => exact h a rfl r e
  | ub => cases e
  | fuel => cases e

theorem wr_length {b c : Bytes} {i : Nat} {v : Byte} (h : wr b i v = .ok c) : c.length = b.length := by
  unfold wr at h
  split at h
  · cases h; simp
  · cases h

theorem wrAll_length : ∀ (l : Bytes) (d : Nat) (b c : Bytes), wrAll l d b = .ok c → c.length = b.length := by
  intro l
  induction l with
  | nil => intro d b c h; cases h; rfl
  | cons k l ih =>
    intro d b c h
    rw [wrAll] at h
    cases hw : wr b d k with
    | ok b' => rw [hw] at h; exact (ih _ _ _ h).trans (wr_length hw)
    | ub => rw [hw] at h; cases h
    | fuel => rw [hw] at h; cases h

theorem putDigits_keeps (max : Int) (d : Nat) : ∀ (c : Bytes) (a : Nat) (b : Bytes), Keeps b.length (putDigits max d c a b) := by
  intro c
  induction c with
  | nil => intro a b; exact keeps_ub
  | cons k c ih =>
    intro a b
    rw [putDigits]
    split
    · refine keeps_bind fun b' h => ?_
      rw [← wr_length h]
      split
      · refine keeps_bind fun b'' h => ?_
        exact keeps_ok (wr_length h)
      · exact ih _ _
    · exact keeps_bind fun b' h => keeps_ok (wr_length h)

theorem printInt_keeps (wrapv : Bool) (bits cap : Nat) (num : Int) (d : Nat) (max : Int) (b : Bytes) :
    Keeps b.length (printInt wrapv bits cap num d max b) := by
  unfold printInt
  refine keeps_bind fun m _ => keeps_bind fun c _ => ?_
  split
  · split
    · refine keeps_bind fun b' h => ?_
      rw [← wr_length h]; exact putDigits_keeps _ _ _ _ _
    · exact keeps_bind fun b' h => keeps_ok (wr_length h)
  · exact putDigits_keeps _ _ _ _ _

theorem fracLoop_keeps (max : Nat) : ∀ s z n m len (b : Bytes), Keeps b.length (fracLoop max s z n m len b) := by
  intro s
  induction s with
  | zero => intro z n m len b; exact keeps_ok rfl
  | succ s ih =>
    intro z n m len b
    rw [fracLoop]
    split
    · refine keeps_bind fun b' h => ?_
      rw [← wr_length h]
      dsimp only
      repeat' split
      all_goals first | exact keeps_ok rfl | exact ih _ _ _ _ _
    · exact keeps_ok rfl

theorem nineLoop_keeps (len : Nat) (b : Bytes) : ∀ a, Keeps b.length (nineLoop len b a) := by
  intro a
  induction a with
  | zero => exact keeps_ub
  | succ a ih =>
    rw [nineLoop]
    refine keeps_bind fun c _ => ?_
    split
    · split
      · exact keeps_bind fun b' h => keeps_ok (wr_length h)
      · exact keeps_ok rfl
    · exact ih

theorem trim_keeps (len : Nat) (b : Bytes) : Keeps b.length (trim len b) := by
  unfold trim
  split
  · exact keeps_ub
  · refine keeps_bind fun _ _ => keeps_bind fun _ _ => ?_
    split
    · exact nineLoop_keeps _ _ _
    · refine keeps_bind fun _ _ => keeps_bind fun _ _ => ?_
      split
      · exact keeps_bind fun b' h => keeps_ok (wr_length h)
      · exact keeps_ok rfl

theorem finish_keeps (len : Nat) (b : Bytes) : Keeps b.length (finish len b) :=
  keeps_bind fun b' h => keeps_ok (wr_length h)

theorem fraction_keeps (wrapv : Bool) (m : Nat) (p : Int) (max len : Nat) (b : Bytes) : Keeps b.length (fraction wrapv m p max len b) := by
  unfold fraction
  refine keeps_bind fun ⟨b1, l1⟩ h1 => ?_
  have e1 := fracLoop_keeps _ _ _ _ _ _ _ _ h1
  refine keeps_bind fun ⟨b2, l2⟩ h2 => ?_
  have e2 := trim_keeps _ _ _ h2
  dsimp only at e1 e2 ⊢
  rw [← e1, ← e2]
  split
  · refine keeps_bind fun b' h => ?_
    rw [← wr_length h]; exact printInt_keeps _ _ _ _ _ _ _
  · exact finish_keeps _ _

theorem digits_keeps (wrapv neg : Bool) (a : Nat) (p : Int) (max : Nat) (b : Bytes) : Keeps b.length (digits wrapv neg a p max b) := by
  unfold digits
  dsimp only
  refine keeps_bind fun ⟨b1, l1⟩ h1 => ?_
  have e1 : b1.length = b.length := by
    have : Keeps b.length (if neg = true then wr b 0 45 >>= fun b => .ok (b, 1) else .ok (b, 0)) := by
      split
      · exact keeps_bind fun b' h => keeps_ok (wr_length h)
      · exact keeps_ok rfl
    exact this _ h1
  dsimp only
  rw [← e1]
  split
  · split
    · exact keeps_ub
    · split
      · exact keeps_ub
      · refine keeps_bind fun ⟨b2, k⟩ h2 => ?_
        have e2 := printInt_keeps _ _ _ _ _ _ _ _ h2
        dsimp only at e2 ⊢
        rw [← e2]
        refine keeps_bind fun ⟨b3, l3⟩ h3 => ?_
        have e3 : b3.length = b2.length := by
          have : Keeps b2.length (if l1 + k < max then wr b2 (l1 + k) 46 >>= fun b => .ok (b, l1 + k + 1) else .ok (b2, l1 + k)) := by
            split
            · exact keeps_bind fun b' h => keeps_ok (wr_length h)
            · exact keeps_ok rfl
          exact this _ h3
        dsimp only
        rw [← e3]
        split
        · exact finish_keeps _ _
        · exact fraction_keeps _ _ _ _ _ _
  · split
    · refine keeps_bind fun b2 h2 => keeps_bind fun b3 h3 => ?_
      rw [← wr_length h2, ← wr_length h3]
      split
      · exact finish_keeps _ _
      · split
        · exact keeps_ub
        · exact fraction_keeps _ _ _ _ _ _
    · split
      · refine keeps_bind fun b2 h2 => ?_
        rw [← wr_length h2]; exact finish_keeps _ _
      · exact finish_keeps _ _

theorem floatToString_keeps (e : Elem) (wrapv : Bool) (num : Nat) (max : Int) (b : Bytes) :
    Keeps b.length (floatToString e wrapv num max b) := by
  unfold floatToString
  split
  · exact keeps_bind fun b' h => keeps_ok (wr_length h)
  · split
    · split <;> exact keeps_bind fun b' h => keeps_ok (wrAll_length _ _ _ _ h)
    · split
      · split
        · refine keeps_bind fun ⟨b1, k⟩ h1 => ?_
          have e1 : b1.length = b.length := by
            have : Keeps b.length (if 2 ^ 31 ≤ num then wr b 0 45 >>= fun b => .ok (b, 1) else .ok (b, 0)) := by
              split
              · exact keeps_bind fun b' h => keeps_ok (wr_length h)
              · exact keeps_ok rfl
            exact this _ h1
          dsimp only
          rw [← e1]
          exact keeps_bind fun b' h => keeps_ok (wrAll_length _ _ _ _ h)
        · exact keeps_bind fun b' h => keeps_ok (wr_length h)
      · exact digits_keeps _ _ _ _ _ _

/-- The text of a float has at most 15 characters. -/
theorem printed_length {e : Elem} {wrapv : Bool} {num : Nat} {c c' t : Bytes} (hc : c.length = 16)
    (h : fixedSetFloat e wrapv 15 num c = .ok c') (ht : Holds c' t) : t.length ≤ 15 := by
  unfold fixedSetFloat at h
  cases h1 : floatToString e wrapv num (15 : Nat) c with
  | ok r =>
    rw [h1] at h
    cases h
    have := floatToString_keeps _ _ _ _ _ _ h1
    obtain ⟨-, s, e⟩ := ht
    rw [e] at this
    simp at this
    omega
  | ub => rw [h1] at h; cases h
  | fuel => rw [h1] at h; cases h

/-! ## Conversion to float -/

theorem value_fin (s : Bool) (m q : Nat) : value (.fin s m q) = some ((if s then -1 else 1 : Rat) * ((m : Rat) * 2 ^ q / 2 ^ 1074)) := rfl

theorem narrow_real {x : Dbl} {v : Rat} (hx : value x = some v) (hv : |v| ≤ 2 ^ 127) :
    FiniteFloat (narrowBits x) ∧ |real (ofBits (narrowBits x)) - v| ≤ eps * |(v : ℝ)| + tiny := by
  cases x with
  | fin s m q =>
    rw [value_fin] at hx
    injection hx with hx
    have ha : |v| = m * 2 ^ q / 2 ^ 1074 := by
      rw [← hx, abs_mul, abs_of_nonneg (a := (m * 2 ^ q / 2 ^ 1074 : Rat)) (by positivity)]
      split <;> simp
    have hb : m * 2 ^ q ≤ 2 ^ 276 * 2 ^ 925 := by
      rw [ha, div_le_iff₀ (by positivity)] at hv
      have h : ((m * 2 ^ q : Nat) : Rat) ≤ ((2 ^ 127 * 2 ^ 1074 : Nat) : Rat) := by push_cast; exact hv
      have h' := Nat.cast_le.1 h
      rw [← pow_add] at h' ⊢
      exact h'
    obtain ⟨r1, r2⟩ := round_real s (num := m * 2 ^ q) (den := 2 ^ 925) (by positivity) hb
    have e1 : (((m * 2 ^ q : Nat) : ℝ) / ((2 ^ 925 : Nat) : ℝ) / 2 ^ 149) = m * 2 ^ q / 2 ^ 1074 := by
      push_cast
      rw [div_div, ← pow_add]
    have e2 : |(v : ℝ)| = m * 2 ^ q / 2 ^ 1074 := by
      have := congrArg (fun r : Rat => (r : ℝ)) ha
      simpa using this
    have e3 : (v : ℝ) = (if s then -1 else 1) * (m * 2 ^ q / 2 ^ 1074) := by
      rw [← hx]; push_cast; cases s <;> simp
    rw [e1] at r2
    obtain ⟨b1, b2⟩ := ofBits_toBits (.inl r1)
    refine ⟨⟨b1, fun h => ?_⟩, ?_⟩
    · obtain ⟨s', m', q', r3, -⟩ := r1
      rw [narrowBits, narrow] at h
      rw [r3] at b2 h
      unfold ofBits at b2
      dsimp only at b2
      rw [if_pos h] at b2
      split at b2 <;> cases b2
    · rw [narrowBits, narrow, b2, e2, e3]
      exact r2
  | inf s => cases hx
  | nan => cases hx

/-! ## Reading -/

/-- A literal read as a double, the sign apart. -/
theorem read_core {i ft fd et : Bytes} {e : Int} (hi : RfcInt i) (hf : RfcFrac ft fd) (he : RfcExp et e)
    (hl : (i ++ (ft ++ et)).length ≤ 15) (he1 : -306 ≤ e) (he2 : e ≤ 306)
    (hd : decimal (i ++ fd) = 0 ∨ 1 / 10 ^ 306 ≤ (decimal (i ++ fd) : ℝ) * 10 ^ (e - fd.length) ∧
      (decimal (i ++ fd) : ℝ) * 10 ^ (e - fd.length) ≤ 10 ^ 306) {x : Dbl} {r : Bytes}
    (hx : Builtin.readDouble B64.arith (i ++ (ft ++ et) ++ [0]) = .ok (.inr (x, r))) :
    ∃ v : Rat, value x = some v ∧ |(v : ℝ) - (decimal (i ++ fd) : ℝ) * 10 ^ (e - fd.length)| ≤
      2 / 10 ^ 14 * ((decimal (i ++ fd) : ℝ) * 10 ^ (e - fd.length)) := by
  have hfl : fd.length ≤ ft.length := by cases hf <;> simp
  simp only [List.length_append] at hl
  have hq : (decimal (i ++ fd) : Rat) * 10 ^ (e - fd.length) = 0 ∨ 1 / 10 ^ 306 ≤ (decimal (i ++ fd) : Rat) * 10 ^ (e - fd.length) ∧
      (decimal (i ++ fd) : Rat) * 10 ^ (e - fd.length) ≤ 10 ^ 306 := by
    rcases hd with h | ⟨h1, h2⟩
    · left; rw [h]; simp
    · right
      constructor
      · exact (Rat.cast_le (K := ℝ)).1 (by push_cast; exact h1)
      · exact (Rat.cast_le (K := ℝ)).1 (by push_cast; exact h2)
  obtain ⟨y, v, y1, y2, y3, y4⟩ := Props.C81_bound_partial i ft fd et e 0 [] hi hf he (by simp [Digit]) (by decide) (by omega) (by omega)
    he1 he2 _ rfl hq
  rw [y1] at hx
  injection hx with hx
  injection hx with hx
  injection hx with hx
  subst hx
  refine ⟨v, y2, ?_⟩
  generalize hD : (decimal (i ++ fd) : Rat) * 10 ^ (e - fd.length) = D at y3 y4
  have eD : (decimal (i ++ fd) : ℝ) * 10 ^ (e - fd.length) = (D : ℝ) := by rw [← hD]; push_cast; rfl
  have hD0 : 0 ≤ D := by rw [← hD]; positivity
  rw [eD]
  have hk : ((2 * i.length + fd.length + 2 : Rat)) / 2 ^ 52 ≤ 2 / 10 ^ 14 := by
    have : ((2 * i.length + fd.length + 2 : Nat) : Rat) ≤ ((47 : Nat) : Rat) := by
      apply Nat.cast_le.2; omega
    push_cast at this
    rw [div_le_iff₀ (by positivity)]
    refine this.trans ?_
    norm_num
  have z := mul_le_mul_of_nonneg_left hk hD0
  have z1 : v - D ≤ 2 / 10 ^ 14 * D := by linarith
  have z2 : D - v ≤ 2 / 10 ^ 14 * D := by linarith
  have w1 : (v : ℝ) - D ≤ 2 / 10 ^ 14 * D := by
    have := (Rat.cast_le (K := ℝ)).2 z1
    push_cast at this; exact this
  have w2 : (D : ℝ) - v ≤ 2 / 10 ^ 14 * D := by
    have := (Rat.cast_le (K := ℝ)).2 z2
    push_cast at this; exact this
  rw [abs_le]
  constructor <;> linarith

theorem value_negate {x : Dbl} {v : Rat} (h : value x = some v) : value (B64.negate x) = some (-v) := by
  cases x with
  | fin s m q =>
    rw [value_fin] at h
    injection h with h
    rw [B64.negate, value_fin, ← h]
    cases s <;> simp
  | inf s => cases h
  | nan => cases h

/-- The sign and the rest of an RFC 8259 number, as the reader of literals sees them. -/
theorem signed_pos {i ft et : Bytes} {s : SignedLit} (hi : RfcInt i) (h : SignedNum (i ++ (ft ++ et)) s) :
    s = ⟨false, i ++ (ft ++ et)⟩ := by
  obtain ⟨h1, c, r, rfl, -⟩ := Parser.rfcInt_digits hi
  have hc := h1 c (by simp)
  generalize ht : (c :: r) ++ (ft ++ et) = t at *
  cases h with
  | plain h => rfl
  | plus hw h =>
    rw [List.cons_append, List.cons.injEq] at ht
    rw [ht.1] at hc; simp [Digit] at hc
  | minus hw h =>
    rw [List.cons_append, List.cons.injEq] at ht
    rw [ht.1] at hc; simp [Digit] at hc

theorem signed_neg {i ft et : Bytes} {s : SignedLit} (hi : RfcInt i) (h : SignedNum (0x2D :: (i ++ (ft ++ et))) s) :
    s = ⟨true, i ++ (ft ++ et)⟩ := by
  obtain ⟨h1, c, r, rfl, -⟩ := Parser.rfcInt_digits hi
  have hc := h1 c (by simp)
  generalize ht : 0x2D :: ((c :: r) ++ (ft ++ et)) = t at *
  cases h with
  | plain h =>
    obtain ⟨d, q, rfl, hd⟩ := ParserB.underNum_head h
    injection ht with h1 h2
    exact absurd h1.symm hd.facts.2.2.2.2.1
  | plus hw h =>
    injection ht with h1 h2
    exact absurd h1 (by decide)
  | @minus w p _ _ _ hw h =>
    injection ht with h1 h2
    cases w with
    | nil => rw [List.nil_append] at h2; rw [h2]
    | cons k w =>
      rw [List.cons_append, List.cons_append, List.cons.injEq] at h2
      have := hw k (by simp)
      rw [← h2.1] at this
      unfold Digit at hc
      rcases this with h | h | h | h <;> rw [h] at hc <;> exact absurd hc (by decide)

/-- The exponent of a short number that is neither tiny nor huge. -/
theorem exponent_bounds {l : Bytes} {k e : Int} (hl : ∀ c ∈ l, Digit c) (hn : l.length ≤ 15) (hk : 0 ≤ k) (hk2 : k ≤ 15)
    (h1 : 1 / 10 ^ 45 ≤ (decimal l : ℝ) * 10 ^ (e - k)) (h2 : (decimal l : ℝ) * 10 ^ (e - k) ≤ 10 ^ 45) : -306 ≤ e ∧ e ≤ 306 := by
  have hp : (0 : ℝ) < 10 ^ (e - k) := by positivity
  have m1 : decimal l < 10 ^ 15 := (B64.decimal_lt l hl).trans_le (Nat.pow_le_pow_right (by norm_num) hn)
  have m2 : 1 ≤ decimal l := by
    rcases Nat.eq_zero_or_pos (decimal l) with h | h
    · rw [h] at h1; norm_num at h1
    · exact h
  have m1' : (decimal l : ℝ) ≤ 10 ^ 15 := by exact_mod_cast m1.le
  have m2' : (1 : ℝ) ≤ decimal l := by exact_mod_cast m2
  have a1 : (10 : ℝ) ^ (e - k) ≤ 10 ^ (45 : Int) := by
    have : (1 : ℝ) * 10 ^ (e - k) ≤ decimal l * 10 ^ (e - k) := mul_le_mul_of_nonneg_right m2' hp.le
    have e45 : (10 : ℝ) ^ (45 : Int) = 10 ^ 45 := by norm_cast
    rw [e45]; linarith
  have a2 : (10 : ℝ) ^ (-60 : Int) ≤ 10 ^ (e - k) := by
    have h3 : (decimal l : ℝ) * 10 ^ (e - k) ≤ 10 ^ 15 * 10 ^ (e - k) := mul_le_mul_of_nonneg_right m1' hp.le
    have e60 : (10 : ℝ) ^ (-60 : Int) = 1 / 10 ^ 45 / 10 ^ 15 := by norm_num
    rw [e60, div_le_iff₀ (by positivity)]
    linarith
  have b1 := (zpow_le_zpow_iff_right₀ (by norm_num : (1 : ℝ) < 10)).1 a1
  have b2 := (zpow_le_zpow_iff_right₀ (by norm_num : (1 : ℝ) < 10)).1 a2
  omega

theorem ten_most : (10 : ℝ) ^ 45 ≤ 10 ^ 306 := pow_le_pow_right₀ (by norm_num) (by norm_num)
theorem ten_least : 1 / (10 : ℝ) ^ 306 ≤ 1 / 10 ^ 45 := one_div_le_one_div_of_le (by positivity) ten_most

/-- A short RFC 8259 number is read with a relative error of at most `2e-14`. -/
theorem read_near {t : Bytes} {d : Dec} (hd : RfcNum t d) (hl : t.length ≤ 15) (h1 : 1 / 10 ^ 45 ≤ |decReal d|)
    (h2 : |decReal d| ≤ 10 ^ 45) {s : SignedLit} {y : Dbl} (hs : SignedNum t s) (hy : Props.LitValue B64.arith B64.negate s y) :
    ∃ v : Rat, value y = some v ∧ |(v : ℝ) - decReal d| ≤ 2 / 10 ^ 14 * |decReal d| := by
  obtain ⟨z, z1, z2⟩ := hy
  cases hd with
  | @pos i ft fd et e hi hf he =>
    obtain rfl := signed_pos hi hs
    have hr : decReal ⟨false, decimal (i ++ fd), e - fd.length⟩ = (decimal (i ++ fd) : ℝ) * 10 ^ (e - fd.length) := by
      simp [decReal]
    have hp : 0 ≤ (decimal (i ++ fd) : ℝ) * 10 ^ (e - fd.length) := by positivity
    have hfl : fd.length ≤ ft.length := by cases hf <;> simp
    rw [hr, abs_of_nonneg hp] at h1 h2 ⊢
    have hll := hl
    simp only [List.length_append] at hll
    have hdig : ∀ c ∈ i ++ fd, Digit c := by
      intro c hc
      rcases List.mem_append.1 hc with h | h
      · exact (Parser.rfcInt_digits hi).1 c h
      · exact (Parser.rfcFrac_chars hf).2.1 c h
    obtain ⟨e1, e2⟩ := exponent_bounds (k := fd.length) hdig (by simp; omega) (by omega) (by omega) h1 h2
    obtain ⟨v, v1, v2⟩ := read_core hi hf he hl e1 e2 (.inr ⟨ten_least.trans h1, h2.trans ten_most⟩) z1
    exact ⟨v, by rw [z2]; exact v1, v2⟩
  | @neg i ft fd et e hi hf he =>
    obtain rfl := signed_neg hi hs
    have hr : decReal ⟨true, decimal (i ++ fd), e - fd.length⟩ = - ((decimal (i ++ fd) : ℝ) * 10 ^ (e - fd.length)) := by
      simp [decReal]
    have hp : 0 ≤ (decimal (i ++ fd) : ℝ) * 10 ^ (e - fd.length) := by positivity
    have hfl : fd.length ≤ ft.length := by cases hf <;> simp
    rw [hr, abs_neg, abs_of_nonneg hp] at h1 h2 ⊢
    have hll := hl
    simp only [List.length_append, List.length_cons] at hll
    have hdig : ∀ c ∈ i ++ fd, Digit c := by
      intro c hc
      rcases List.mem_append.1 hc with h | h
      · exact (Parser.rfcInt_digits hi).1 c h
      · exact (Parser.rfcFrac_chars hf).2.1 c h
    obtain ⟨e1, e2⟩ := exponent_bounds (k := fd.length) hdig (by simp; omega) (by omega) (by omega) h1 h2
    obtain ⟨v, v1, v2⟩ := read_core hi hf he (by simp only [List.length_append]; omega) e1 e2
      (.inr ⟨ten_least.trans h1, h2.trans ten_most⟩) z1
    refine ⟨-v, by rw [z2]; exact value_negate v1, ?_⟩
    push_cast
    rw [← abs_neg]
    refine le_trans (le_of_eq ?_) v2
    congr 1
    ring

/-- `0.0` is read as 0. -/
theorem read_zero {s : SignedLit} {y : Dbl} (hs : SignedNum [48, 46, 48] s) (hy : Props.LitValue B64.arith B64.negate s y) :
    value y = some 0 := by
  obtain ⟨z, z1, z2⟩ := hy
  have hf : RfcFrac [46, 48] [48] := .some (by simp) (by simp [Digit])
  obtain rfl := signed_pos (i := [48]) (ft := [46, 48]) (et := []) .zero hs
  obtain ⟨v, v1, v2⟩ := read_core (i := [48]) (ft := [46, 48]) (fd := [48]) (et := []) (e := 0) .zero hf .none (by simp) (by norm_num)
    (by norm_num) (.inl (by decide)) z1
  have : decimal ([48] ++ [48]) = 0 := by decide
  rw [this] at v2
  simp only [Nat.cast_zero, zero_mul, mul_zero, sub_zero, abs_nonpos_iff] at v2
  have v0 : v = 0 := by exact_mod_cast v2
  rw [z2, if_neg (by simp), v1, v0]

end Verif.NumTrip
