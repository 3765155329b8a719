import Verif.Lemmas.StringNum

/-!
# Numbers in strings of any length (C147)
-/

namespace Verif.Props

open Verif Verif.Text Verif.Str Verif.Texts Verif.Dyn

/-- The operations with unsigned and 64-bit arguments. -/
inductive NumberOp where
  | newU (n : Nat)
  | plusU (n : Nat)
  | setU (n : Nat)
  | appendU (n : Nat)
  | new64 (n : Int)
  | plus64 (n : Int)
  | set64 (n : Int)
  | append64 (n : Int)
  | appendU64 (n : Nat)

/-- What the operation makes of the string `s` (`newU` and `new64` ignore it, the sums leave it alone and give a new one). -/
def NumberOp.run (wrapv : Bool) (g : Nat → Byte) (s : Dyn) : NumberOp → Out Dyn
  | .newU n => newUInt wrapv n
  | .plusU n => newPlusUInt wrapv g s.data n
  | .setU n => setUInt wrapv g n s
  | .appendU n => appendUInt wrapv g n s
  | .new64 n => newInt64 wrapv g n
  | .plus64 n => newPlusInt64 wrapv g s.data n
  | .set64 n => setInt64 wrapv g n s
  | .append64 n => appendInt64 wrapv g n s
  | .appendU64 n => appendUInt64 wrapv g n s

/-- The number passed. -/
def NumberOp.number : NumberOp → Int
  | .newU n | .plusU n | .setU n | .appendU n | .appendU64 n => n
  | .new64 n | .plus64 n | .set64 n | .append64 n => n

/-- The number has the type of the parameter. -/
def NumberOp.Fits : NumberOp → Prop
  | .newU n | .plusU n | .setU n | .appendU n => n < 2 ^ 32
  | .appendU64 n => n < 2 ^ 64
  | .new64 n | .plus64 n | .set64 n | .append64 n => -(2 ^ 63) ≤ n ∧ n < 2 ^ 63

/-- The text in front of the number. -/
def NumberOp.front (a : Bytes) : NumberOp → Bytes
  | .plusU _ | .appendU _ | .plus64 _ | .append64 _ | .appendU64 _ => a
  | .newU _ | .setU _ | .new64 _ | .set64 _ => []

/-- The number of bits of the signed type through which it passes. -/
def NumberOp.bits : NumberOp → Nat
  | .newU _ | .plusU _ | .setU _ | .appendU _ => 32
  | _ => 64

/-- **C147**: constructing, assigning, adding and appending a number of one of the types `uint32`, `int64`, `uint64` gives a string
that ends in the decimal representation of this number. -/
def C147_statement (wrapv : Bool) : Prop :=
  ∀ (g : Nat → Byte) (s : Dyn) (a : Bytes) (op : NumberOp), WF s a → op.Fits →
    ∃ s' t, op.run wrapv g s = .ok s' ∧ IntText op.number t ∧ WF s' (op.front a ++ t)

/-- What holds of every operation: printed is the number reduced to the signed type. -/
theorem number_printed (wrapv : Bool) (g : Nat → Byte) (s : Dyn) (a : Bytes) (op : NumberOp) (hs : WF s a) (hf : op.Fits) (m : Int)
    (t : Bytes) (hm : m = op.number ∨ m = op.number - 2 ^ op.bits) (h1 : -(2 ^ (op.bits - 1)) < m) (h2 : m < 2 ^ (op.bits - 1))
    (ht : IntText m t) : ∃ s', op.run wrapv g s = .ok s' ∧ WF s' (op.front a ++ t) := by
  have h32 : ∀ n : Nat, n < 2 ^ 32 → (m = n ∨ m = n - 2 ^ 32) → -(2 ^ 31) < m → m < 2 ^ 31 → toSigned 32 n = m := by
    intro n h0 h h1 h2
    unfold toSigned
    split <;> omega
  have h64 : ∀ n : Nat, n < 2 ^ 64 → (m = n ∨ m = n - 2 ^ 64) → -(2 ^ 63) < m → m < 2 ^ 63 → toSigned 64 n = m := by
    intro n h0 h h1 h2
    unfold toSigned
    split <;> omega
  have hz : ∀ n : Int, -(2 ^ 63) ≤ n ∧ n < 2 ^ 63 → (m = n ∨ m = n - 2 ^ 64) → -(2 ^ 63) < m → n = m := by
    intro n h0 h h1
    omega
  cases op with
  | newU n =>
    have e := h32 n hf (by simpa [NumberOp.number, NumberOp.bits] using hm) h1 h2
    obtain ⟨s', h3, h4⟩ := newInt_wf wrapv h1 h2 ht
    refine ⟨s', ?_, h4⟩
    rw [NumberOp.run, newUInt, e]; exact h3
  | plusU n =>
    have e := h32 n hf (by simpa [NumberOp.number, NumberOp.bits] using hm) h1 h2
    obtain ⟨s', h3, h4⟩ := plus_wf wrapv g (.inl ⟨rfl, rfl⟩) h1 h2 ht hs.holds
    exact ⟨s', by rw [NumberOp.run, newPlusUInt, e]; exact h3, h4⟩
  | setU n =>
    have e := h32 n hf (by simpa [NumberOp.number, NumberOp.bits] using hm) h1 h2
    obtain ⟨s', h3, h4⟩ := set_wf wrapv g (.inl ⟨rfl, rfl⟩) h1 h2 ht hs
    exact ⟨s', by rw [NumberOp.run, setUInt, e]; exact h3, h4⟩
  | appendU n =>
    have e := h32 n hf (by simpa [NumberOp.number, NumberOp.bits] using hm) h1 h2
    obtain ⟨s', h3, h4⟩ := append_wf' wrapv g (.inl ⟨rfl, rfl⟩) h1 h2 ht hs
    exact ⟨s', by rw [NumberOp.run, appendUInt, e]; exact h3, h4⟩
  | new64 n =>
    obtain rfl := hz n hf (by simpa [NumberOp.number, NumberOp.bits] using hm) h1
    exact newInt64_wf wrapv g h1 h2 ht
  | plus64 n =>
    obtain rfl := hz n hf (by simpa [NumberOp.number, NumberOp.bits] using hm) h1
    exact plus_wf wrapv g (.inr ⟨rfl, rfl⟩) h1 h2 ht hs.holds
  | set64 n =>
    obtain rfl := hz n hf (by simpa [NumberOp.number, NumberOp.bits] using hm) h1
    exact set_wf wrapv g (.inr ⟨rfl, rfl⟩) h1 h2 ht hs
  | append64 n =>
    obtain rfl := hz n hf (by simpa [NumberOp.number, NumberOp.bits] using hm) h1
    exact append_wf' wrapv g (.inr ⟨rfl, rfl⟩) h1 h2 ht hs
  | appendU64 n =>
    have e := h64 n hf (by simpa [NumberOp.number, NumberOp.bits] using hm) h1 h2
    obtain ⟨s', h3, h4⟩ := append_wf' wrapv g (.inr ⟨rfl, rfl⟩) h1 h2 ht hs
    exact ⟨s', by rw [NumberOp.run, appendUInt64, e]; exact h3, h4⟩

/-- **C147, the part that holds**: numbers that the signed type with as many bits can represent, except its least one. Missing: large
unsigned numbers and `-2^63`, for which it fails. -/
theorem C147_numbers_partial (wrapv : Bool) (g : Nat → Byte) (s : Dyn) (a : Bytes) (op : NumberOp) (hs : WF s a) (hf : op.Fits)
    (h1 : -(2 ^ (op.bits - 1)) < op.number) (h2 : op.number < 2 ^ (op.bits - 1)) :
    ∃ s' t, op.run wrapv g s = .ok s' ∧ IntText op.number t ∧ WF s' (op.front a ++ t) := by
  obtain ⟨t, ht⟩ : ∃ t, IntText op.number t := by
    have hbits : op.bits = 32 ∨ op.bits = 64 := by cases op <;> simp [NumberOp.bits]
    rcases hbits with e | e <;> rw [e] at h1 h2
    · obtain ⟨t, ht, -⟩ := printInt_spec true 32 16 op.number 0 0 [0] h1 h2 (by decide) (by decide) (by decide)
      exact ⟨t, ht⟩
    · obtain ⟨t, ht, -⟩ := printInt_spec true 64 32 op.number 0 0 [0] h1 h2 (by decide) (by decide) (by decide)
      exact ⟨t, ht⟩
  obtain ⟨s', h3, h4⟩ := number_printed wrapv g s a op hs hf _ t (.inl rfl) h1 h2 ht
  exact ⟨s', t, h3, ht, h4⟩

/-- **C147, large unsigned numbers**: a negative number is printed, `2^32` (or `2^64`) less. -/
theorem C147_unsigned_violated (wrapv : Bool) (g : Nat → Byte) (s : Dyn) (a : Bytes) (op : NumberOp) (hs : WF s a) (hf : op.Fits)
    (h : 2 ^ (op.bits - 1) < op.number) :
    ∃ s' t, op.run wrapv g s = .ok s' ∧ IntText (op.number - 2 ^ op.bits) t ∧ WF s' (op.front a ++ t) ∧ t.head? = some 45 := by
  have hbits : op.bits = 32 ∧ op.number < 2 ^ 32 ∨ op.bits = 64 ∧ op.number < 2 ^ 64 := by
    cases op <;> simp only [NumberOp.bits, NumberOp.number, NumberOp.Fits, true_and] at * <;> omega
  obtain ⟨t, ht, h1, h2, h3⟩ : ∃ t, IntText (op.number - 2 ^ op.bits) t ∧ -(2 ^ (op.bits - 1)) < op.number - 2 ^ op.bits ∧
      op.number - 2 ^ op.bits < 2 ^ (op.bits - 1) ∧ op.number - 2 ^ op.bits < 0 := by
    rcases hbits with ⟨e, h'⟩ | ⟨e, h'⟩ <;> rw [e] at h ⊢
    · obtain ⟨t, ht, -⟩ := printInt_spec true 32 16 (op.number - 2 ^ 32) 0 0 [0] (by omega) (by omega) (by decide) (by decide)
        (by decide)
      exact ⟨t, ht, by omega, by omega, by omega⟩
    · obtain ⟨t, ht, -⟩ := printInt_spec true 64 32 (op.number - 2 ^ 64) 0 0 [0] (by omega) (by omega) (by decide) (by decide)
        (by decide)
      exact ⟨t, ht, by omega, by omega, by omega⟩
  obtain ⟨s', h4, h5⟩ := number_printed wrapv g s a op hs hf _ t (.inr rfl) h1 h2 ht
  refine ⟨s', t, h4, ht, h5, ?_⟩
  rcases ht with ⟨h, -⟩ | ⟨-, u, rfl, -⟩
  · omega
  · rfl

/-- **C147 fails**: `String<>(4294967295U)` is `-1`. -/
theorem C147_violated (wrapv : Bool) : ¬ C147_statement wrapv := by
  intro H
  have hs : WF newEmpty [] := ⟨rfl, ⟨by simp, _, rfl⟩, rfl, rfl⟩
  have hf : (NumberOp.newU 4294967295).Fits := by simp [NumberOp.Fits]
  obtain ⟨s1, t1, e1, i1, w1⟩ := H (fun _ => 0) newEmpty [] (.newU 4294967295) hs hf
  obtain ⟨s2, t2, e2, i2, w2, hd⟩ := C147_unsigned_violated wrapv (fun _ => 0) newEmpty [] (.newU 4294967295) hs hf (by decide)
  rw [e1] at e2
  cases e2
  obtain rfl : t1 = t2 := by
    have := holds_unique w1.holds w2.holds
    simpa [NumberOp.front] using this
  rcases i1 with ⟨-, h, -⟩ | ⟨h, -⟩
  · match t1, hd, h with
    | c :: u, hd, h =>
      simp only [List.head?_cons, Option.some.injEq] at hd
      subst hd
      have := h.2.1 45 (by simp)
      revert this; decide
  · revert h; decide

/-- For `2^31` the sign is lost altogether, or nothing is defined; similarly for `-2^63`. -/
theorem C147_least_violated :
    (∃ s, newUInt true 2147483648 = .ok s ∧ WF s [45, 48]) ∧ newUInt false 2147483648 = .ub ∧
    ∀ g, newInt64 false g (-2 ^ 63) = .ub := by
  have e : toSigned 32 2147483648 = -2147483648 := by decide
  refine ⟨?_, ?_, fun g => ?_⟩
  · have h : integerToString true (-2147483648) 0 15 loc0 = .ok (45 :: 48 :: 0 :: loc0.drop 3, 2) := by decide +kernel
    rw [newUInt, e, h]
    exact ⟨_, rfl, rfl, ⟨by decide, _, rfl⟩, rfl, rfl⟩
  · have h : integerToString false (-2147483648) 0 15 loc0 = .ub := by decide +kernel
    rw [newUInt, e, h]; rfl
  · have h : absMasked false 64 (-2 ^ 63) = .ub := by decide +kernel
    rw [newInt64, integer64ToString, printInt, h]; rfl

/-- Appending 12345678901 to "a". -/
example : (newText (fun _ => 9) [97, 0] >>= fun s => (NumberOp.append64 12345678901).run false (fun _ => 9) s >>= fun s' =>
    .ok (s'.data.take 13, s'.logical)) = .ok (ascii "a12345678901" ++ [0], 13) := by decide +kernel
example : (newUInt false 4294967295 >>= fun s => .ok (s.data.take 3)) = .ok [45, 49, 0] := by decide +kernel

end Verif.Props
