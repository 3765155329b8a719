import Verif.Lemmas.Ieee32
import Verif.Lemmas.Floor
import Verif.Model.Simd

/-!
# Words and floats
-/

namespace Verif.Simd

open Verif Verif.B32 Verif.MathFns Verif.Spec.F32
open Verif.B64 (rne rne_near)

/-- Rounding gives a float. -/
theorem round_valid (s : Bool) {num den : Nat} (hd : 0 < den) : Valid (B32.round s num den) := by
  obtain ⟨r1, r2⟩ := round_range (num := num) hd
  unfold B32.round
  generalize (num / den).log2 - 23 = k at *
  have hu : 0 < den * 2 ^ k := Nat.mul_pos hd (Nat.two_pow_pos k)
  obtain ⟨h1, h2⟩ := rne_near (n := num) hu
  generalize hR : rne num (den * 2 ^ k) = R at *
  have hR1 : R ≤ 2 ^ 24 := by
    have : R * (den * 2 ^ k) < (2 ^ 24 + 1) * (den * 2 ^ k) := by rw [Nat.add_mul, Nat.one_mul]; omega
    have := Nat.lt_of_mul_lt_mul_right this
    omega
  have hR2 : k = 0 ∨ 2 ^ 23 ≤ R := by
    rcases r2 with h | h
    · exact .inl h
    · right
      have : 2 ^ 23 * (den * 2 ^ k) < (R + 1) * (den * 2 ^ k) := by rw [Nat.add_mul, Nat.one_mul]; omega
      have := Nat.lt_of_mul_lt_mul_right this
      omega
  unfold pack
  split
  · split
    · next h => exact .inl ⟨_, _, _, rfl, by decide, h, .inr (by decide)⟩
    · exact .inr (.inl ⟨_, rfl⟩)
  · next h =>
    split
    · next h' => exact .inl ⟨_, _, _, rfl, by omega, h', hR2⟩
    · exact .inr (.inl ⟨_, rfl⟩)

theorem zero_valid (s : Bool) : Valid (.fin s 0 0) := .inl ⟨_, _, _, rfl, by decide, by decide, .inl rfl⟩

theorem inf_valid (s : Bool) : Valid (.inf s) := .inr (.inl ⟨_, rfl⟩)

theorem nan_valid : Valid .nan := .inr (.inr rfl)

theorem add_valid (x y : Flt) : Valid (add x y) := by
  cases x <;> cases y <;> simp only [add] <;> repeat' split
  all_goals first | exact nan_valid | exact inf_valid _ | exact zero_valid _ | exact round_valid _ Nat.one_pos

theorem sub_valid (x y : Flt) : Valid (sub x y) := add_valid _ _

theorem mul_valid (x y : Flt) : Valid (mul x y) := by
  cases x <;> cases y <;> simp only [mul] <;> repeat' split
  all_goals first | exact nan_valid | exact inf_valid _ | exact round_valid _ (Nat.two_pow_pos _)

theorem div_valid (x y : Flt) : Valid (div x y) := by
  cases x <;> cases y <;> simp only [div] <;> repeat' split
  all_goals first
    | exact nan_valid
    | exact inf_valid _
    | exact zero_valid _
    | (next h => exact round_valid _ (Nat.mul_pos (Nat.pos_of_ne_zero h) (Nat.two_pow_pos _)))

/-- The float of a word made from a float. -/
theorem fl_wd {x : Flt} (h : Valid x) : fl (wd x) = x := by
  obtain ⟨h1, h2⟩ := ofBits_toBits h
  unfold fl wd
  rw [BitVec.toNat_ofNat, Nat.mod_eq_of_lt h1, h2]

theorem fl_valid (w : Word) : Valid (fl w) := (toBits_ofBits w.isLt).1

/-- The word of a float that is not NaN. -/
theorem wd_fl {w : Word} (h : fl w ≠ .nan) : wd (fl w) = w := by
  unfold wd
  rw [fl, (toBits_ofBits w.isLt).2 h, BitVec.ofNat_toNat, BitVec.setWidth_eq]

@[simp] theorem fl_addW (a b : Word) : fl (addW a b) = add (fl a) (fl b) := fl_wd (add_valid _ _)
@[simp] theorem fl_subW (a b : Word) : fl (subW a b) = sub (fl a) (fl b) := fl_wd (sub_valid _ _)
@[simp] theorem fl_mulW (a b : Word) : fl (mulW a b) = mul (fl a) (fl b) := fl_wd (mul_valid _ _)
@[simp] theorem fl_divW (a b : Word) : fl (divW a b) = div (fl a) (fl b) := fl_wd (div_valid _ _)

@[simp] theorem fl_minW (a b : Word) : fl (minW a b) = fmin (fl a) (fl b) := by unfold minW fmin; split <;> rfl
@[simp] theorem fl_maxW (a b : Word) : fl (maxW a b) = fmax (fl a) (fl b) := by unfold maxW fmax; split <;> rfl

theorem fl_zero : fl 0 = zero := by decide
theorem fl_one : fl 0x3F800000 = one := by decide
theorem fl_two23 : fl 0x4B000000 = two23 := by decide

/-- A constant under a mask. -/
theorem and_ltW (c a b : Word) : andW c (ltW a b) = if lt (fl a) (fl b) then c else 0 := by
  unfold andW ltW
  split
  · rw [BitVec.and_allOnes]
  · exact BitVec.and_zero

theorem fl_and_ltW (a b : Word) : fl (andW 0x3F800000 (ltW a b)) = if lt (fl a) (fl b) then one else zero := by
  rw [and_ltW]
  split
  · exact fl_one
  · exact fl_zero

/-- What a mask selects. -/
theorem select_mask (p : Bool) (a b : Word) :
    orW (andnotW (if p then BitVec.allOnes 32 else 0) a) (andW (if p then BitVec.allOnes 32 else 0) b) = if p then b else a := by
  cases p
  · unfold orW andnotW andW; simp; rw [show 4294967295#32 = BitVec.allOnes 32 by decide, BitVec.allOnes_and]
  · unfold orW andnotW andW; simp; rw [show 4294967295#32 = BitVec.allOnes 32 by decide, BitVec.allOnes_and]

/-- Clearing the sign bit. -/
theorem fl_clear (w : Word) : fl (andnotW 0x80000000 w) = fabs (fl w) := by
  have e : (andnotW 0x80000000 w).toNat = w.toNat % 2 ^ 31 := by
    unfold andnotW
    have : (~~~(0x80000000 : Word)) = 0x7FFFFFFF := by decide
    rw [this, BitVec.toNat_and, show (0x7FFFFFFF : Word).toNat = 2 ^ 31 - 1 by decide, Nat.and_comm, Nat.and_two_pow_sub_one_eq_mod]
  unfold fl
  rw [e]
  have hlt := w.isLt
  generalize w.toNat = n at *
  unfold ofBits
  have h1 : n % 2 ^ 31 / 2 ^ 23 % 256 = n / 2 ^ 23 % 256 := by omega
  have h2 : n % 2 ^ 31 % 2 ^ 23 = n % 2 ^ 23 := by omega
  have h3 : decide (2 ^ 31 ≤ n % 2 ^ 31 % 2 ^ 32) = false := by simp; omega
  simp only [h1, h2, h3]
  repeat' split
  all_goals rfl

end Verif.Simd
