import Verif.Model.SimdInt
import Verif.Lemmas.Simd
import Verif.Lemmas.RoundNearest
import Verif.Props.MathConst

/-!
# Properties of the vectors of integers (C129, C130)
-/

namespace Verif.Props

open Verif Verif.B32 Verif.Spec.F32 Verif.Simd Verif.SimdInt

/-! ## Registers and words -/

theorem append_low {n m : Nat} (a : BitVec n) (b : BitVec m) : (a ++ b).extractLsb' 0 m = b := by
  apply BitVec.eq_of_getLsbD_eq
  intro i hi
  rw [BitVec.getLsbD_extractLsb', BitVec.getLsbD_append]
  simp [hi]

theorem append_high {n m : Nat} (a : BitVec n) (b : BitVec m) : (a ++ b).extractLsb' m n = a := by
  apply BitVec.eq_of_getLsbD_eq
  intro i hi
  rw [BitVec.getLsbD_extractLsb', BitVec.getLsbD_append]
  simp [hi]

theorem append_parts {n m : Nat} (x : BitVec (n + m)) : x.extractLsb' m n ++ x.extractLsb' 0 m = x := by
  apply BitVec.eq_of_getLsbD_eq
  intro i hi
  rw [BitVec.getLsbD_append]
  split
  · next h => simp [BitVec.getLsbD_extractLsb', h]
  · next h =>
    rw [BitVec.getLsbD_extractLsb']
    simp [show i - m < n by omega, show m + (i - m) = i by omega]

@[simp] theorem h16_of16 (f : Fin 8 → BitVec 16) (i : Fin 8) : h16 (of16 f) i = f i := by
  unfold h16 of16
  dsimp only
  rw [if_neg (by omega), if_pos (by omega)]
  have e1 : (⟨(2 * i.val + 1) / 2, by omega⟩ : Fin 8) = i := Fin.ext (by dsimp only; omega)
  have e2 : (⟨2 * i.val / 2, by omega⟩ : Fin 8) = i := Fin.ext (by dsimp only; omega)
  rw [e1, e2]
  exact append_parts (n := 8) (m := 8) (f i)

@[simp] theorem w32_of32 (f : Fin 4 → BitVec 32) (i : Fin 4) : w32 (of32 f) i = f i := by
  unfold w32 of32
  rw [h16_of16, h16_of16]
  dsimp only
  rw [if_neg (by omega), if_pos (by omega)]
  have e1 : (⟨(2 * i.val + 1) / 2, by omega⟩ : Fin 4) = i := Fin.ext (by dsimp only; omega)
  have e2 : (⟨2 * i.val / 2, by omega⟩ : Fin 4) = i := Fin.ext (by dsimp only; omega)
  rw [e1, e2]
  exact append_parts (n := 16) (m := 16) (f i)

theorem w32_of16 (f : Fin 8 → BitVec 16) (i : Fin 4) :
    w32 (of16 f) i = f ⟨2 * i.val + 1, by omega⟩ ++ f ⟨2 * i.val, by omega⟩ := by
  unfold w32
  rw [h16_of16, h16_of16]

/-- The words determine the register. -/
theorem of16_h16 (v : Reg) : of16 (h16 v) = v := by
  funext i
  unfold of16 h16
  dsimp only
  split
  · rw [append_low]
    congr 1
    exact Fin.ext (by dsimp only; omega)
  · rw [append_high]
    congr 1
    exact Fin.ext (by dsimp only; omega)

/-! ## C129 -/

theorem sign8 (x : BitVec 8) : ((if x.slt 0 then 0xFF else 0 : BitVec 8) ++ x).toInt = x.toInt := by
  revert x; decide +kernel

theorem sign16 (x : BitVec 16) : ((if x.slt 0 then 0xFFFF else 0 : BitVec 16) ++ x).toInt = x.toInt := by
  have k : (if x.slt 0 then 0xFFFF else 0 : BitVec 16) ++ x = x.signExtend 32 := by
    apply BitVec.eq_of_getLsbD_eq
    intro i hi
    rw [BitVec.getLsbD_append, BitVec.getLsbD_signExtend]
    by_cases h : i < 16
    · simp [h, hi]
    · have e : x.slt 0 = x.msb := by simp [BitVec.slt_zero_eq_msb]
      rw [e]
      simp only [h, hi, decide_false, decide_true, Bool.true_and, if_false, cond_false]
      have : i - 16 < 16 := by omega
      cases x.msb
      · simp
      · simp only [if_true]
        revert this
        generalize i - 16 = j
        revert j
        decide
  rw [k, BitVec.toInt_signExtend_of_le (by decide)]

/-- **C129** for unpacking: the integers of the result are those of one half of the argument, in the same order. -/
theorem C129_unpack (v : Reg) :
    (∀ i : Fin 8, (h16 (vecInt8UnpackA v) i).toInt = (v ⟨i.val, by omega⟩).toInt) ∧
    (∀ i : Fin 8, (h16 (vecInt8UnpackB v) i).toInt = (v ⟨8 + i.val, by omega⟩).toInt) ∧
    (∀ i : Fin 8, (h16 (vecUInt8UnpackA v) i).toNat = (v ⟨i.val, by omega⟩).toNat) ∧
    (∀ i : Fin 8, (h16 (vecUInt8UnpackB v) i).toNat = (v ⟨8 + i.val, by omega⟩).toNat) ∧
    (∀ i : Fin 4, (w32 (vecInt16UnpackA v) i).toInt = (h16 v ⟨i.val, by omega⟩).toInt) ∧
    (∀ i : Fin 4, (w32 (vecInt16UnpackB v) i).toInt = (h16 v ⟨4 + i.val, by omega⟩).toInt) ∧
    (∀ i : Fin 4, (w32 (vecUInt16UnpackA v) i).toNat = (h16 v ⟨i.val, by omega⟩).toNat) ∧
    (∀ i : Fin 4, (w32 (vecUInt16UnpackB v) i).toNat = (h16 v ⟨4 + i.val, by omega⟩).toNat) := by
  have z : ∀ {n m : Nat} (x : BitVec m), ((0 : BitVec n) ++ x).toNat = x.toNat := by
    intro n m x
    rw [BitVec.toNat_append]
    simp
  have o1 : ∀ i : Nat, (2 * i + 1) % 2 ≠ 0 := by omega
  have o2 : ∀ i : Nat, 2 * i % 2 = 0 := by omega
  have o3 : ∀ i : Nat, (2 * i + 1) / 2 = i := by omega
  have o4 : ∀ i : Nat, 2 * i / 2 = i := by omega
  have hz : ∀ i, h16 setzero i = 0 := by decide
  refine ⟨fun i => ?_, fun i => ?_, fun i => ?_, fun i => ?_, fun i => ?_, fun i => ?_, fun i => ?_, fun i => ?_⟩
  · simp only [vecInt8UnpackA, h16, unpacklo8, cmplt8, setzero, o2, o3, o4, if_neg (o1 _), if_true]
    exact sign8 _
  · simp only [vecInt8UnpackB, h16, unpackhi8, cmplt8, setzero, o2, o3, o4, if_neg (o1 _), if_true]
    exact sign8 _
  · simp only [vecUInt8UnpackA, h16, unpacklo8, setzero, o2, o3, o4, if_neg (o1 _), if_true]
    exact z _
  · simp only [vecUInt8UnpackB, h16, unpackhi8, setzero, o2, o3, o4, if_neg (o1 _), if_true]
    exact z _
  · simp only [vecInt16UnpackA, unpacklo16, w32_of16, cmplt16, h16_of16, hz, o2, o3, o4, if_neg (o1 _), if_true]
    exact sign16 _
  · simp only [vecInt16UnpackB, unpackhi16, w32_of16, cmplt16, h16_of16, hz, o2, o3, o4, if_neg (o1 _), if_true]
    exact sign16 _
  · simp only [vecUInt16UnpackA, unpacklo16, w32_of16, hz, o2, o3, o4, if_neg (o1 _), if_true]
    exact z _
  · simp only [vecUInt16UnpackB, unpackhi16, w32_of16, hz, o2, o3, o4, if_neg (o1 _), if_true]
    exact z _

/-- The number in an interval nearest to `n`. -/
def clampInt (lo hi n : Int) : Int := max lo (min hi n)

theorem low_toInt {n m : Nat} (x : BitVec n) (h : m ≤ n) (hm : 0 < m) (h1 : -2 ^ (m - 1) ≤ x.toInt) (h2 : x.toInt < 2 ^ (m - 1)) :
    (x.extractLsb' 0 m).toInt = x.toInt := by
  have e : x.extractLsb' 0 m = BitVec.ofInt m x.toInt := by
    apply BitVec.eq_of_toNat_eq
    rw [BitVec.extractLsb'_toNat, Nat.shiftRight_zero, BitVec.toNat_ofInt, BitVec.toInt_eq_toNat_bmod]
    have d : ((2 ^ m : Nat) : Int) ∣ ((2 ^ n : Nat) : Int) := by exact_mod_cast Nat.pow_dvd_pow 2 h
    have : (((x.toNat : Int).bmod (2 ^ n)) % ((2 ^ m : Nat) : Int)) = (x.toNat : Int) % ((2 ^ m : Nat) : Int) := by
      have k := Int.bmod_emod (x := (x.toNat : Int)) (m := 2 ^ n)
      rw [← Int.emod_emod_of_dvd _ d, k, Int.emod_emod_of_dvd _ d]
    rw [this, ← Int.natCast_emod, Int.toNat_natCast]
  rw [e, BitVec.toInt_ofInt]
  have p : (2 : Int) ^ m = 2 * 2 ^ (m - 1) := by rw [← Int.pow_succ']; congr 1; omega
  refine Int.bmod_eq_of_le ?_ ?_ <;> push_cast <;> rw [p] <;> omega

theorem sat16_spec (x : BitVec 32) : (sat16 x).toInt = clampInt (-32768) 32767 x.toInt := by
  unfold sat16 clampInt
  split
  · rw [show (0x8000 : BitVec 16).toInt = -32768 by decide]; omega
  · split
    · rw [show (0x7FFF : BitVec 16).toInt = 32767 by decide]; omega
    · rw [low_toInt x (by decide) (by decide) (by norm_num; omega) (by norm_num; omega)]; omega

theorem sat8_spec (x : BitVec 16) : (sat8 x).toInt = clampInt (-128) 127 x.toInt := by
  unfold sat8 clampInt
  split
  · rw [show (0x80 : BitVec 8).toInt = -128 by decide]; omega
  · split
    · rw [show (0x7F : BitVec 8).toInt = 127 by decide]; omega
    · rw [low_toInt x (by decide) (by decide) (by norm_num; omega) (by norm_num; omega)]; omega

theorem satu8_spec (x : BitVec 16) : ((satu8 x).toNat : Int) = clampInt 0 255 x.toInt := by
  unfold satu8 clampInt
  split
  · rw [show (0 : BitVec 8).toNat = 0 by decide]; omega
  · split
    · rw [show (0xFF : BitVec 8).toNat = 255 by decide]; omega
    · rw [BitVec.extractLsb'_toNat, Nat.shiftRight_zero]
      have := BitVec.toInt_eq_toNat_cond x
      have := x.isLt
      split at * <;> omega

/-- **C129** for packing: every integer of the result is the number in the range of its type that is nearest to an integer of the argument. -/
theorem C129_pack (a b : Reg) :
    (∀ i : Fin 4, (h16 (vecInt32PackSaturate2 a b) ⟨i.val, by omega⟩).toInt = clampInt (-32768) 32767 (w32 a i).toInt) ∧
    (∀ i : Fin 4, (h16 (vecInt32PackSaturate2 a b) ⟨4 + i.val, by omega⟩).toInt = clampInt (-32768) 32767 (w32 b i).toInt) ∧
    vecInt32PackSaturate a = vecInt32PackSaturate2 a a ∧
    (∀ i : Fin 16, (vecInt16PackSaturate a i).toInt = clampInt (-128) 127 (h16 a ⟨i.val % 8, by omega⟩).toInt) ∧
    (∀ i : Fin 16, ((vecInt16PackUnsignedSaturate a i).toNat : Int) = clampInt 0 255 (h16 a ⟨i.val % 8, by omega⟩).toInt) := by
  refine ⟨fun i => ?_, fun i => ?_, rfl, fun i => ?_, fun i => ?_⟩
  · unfold vecInt32PackSaturate2 packs32
    rw [h16_of16, dif_pos i.isLt]
    exact sat16_spec _
  · unfold vecInt32PackSaturate2 packs32
    rw [h16_of16, dif_neg (by dsimp only; omega)]
    have : (⟨4 + i.val - 4, by omega⟩ : Fin 4) = i := Fin.ext (by dsimp only; omega)
    dsimp only
    rw [this]
    exact sat16_spec _
  · unfold vecInt16PackSaturate packs16
    split
    · next h =>
      have : (⟨i.val % 8, by omega⟩ : Fin 8) = ⟨i.val, h⟩ := Fin.ext (by dsimp only; omega)
      rw [this]; exact sat8_spec _
    · next h =>
      have : (⟨i.val % 8, by omega⟩ : Fin 8) = ⟨i.val - 8, by omega⟩ := Fin.ext (by dsimp only; omega)
      rw [this]; exact sat8_spec _
  · unfold vecInt16PackUnsignedSaturate packus16
    split
    · next h =>
      have : (⟨i.val % 8, by omega⟩ : Fin 8) = ⟨i.val, h⟩ := Fin.ext (by dsimp only; omega)
      rw [this]; exact satu8_spec _
    · next h =>
      have : (⟨i.val % 8, by omega⟩ : Fin 8) = ⟨i.val - 8, by omega⟩ := Fin.ext (by dsimp only; omega)
      rw [this]; exact satu8_spec _

/-- **C129**: packing what was unpacked gives the vector back. -/
theorem C129_round_trip (v : Reg) : vecInt32PackSaturate2 (vecInt16UnpackA v) (vecInt16UnpackB v) = v := by
  obtain ⟨-, -, -, -, u1, u2, -⟩ := C129_unpack v
  obtain ⟨p1, p2, -⟩ := C129_pack (vecInt16UnpackA v) (vecInt16UnpackB v)
  rw [← of16_h16 (vecInt32PackSaturate2 _ _)]
  conv_rhs => rw [← of16_h16 v]
  congr 1
  funext i
  have r : ∀ x : BitVec 16, clampInt (-32768) 32767 x.toInt = x.toInt := by
    intro x
    have h1 := BitVec.le_toInt x
    have h2 := BitVec.toInt_lt (x := x)
    norm_num at h1 h2
    unfold clampInt
    omega
  apply BitVec.eq_of_toInt_eq
  by_cases h : i.val < 4
  · have := p1 ⟨i.val, h⟩
    rw [u1, r] at this
    exact this
  · have := p2 ⟨i.val - 4, by omega⟩
    rw [u2, r] at this
    have e : (⟨4 + (i.val - 4), by omega⟩ : Fin 8) = i := Fin.ext (by dsimp only; omega)
    dsimp only at this
    rwa [e] at this

/-- **C129** for the order of the elements: merging alternates the bytes of two vectors; deinterleaving puts the words of even number before the
others. -/
theorem C129_order (a b : Reg) :
    (∀ i : Fin 8, vecInt8MergeA a b ⟨2 * i.val, by omega⟩ = a ⟨i.val, by omega⟩ ∧ vecInt8MergeA a b ⟨2 * i.val + 1, by omega⟩ = b ⟨i.val, by omega⟩) ∧
    (∀ i : Fin 8, vecInt8MergeB a b ⟨2 * i.val, by omega⟩ = a ⟨8 + i.val, by omega⟩ ∧
      vecInt8MergeB a b ⟨2 * i.val + 1, by omega⟩ = b ⟨8 + i.val, by omega⟩) ∧
    (∀ i : Fin 4, h16 (vecInt16Deinterleave a) ⟨i.val, by omega⟩ = h16 a ⟨2 * i.val, by omega⟩ ∧
      h16 (vecInt16Deinterleave a) ⟨4 + i.val, by omega⟩ = h16 a ⟨2 * i.val + 1, by omega⟩) := by
  have o1 : ∀ i : Nat, (2 * i + 1) % 2 ≠ 0 := by omega
  have o2 : ∀ i : Nat, 2 * i % 2 = 0 := by omega
  have o3 : ∀ i : Nat, (2 * i + 1) / 2 = i := by omega
  have o4 : ∀ i : Nat, 2 * i / 2 = i := by omega
  refine ⟨fun i => ⟨?_, ?_⟩, fun i => ⟨?_, ?_⟩, fun i => ?_⟩
  · simp only [vecInt8MergeA, unpacklo8, o2, o4, if_true]
  · simp only [vecInt8MergeA, unpacklo8, o3, if_neg (o1 _)]
  · simp only [vecInt8MergeB, unpackhi8, o2, o4, if_true]
  · simp only [vecInt8MergeB, unpackhi8, o3, if_neg (o1 _)]
  · match i with
    | 0 | 1 | 2 | 3 =>
      constructor
      all_goals
        simp only [vecInt16Deinterleave, shuffle32, of32, h16_of16]
        simp (decide := true) only [select, w32, append_low, append_high, shufflehi16, shufflelo16, h16_of16, if_true, if_false, dite_true, dite_false]
        rfl

/-- **C129** for arithmetic: sums and differences of integers, modulo `2^32`. -/
theorem C129_arithmetic (a b : Reg) (i : Fin 4) :
    w32 (vecInt32Add a b) i = w32 a i + w32 b i ∧ w32 (vecInt32Sub a b) i = w32 a i - w32 b i ∧
    (-2 ^ 31 ≤ (w32 a i).toInt + (w32 b i).toInt → (w32 a i).toInt + (w32 b i).toInt < 2 ^ 31 →
      (w32 (vecInt32Add a b) i).toInt = (w32 a i).toInt + (w32 b i).toInt) ∧
    (-2 ^ 31 ≤ (w32 a i).toInt - (w32 b i).toInt → (w32 a i).toInt - (w32 b i).toInt < 2 ^ 31 →
      (w32 (vecInt32Sub a b) i).toInt = (w32 a i).toInt - (w32 b i).toInt) := by
  have e1 : w32 (vecInt32Add a b) i = w32 a i + w32 b i := w32_of32 _ _
  have e2 : w32 (vecInt32Sub a b) i = w32 a i - w32 b i := w32_of32 _ _
  refine ⟨e1, e2, fun h1 h2 => ?_, fun h1 h2 => ?_⟩
  · rw [e1, BitVec.toInt_add]
    exact Int.bmod_eq_of_le (by norm_num at *; omega) (by norm_num at *; omega)
  · rw [e2, BitVec.toInt_sub]
    exact Int.bmod_eq_of_le (by norm_num at *; omega) (by norm_num at *; omega)

/-- **C129** for storing, and the constants. -/
theorem C129_store (v : Reg) :
    vecInt32StoreX v = w32 v 0 ∧ vecInt32StoreY v = w32 v 1 ∧ vecInt32StoreZ v = w32 v 2 ∧ vecInt32StoreW v = w32 v 3 ∧
    (∀ i, (vecInt8GetInfinity i).toInt = -128) ∧ (∀ i, vecInt8GetZero i = 0) ∧ (∀ i, h16 vecInt16GetZero i = 0) ∧
    (∀ i, w32 vecInt32GetZero i = 0) :=
  ⟨rfl, w32_of32 _ _, w32_of32 _ _, w32_of32 _ _, by decide, by decide, by decide, by decide⟩

/-- **C129** for loading: defined exactly inside the block and, except for the functions ending in `Unaligned`, at multiples of 16. -/
theorem C129_load (m : Block8) (i : Nat) :
    (i + 16 ≤ m.data.length → ∃ v, vecInt8LoadUnaligned m i = .ok v ∧ ∀ k : Fin 16, m.data[i + k.val]? = some (v k)) ∧
    (¬ i + 16 ≤ m.data.length → vecInt8LoadUnaligned m i = .ub) ∧
    ((m.addr + i) % 16 = 0 → vecInt8Load m i = vecInt8LoadUnaligned m i) ∧ ((m.addr + i) % 16 ≠ 0 → vecInt8Load m i = .ub) ∧
    vecInt16Load m i = vecInt8Load m (2 * i) ∧ vecInt16LoadUnaligned m i = vecInt8LoadUnaligned m (2 * i) := by
  refine ⟨fun h => ⟨_, if_pos h, fun k => ?_⟩, fun h => if_neg h, fun h => if_pos h, fun h => if_neg h, rfl, rfl⟩
  rw [List.getElem?_eq_getElem (by omega)]
  rfl

/-- The bytes 0, 17, 34 and so on, of which the last eight are negative. -/
def stripes : Reg := fun i => BitVec.ofNat 8 (17 * i.val)

example : h16 (vecInt8UnpackB stripes) 7 = 0xFFFF ∧ h16 (vecUInt8UnpackB stripes) 7 = 0x00FF ∧ w32 (vecInt16UnpackB stripes) 3 = 0xFFFFFFEE ∧
    h16 (vecInt32PackSaturate stripes) 0 = 0x7FFF ∧ vecInt16PackSaturate stripes 7 = 0xEE ∧ vecInt16PackUnsignedSaturate stripes 7 = 0 ∧
    h16 (vecInt16Deinterleave stripes) 1 = 0x5544 ∧ vecInt8MergeA stripes vecInt8GetInfinity 3 = 0x80 := by decide +kernel

/-! ## C130 -/

/-- `n` is the integer nearest to `r`, in a tie the even one. -/
def NearestInt (n : Int) (r : ℝ) : Prop := |(n : ℝ) - r| ≤ 1 / 2 ∧ (|(n : ℝ) - r| = 1 / 2 → n % 2 = 0)

/-- **C130**: `VecInt32ConvertFloat` gives the nearest floats, and `VecConvertInt32` the nearest integers, compiled for SSE and for NEON. -/
def C130_statement : Prop :=
  (∀ (v : Reg) (i : Fin 4), NearestReal (fl (vecInt32ConvertFloat v i)) ((w32 v i).toInt : ℝ)) ∧
  ∀ (v : Vec) (i : Fin 4), Spec.F32.Finite (fl (v i)) → -2 ^ 31 ≤ real (fl (v i)) → real (fl (v i)) ≤ 2 ^ 31 - 1 →
    NearestInt (w32 (vecConvertInt32 v) i).toInt (real (fl (v i))) ∧ NearestInt (w32 (vecConvertInt32Neon v) i).toInt (real (fl (v i)))

theorem ofInt_valid (n : Int) : Valid (ofInt n) := round_valid _ Nat.one_pos

/-- C130 for the conversion to floats. -/
theorem C130_float (v : Reg) (i : Fin 4) : NearestReal (fl (vecInt32ConvertFloat v i)) ((w32 v i).toInt : ℝ) := by
  unfold vecInt32ConvertFloat cvtW
  rw [fl_wd (ofInt_valid _)]
  refine ofInt_closest ?_
  have h1 := BitVec.le_toInt (w32 v i)
  have h2 := BitVec.toInt_lt (x := w32 v i)
  norm_num at h1 h2
  refine Nat.le_trans (by omega : _ ≤ 2 ^ 32) (by decide)

theorem rne_even {n d : Nat} (hd : 0 < d) (h : 2 * (B64.rne n d * d) = 2 * n + d ∨ 2 * n = 2 * (B64.rne n d * d) + d) : B64.rne n d % 2 = 0 := by
  have e := Nat.div_add_mod n d
  have hr := Nat.mod_lt n hd
  unfold B64.rne at *
  rw [Nat.mul_comm] at e
  have s : (n / d + 1) * d = n / d * d + d := by rw [Nat.add_mul, Nat.one_mul]
  split
  · next h1 => rw [if_pos h1] at h; omega
  · next h1 =>
    rw [if_neg h1] at h
    split
    · next h2 => rw [if_pos h2, s] at h; omega
    · next h2 =>
      split
      · next h3 => exact h3
      · omega

/-- The integer nearest to a finite float. -/
theorem rne_float (s : Bool) (m q : Nat) :
    NearestInt (if s then -(B64.rne (m * 2 ^ q) (2 ^ 149) : Int) else (B64.rne (m * 2 ^ q) (2 ^ 149) : Int)) (real (.fin s m q)) := by
  have hd : 0 < 2 ^ 149 := Nat.two_pow_pos _
  obtain ⟨h1, h2⟩ := B64.rne_near (n := m * 2 ^ q) hd
  have h3 := rne_even (n := m * 2 ^ q) hd
  rw [real_fin]
  generalize B64.rne (m * 2 ^ q) (2 ^ 149) = R at *
  generalize m * 2 ^ q = N at *
  have g1 : 2 * ((R : ℝ) * 2 ^ 149) ≤ 2 * N + 2 ^ 149 := by exact_mod_cast h2
  have g2 : 2 * (N : ℝ) ≤ 2 * (R * 2 ^ 149) + 2 ^ 149 := by exact_mod_cast h1
  have k : |(R : ℝ) - N / 2 ^ 149| ≤ 1 / 2 ∧ (|(R : ℝ) - N / 2 ^ 149| = 1 / 2 → R % 2 = 0) := by
    constructor
    · rw [abs_le]
      constructor
      · have : (N : ℝ) / 2 ^ 149 ≤ R + 1 / 2 := by rw [div_le_iff₀ (by positivity)]; linarith
        linarith
      · have : (R : ℝ) - 1 / 2 ≤ N / 2 ^ 149 := by rw [le_div_iff₀ (by positivity)]; linarith
        linarith
    · intro h
      apply h3
      rw [abs_eq (by norm_num)] at h
      rcases h with h | h
      · left
        have : (N : ℝ) = (R - 1 / 2) * 2 ^ 149 := by rw [show (R : ℝ) - 1 / 2 = N / 2 ^ 149 by linarith]; field_simp
        have : 2 * ((R : ℝ) * 2 ^ 149) = 2 * N + 2 ^ 149 := by linarith
        exact_mod_cast this
      · right
        have : (N : ℝ) = (R + 1 / 2) * 2 ^ 149 := by rw [show (R : ℝ) + 1 / 2 = N / 2 ^ 149 by linarith]; field_simp
        have : 2 * (N : ℝ) = 2 * (R * 2 ^ 149) + 2 ^ 149 := by linarith
        exact_mod_cast this
  cases s
  · unfold NearestInt
    simp only [Bool.false_eq_true, if_false, one_mul, Int.cast_natCast]
    exact ⟨k.1, fun h => by have := k.2 h; omega⟩
  · unfold NearestInt
    simp only [if_true, neg_one_mul, Int.cast_neg, Int.cast_natCast]
    rw [show -(R : ℝ) - -((N : ℝ) / 2 ^ 149) = -(R - N / 2 ^ 149) by ring, abs_neg]
    exact ⟨k.1, fun h => by have := k.2 h; omega⟩

theorem toInt_fits {n : Int} (h1 : -2147483648 ≤ n) (h2 : n ≤ 2147483647) : (BitVec.ofInt 32 n).toInt = n := by
  rw [BitVec.toInt_ofInt]
  exact Int.bmod_eq_of_le (by norm_num; omega) (by norm_num; omega)

/-- C130 for the conversion to integers with SSE; numbers that are too large or too small, infinities and NaN give the least integer. -/
theorem C130_int_partial (v : Vec) (i : Fin 4) :
    (Spec.F32.Finite (fl (v i)) → -2 ^ 31 ≤ real (fl (v i)) → real (fl (v i)) ≤ 2 ^ 31 - 1 →
      NearestInt (w32 (vecConvertInt32 v) i).toInt (real (fl (v i)))) ∧
    ((Spec.F32.Finite (fl (v i)) → 2 ^ 31 ≤ real (fl (v i)) ∨ real (fl (v i)) ≤ -2 ^ 31 - 1) → w32 (vecConvertInt32 v) i = 0x80000000) := by
  unfold vecConvertInt32
  rw [w32_of32]
  constructor
  · rintro ⟨s, m, q, e, -⟩ h1 h2
    have n := rne_float s m q
    unfold cvtnW
    rw [e] at *
    dsimp only
    generalize hN : (if s then -(B64.rne (m * 2 ^ q) (2 ^ 149) : Int) else (B64.rne (m * 2 ^ q) (2 ^ 149) : Int)) = N at *
    have n1 := abs_le.1 n.1
    have b1 : (-2147483648 : Int) ≤ N := by
      by_contra hc
      have : N ≤ -2147483649 := by omega
      have : (N : ℝ) ≤ -2147483649 := by exact_mod_cast this
      norm_num at h1
      linarith
    have b2 : N ≤ 2147483647 := by
      by_contra hc
      have : (2147483648 : Int) ≤ N := by omega
      have : (2147483648 : ℝ) ≤ N := by exact_mod_cast this
      norm_num at h2
      linarith
    rw [if_pos ⟨b1, b2⟩, toInt_fits b1 b2]
    exact n
  · intro h
    unfold cvtnW
    rcases fl_valid (v i) with ⟨s, m, q, e, hc⟩ | ⟨s, e⟩ | e
    · have h := h ⟨s, m, q, e, hc⟩
      have n := rne_float s m q
      rw [e] at *
      dsimp only
      generalize hN : (if s then -(B64.rne (m * 2 ^ q) (2 ^ 149) : Int) else (B64.rne (m * 2 ^ q) (2 ^ 149) : Int)) = N at *
      have n1 := abs_le.1 n.1
      rw [if_neg]
      rintro ⟨b1, b2⟩
      have b1 : (-2147483648 : ℝ) ≤ N := by exact_mod_cast b1
      have b2 : (N : ℝ) ≤ 2147483647 := by exact_mod_cast b2
      norm_num at h
      rcases h with h | h <;> linarith
    · rw [e]
    · rw [e]

/-- With NEON three quarters become zero. -/
theorem C130_violated : ¬ C130_statement := by
  intro h
  have e : fl (0x3F400000 : Word) = .fin false (3 * 2 ^ 22) 125 := by decide
  have r : real (fl (0x3F400000 : Word)) = 3 / 4 := by
    rw [e, real_fin]
    norm_num
  have := (h.2 (fun _ => 0x3F400000) 0 ⟨_, _, _, e, by decide, by decide, by decide⟩ (by rw [r]; norm_num) (by rw [r]; norm_num)).2.1
  rw [r, show (w32 (vecConvertInt32Neon fun _ => 0x3F400000) 0).toInt = 0 by decide +kernel] at this
  norm_num [abs_le] at this

/-- **C130** for `VecTruncateConvert`, and what NEON does: the fraction of the number is dropped. -/
theorem C130_truncate (v : Vec) (i : Fin 4) (hv : Spec.F32.Finite (fl (v i))) (h : |real (fl (v i))| < 2 ^ 31) :
    (|((w32 (vecConvertInt32Neon v) i).toInt : ℝ)| ≤ |real (fl (v i))| ∧ |real (fl (v i)) - (w32 (vecConvertInt32Neon v) i).toInt| < 1) ∧
    (i = 0 → vecTruncateConvert v = w32 (vecConvertInt32Neon v) 0) := by
  obtain ⟨s, m, q, e, -⟩ := hv
  unfold vecConvertInt32Neon
  rw [w32_of32]
  have a := abs_real_fin s m q
  rw [e] at h ⊢
  rw [a] at h
  have hp : (0 : ℝ) < 2 ^ 149 := by positivity
  have lo : m * 2 ^ q / 2 ^ 149 * 2 ^ 149 ≤ m * 2 ^ q := Nat.div_mul_le_self _ _
  have hi : m * 2 ^ q < (m * 2 ^ q / 2 ^ 149 + 1) * 2 ^ 149 := by
    have := Nat.lt_mul_div_succ (m * 2 ^ q) (Nat.two_pow_pos 149)
    rwa [Nat.mul_comm (2 ^ 149)] at this
  have rf := real_fin s m q
  generalize hR : m * 2 ^ q / 2 ^ 149 = R at *
  generalize hN : m * 2 ^ q = N at *
  have lo' : (R : ℝ) ≤ N / 2 ^ 149 := by rw [le_div_iff₀ hp]; exact_mod_cast lo
  have hi' : (N : ℝ) / 2 ^ 149 < R + 1 := by rw [div_lt_iff₀ hp]; exact_mod_cast hi
  have hb : R ≤ 2147483647 := by
    have : (R : ℝ) < 2147483648 := lt_of_le_of_lt lo' (h.trans_le (by norm_num))
    have : R < 2147483648 := by exact_mod_cast this
    omega
  have v1 : vcvtW (v i) = BitVec.ofInt 32 (if s then -(R : Int) else R) := by
    unfold vcvtW
    rw [e]
    dsimp only
    rw [hN, hR, if_neg (by split <;> omega), if_neg (by split <;> omega)]
  refine ⟨?_, fun hi0 => ?_⟩
  · rw [v1, toInt_fits (by split <;> omega) (by split <;> omega), a, rf]
    cases s
    · simp only [Bool.false_eq_true, if_false, Int.cast_natCast, one_mul]
      rw [abs_of_nonneg (by positivity), abs_of_nonneg (by linarith)]
      exact ⟨lo', by linarith⟩
    · simp only [if_true, Int.cast_neg, Int.cast_natCast, neg_one_mul, abs_neg]
      rw [abs_of_nonneg (by positivity), show -((N : ℝ) / 2 ^ 149) - -(R : ℝ) = -(N / 2 ^ 149 - R) by ring, abs_neg, abs_of_nonneg (by linarith)]
      exact ⟨lo', by linarith⟩
  · subst hi0
    rw [w32_of32, v1]
    unfold vecTruncateConvert cvttW toInt
    rw [e]
    dsimp only
    rw [hN, hR, if_pos (by split <;> omega)]

/-- **C130** for NEON, numbers that do not fit: the nearest integer that does; NaN gives zero. -/
theorem C130_saturate (v : Vec) (i : Fin 4) :
    (Spec.F32.Finite (fl (v i)) ∧ 2 ^ 31 ≤ real (fl (v i)) ∨ fl (v i) = .inf false → (w32 (vecConvertInt32Neon v) i).toInt = 2147483647) ∧
    (Spec.F32.Finite (fl (v i)) ∧ real (fl (v i)) ≤ -2 ^ 31 ∨ fl (v i) = .inf true → (w32 (vecConvertInt32Neon v) i).toInt = -2147483648) ∧
    (fl (v i) = .nan → (w32 (vecConvertInt32Neon v) i).toInt = 0) := by
  unfold vecConvertInt32Neon
  rw [w32_of32]
  have big : ∀ {N : Nat} {x : ℝ}, x = N / 2 ^ 149 → 2 ^ 31 ≤ x → 2147483648 ≤ N / 2 ^ 149 := by
    intro N x hx h
    rw [Nat.le_div_iff_mul_le (by positivity)]
    rw [hx, le_div_iff₀ (by positivity)] at h
    have : ((2147483648 * 2 ^ 149 : Nat) : ℝ) ≤ N := by push_cast; norm_num at h ⊢; exact h
    exact_mod_cast this
  refine ⟨?_, ?_, fun e => by rw [vcvtW, e]; rfl⟩
  · rintro (⟨⟨s, m, q, e, -⟩, h⟩ | e)
    · rw [e, real_fin] at h
      have hn : (0 : ℝ) ≤ (m * 2 ^ q : Nat) / 2 ^ 149 := by positivity
      cases s
      · have := big (N := m * 2 ^ q) rfl (by simpa using h)
        rw [vcvtW, e]
        dsimp only
        generalize m * 2 ^ q / 2 ^ 149 = R at *
        rw [if_neg Bool.false_ne_true, if_neg (by omega), if_pos (by omega)]
        rfl
      · norm_num at h hn
        linarith
    · rw [vcvtW, e]; rfl
  · rintro (⟨⟨s, m, q, e, -⟩, h⟩ | e)
    · rw [e, real_fin] at h
      have hn : (0 : ℝ) ≤ (m * 2 ^ q : Nat) / 2 ^ 149 := by positivity
      cases s
      · norm_num at h hn
        linarith
      · have := big (N := m * 2 ^ q) rfl (by simpa using h)
        rw [vcvtW, e]
        dsimp only
        generalize m * 2 ^ q / 2 ^ 149 = R at *
        rw [if_pos rfl]
        split
        · rfl
        · have : R = 2147483648 := by omega
          subst this
          rfl
    · rw [vcvtW, e]; rfl

/-- Two and a half, minus three and a half, three quarters, and `2^31`: to the nearest even integer with SSE. -/
def halves : Vec := fun i => if i = 0 then 0x40200000 else if i = 1 then 0xC0600000 else if i = 2 then 0x3F400000 else 0x4F000000

example : (w32 (vecConvertInt32 halves) 0).toInt = 2 ∧ (w32 (vecConvertInt32 halves) 1).toInt = -4 ∧
    (w32 (vecConvertInt32 halves) 2).toInt = 1 ∧ w32 (vecConvertInt32 halves) 3 = 0x80000000 ∧
    (w32 (vecConvertInt32Neon halves) 1).toInt = -3 ∧ w32 (vecConvertInt32Neon halves) 3 = 0x7FFFFFFF ∧
    vecTruncateConvert halves = 2 ∧ vecInt32ConvertFloat (of32 fun _ => 16777217) 0 = 0x4B800000 := by decide +kernel

end Verif.Props
