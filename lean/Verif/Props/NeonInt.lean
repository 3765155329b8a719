import Verif.Props.SimdInt
import Verif.Model.SimdNeon

/-!
# Vectors of integers on different processors (C152)
-/

namespace Verif.Props

open Verif Verif.B32 Verif.Simd Verif.SimdInt

theorem reg_ext16 {a b : Reg} (h : ∀ i, h16 a i = h16 b i) : a = b := by
  rw [← of16_h16 a, ← of16_h16 b]
  congr 1
  exact funext h

theorem reg_ext32 {a b : Reg} (h : ∀ i, w32 a i = w32 b i) : a = b := by
  refine reg_ext16 fun i => ?_
  have := h ⟨i.val / 2, by omega⟩
  unfold w32 at this
  by_cases hi : i.val % 2 = 0
  · have t := congrArg (fun x => x.extractLsb' 0 16) this
    simp only [append_low] at t
    have e : (⟨2 * (i.val / 2), by omega⟩ : Fin 8) = i := Fin.ext (by dsimp only; omega)
    rwa [e] at t
  · have t := congrArg (fun x => x.extractLsb' 16 16) this
    simp only [append_high] at t
    have e : (⟨2 * (i.val / 2) + 1, by omega⟩ : Fin 8) = i := Fin.ext (by dsimp only; omega)
    rwa [e] at t

theorem clamp_ofInt {w : Nat} {lo hi : Int} (h1 : -2 ^ (w - 1) ≤ lo) (h2 : hi < 2 ^ (w - 1)) (hw : 0 < w) (hl : lo ≤ hi) (n : Int) :
    (BitVec.ofInt w (clampInt lo hi n)).toInt = clampInt lo hi n := by
  have k1 : lo ≤ clampInt lo hi n := by unfold clampInt; omega
  have k2 : clampInt lo hi n ≤ hi := by unfold clampInt; omega
  generalize clampInt lo hi n = z at *
  obtain ⟨u, rfl⟩ : ∃ u, w = u + 1 := ⟨w - 1, by omega⟩
  rw [BitVec.toInt_ofInt]
  have e : (2 ^ (u + 1) : Nat) = 2 * 2 ^ u := by rw [Nat.pow_succ]; omega
  simp only [Nat.add_sub_cancel] at h1 h2
  have c : ((2 ^ u : Nat) : Int) = 2 ^ u := by push_cast; rfl
  refine Int.bmod_eq_of_le ?_ ?_
  · rw [e]; omega
  · rw [e]; omega

/-- **C152** for unpacking, packing and reordering: the code for SSE and the code for NEON give the same vectors. -/
theorem C152_pack (a b : Reg) :
    Neon.vecInt8UnpackA a = vecInt8UnpackA a ∧ Neon.vecInt8UnpackB a = vecInt8UnpackB a ∧
    Neon.vecUInt8UnpackA a = vecUInt8UnpackA a ∧ Neon.vecUInt8UnpackB a = vecUInt8UnpackB a ∧
    Neon.vecInt16UnpackA a = vecInt16UnpackA a ∧ Neon.vecInt16UnpackB a = vecInt16UnpackB a ∧
    Neon.vecUInt16UnpackA a = vecUInt16UnpackA a ∧ Neon.vecUInt16UnpackB a = vecUInt16UnpackB a ∧
    Neon.vecInt32PackSaturate2 a b = vecInt32PackSaturate2 a b ∧ Neon.vecInt32PackSaturate a = vecInt32PackSaturate a ∧
    Neon.vecInt16PackSaturate a = vecInt16PackSaturate a ∧ Neon.vecInt16PackUnsignedSaturate a = vecInt16PackUnsignedSaturate a ∧
    Neon.vecInt8MergeA a b = vecInt8MergeA a b ∧ Neon.vecInt8MergeB a b = vecInt8MergeB a b ∧
    Neon.vecInt16Deinterleave a = vecInt16Deinterleave a := by
  obtain ⟨u1, u2, u3, u4, u5, u6, u7, u8⟩ := C129_unpack a
  have z : ∀ i : Nat, 8 * 0 + i = i ∧ 4 * 0 + i = i := by omega
  have pk : ∀ a b : Reg, Neon.vecInt32PackSaturate2 a b = vecInt32PackSaturate2 a b := by
    intro a b
    obtain ⟨p1, p2, -⟩ := C129_pack a b
    refine reg_ext16 fun i => BitVec.eq_of_toInt_eq ?_
    unfold Neon.vecInt32PackSaturate2
    rw [h16_of16]
    by_cases h : i.val < 4
    · rw [dif_pos h]
      refine Eq.trans ?_ (p1 ⟨i.val, h⟩).symm
      exact clamp_ofInt (by decide) (by decide) (by decide) (by decide) _
    · rw [dif_neg h]
      have := p2 ⟨i.val - 4, by omega⟩
      have e : (⟨4 + (i.val - 4), by omega⟩ : Fin 8) = i := Fin.ext (by dsimp only; omega)
      dsimp only at this
      rw [e] at this
      rw [this]
      exact clamp_ofInt (by decide) (by decide) (by decide) (by decide) _
  refine ⟨?_, ?_, ?_, ?_, ?_, ?_, ?_, ?_, pk a b, pk a a, ?_, ?_, ?_, ?_, ?_⟩
  · refine reg_ext16 fun i => BitVec.eq_of_toInt_eq ?_
    unfold Neon.vecInt8UnpackA Neon.movlS8
    rw [u1, h16_of16, BitVec.toInt_signExtend_of_le (by decide)]
    simp
  · refine reg_ext16 fun i => BitVec.eq_of_toInt_eq ?_
    unfold Neon.vecInt8UnpackB Neon.movlS8
    rw [u2, h16_of16, BitVec.toInt_signExtend_of_le (by decide)]
    simp
  · refine reg_ext16 fun i => BitVec.eq_of_toNat_eq ?_
    unfold Neon.vecUInt8UnpackA Neon.movlU8
    rw [u3, h16_of16, BitVec.toNat_setWidth_of_le (by decide)]
    simp
  · refine reg_ext16 fun i => BitVec.eq_of_toNat_eq ?_
    unfold Neon.vecUInt8UnpackB Neon.movlU8
    rw [u4, h16_of16, BitVec.toNat_setWidth_of_le (by decide)]
    simp
  · refine reg_ext32 fun i => BitVec.eq_of_toInt_eq ?_
    unfold Neon.vecInt16UnpackA Neon.movlS16
    rw [u5, w32_of32, BitVec.toInt_signExtend_of_le (by decide)]
    simp
  · refine reg_ext32 fun i => BitVec.eq_of_toInt_eq ?_
    unfold Neon.vecInt16UnpackB Neon.movlS16
    rw [u6, w32_of32, BitVec.toInt_signExtend_of_le (by decide)]
    simp
  · refine reg_ext32 fun i => BitVec.eq_of_toNat_eq ?_
    unfold Neon.vecUInt16UnpackA Neon.movlU16
    rw [u7, w32_of32, BitVec.toNat_setWidth_of_le (by decide)]
    simp
  · refine reg_ext32 fun i => BitVec.eq_of_toNat_eq ?_
    unfold Neon.vecUInt16UnpackB Neon.movlU16
    rw [u8, w32_of32, BitVec.toNat_setWidth_of_le (by decide)]
    simp
  · obtain ⟨-, -, -, p, -⟩ := C129_pack a b
    funext i
    apply BitVec.eq_of_toInt_eq
    rw [p]
    exact clamp_ofInt (by decide) (by decide) (by decide) (by decide) _
  · obtain ⟨-, -, -, -, p⟩ := C129_pack a b
    funext i
    apply BitVec.eq_of_toNat_eq
    have := p i
    have k : ∀ n : Int, ((BitVec.ofInt 8 (clampInt 0 255 n)).toNat : Int) = clampInt 0 255 n := by
      intro n
      have k1 : 0 ≤ clampInt 0 255 n := by unfold clampInt; omega
      have k2 : clampInt 0 255 n ≤ 255 := by unfold clampInt; omega
      generalize clampInt 0 255 n = z at *
      rw [BitVec.toNat_ofInt]
      omega
    have e := k (h16 a ⟨i.val % 8, by omega⟩).toInt
    rw [← this] at e
    have e' : (Neon.vecInt16PackUnsignedSaturate a i).toNat = (vecInt16PackUnsignedSaturate a i).toNat := by
      refine Int.ofNat_inj.1 ?_
      rw [← e, this]
      rfl
    exact e'
  · funext i
    unfold Neon.vecInt8MergeA Neon.zip8 vecInt8MergeA unpacklo8
    simp
  · funext i
    unfold Neon.vecInt8MergeB Neon.zip8 vecInt8MergeB unpackhi8
    have e1 : (16 + i.val) % 2 = i.val % 2 := by omega
    have e2 : (16 + i.val) / 2 = 8 + i.val / 2 := by omega
    simp [e1, e2]
  · obtain ⟨-, -, p⟩ := C129_order a b
    refine reg_ext16 fun i => ?_
    unfold Neon.vecInt16Deinterleave
    rw [h16_of16]
    by_cases h : i.val < 4
    · rw [dif_pos h]
      exact (p ⟨i.val, h⟩).1.symm
    · rw [dif_neg h]
      have := (p ⟨i.val - 4, by omega⟩).2
      have e : (⟨4 + (i.val - 4), by omega⟩ : Fin 8) = i := Fin.ext (by dsimp only; omega)
      dsimp only at this
      rw [e] at this
      exact this.symm

/-- **C152** for constants, arithmetic, stores and the conversion to floats; the loads agree wherever the one for SSE is defined. -/
theorem C152_rest (a b : Reg) (m : Block8) (i : Nat) :
    Neon.vecInt8GetZero = vecInt8GetZero ∧ Neon.vecInt16GetZero = vecInt16GetZero ∧ Neon.vecInt32GetZero = vecInt32GetZero ∧
    Neon.vecInt8GetInfinity = vecInt8GetInfinity ∧
    Neon.vecInt32Add a b = vecInt32Add a b ∧ Neon.vecInt32Sub a b = vecInt32Sub a b ∧
    Neon.vecInt32StoreX a = vecInt32StoreX a ∧ Neon.vecInt32StoreY a = vecInt32StoreY a ∧ Neon.vecInt32StoreZ a = vecInt32StoreZ a ∧
    Neon.vecInt32StoreW a = vecInt32StoreW a ∧ Neon.vecInt32ConvertFloat a = vecInt32ConvertFloat a ∧
    Neon.vecInt8LoadUnaligned m i = vecInt8LoadUnaligned m i ∧ Neon.vecInt16LoadUnaligned m i = vecInt16LoadUnaligned m i ∧
    (vecInt8Load m i ≠ .ub → Neon.vecInt8Load m i = vecInt8Load m i) ∧ (vecInt16Load m i ≠ .ub → Neon.vecInt16Load m i = vecInt16Load m i) := by
  obtain ⟨-, s1, s2, s3, -⟩ := C129_store a
  refine ⟨rfl, by decide, by decide, by decide, rfl, rfl, rfl, s1.symm, s2.symm, s3.symm, rfl, rfl, rfl, fun h => ?_, fun h => ?_⟩
  · unfold vecInt8Load loada at *
    split at h
    · next g => rw [if_pos g]; rfl
    · exact absurd rfl h
  · unfold vecInt16Load loada at *
    split at h
    · next g => rw [if_pos g]; rfl
    · exact absurd rfl h

/-- The bytes 0, 17, 34 to 255: the last eight are negative, and are widened with their sign. -/
example : h16 (Neon.vecInt8UnpackB stripes) 0 = 0xFF88 ∧ h16 (Neon.vecUInt8UnpackB stripes) 0 = 0x0088 ∧
    Neon.vecInt16PackSaturate stripes 0 = 0x7F ∧ Neon.vecInt16PackUnsignedSaturate stripes 7 = 0 ∧
    h16 (Neon.vecInt16Deinterleave stripes) 1 = h16 stripes 2 := by decide

/-- Without alignment, only the code for NEON loads. -/
example : (∃ v, Neon.vecInt8Load ⟨8, List.replicate 16 7⟩ 0 = .ok v) ∧ vecInt8Load ⟨8, List.replicate 16 7⟩ 0 = .ub :=
  ⟨⟨_, rfl⟩, rfl⟩

end Verif.Props
