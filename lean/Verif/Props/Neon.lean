import Verif.Lemmas.Neon
import Verif.Model.SimdSse4
import Verif.Props.SimdReal
import Verif.Props.SimdInt

/-!
# Vectors of floats on different processors (C153)
-/

namespace Verif.Props

open Verif Verif.B32 Verif.MathFns Verif.Spec.F32 Verif.Simd

/-- **C153**: what a program computes with vectors of floats does not depend on the processor: the code for SSE, for SSE4 and for NEON gives
the same components. -/
def C153_statement : Prop :=
  ∀ a b c : Vec,
    (Neon.vecDiv a b = vecDiv a b ∧ Neon.vecMadd a b c = vecMadd a b c ∧ Neon.vecNegate a = vecNegate a ∧ Neon.vecMin a b = vecMin a b ∧
      Neon.vecAddScalar a b = vecAddScalar a b) ∧
    (Sse4.vecDot4D a b 0 = vecDot4D a b 0 ∧ Sse4.vecDot3D a b 0 = vecDot3D a b 0 ∧ Sse4.vecFloor a = vecFloor a ∧
      Sse4.vecFloorScalar a = vecFloorScalar a)

/-- One in all components; 4097/4096; and (2^24, 1, 1, 1), whose sum depends on the order. -/
def vecOnes : Vec := fun _ => 0x3F800000
def vecFine : Vec := fun _ => 0x3F800800
def vecSteep : Vec := fun i => if i = 0 then 0x4B800000 else 0x3F800000

/-- None of these functions is the same: 1 / 1 is 0x3F7FFFC0 on NEON; VecMadd rounds once there; the negative of zero is minus zero there;
the minimum of zero and minus zero is minus zero there; the functions for scalars compute all components there; on SSE4 the sum in `VecDot4D` is
in another order, the sum of three products -0 is zero, and rounding keeps the sign of zero and rounds all components. -/
theorem C153_violated :
    Neon.vecDiv vecOnes vecOnes 0 ≠ vecDiv vecOnes vecOnes 0 ∧
    Neon.vecMadd vecFine vecFine (fun _ => 0xBF800000) 0 ≠ vecMadd vecFine vecFine (fun _ => 0xBF800000) 0 ∧
    Neon.vecNegate (fun _ => 0) 0 ≠ vecNegate (fun _ => 0) 0 ∧
    Neon.vecMin (fun _ => 0x80000000) (fun _ => 0) 0 ≠ vecMin (fun _ => 0x80000000) (fun _ => 0) 0 ∧
    Neon.vecAddScalar vecOnes vecOnes 1 ≠ vecAddScalar vecOnes vecOnes 1 ∧
    Sse4.vecDot4D vecSteep vecOnes 0 ≠ vecDot4D vecSteep vecOnes 0 ∧
    Sse4.vecDot3D (fun _ => 0x80000000) vecOnes 0 ≠ vecDot3D (fun _ => 0x80000000) vecOnes 0 ∧
    Sse4.vecFloor (fun _ => 0x80000000) 0 ≠ vecFloor (fun _ => 0x80000000) 0 ∧
    Sse4.vecFloorScalar (fun _ => 0x3FC00000) 1 ≠ vecFloorScalar (fun _ => 0x3FC00000) 1 ∧
    ¬ C153_statement := by
  have k : Neon.vecDiv vecOnes vecOnes 0 ≠ vecDiv vecOnes vecOnes 0 := by decide +kernel
  refine ⟨k, by decide +kernel, by decide +kernel, by decide +kernel, by decide +kernel, by decide +kernel, by decide +kernel, by decide +kernel,
    by decide +kernel, fun h => k (congrFun (h vecOnes vecOnes vecOnes).1.1 0)⟩

theorem bslW_eq (m a b : Word) : Neon.bslW m a b = orW (andnotW m b) (andW m a) := by
  unfold Neon.bslW orW andnotW andW
  exact BitVec.or_comm _ _

theorem absW_eq (w : Word) : Neon.absW w = andnotW 0x80000000 w := by
  unfold Neon.absW andnotW
  rw [show ~~~(0x80000000 : Word) = 0x7FFFFFFF by decide, BitVec.and_comm]

theorem vec_ext {a b : Vec} (h0 : a 0 = b 0) (h1 : a 1 = b 1) (h2 : a 2 = b 2) (h3 : a 3 = b 3) : a = b := by
  funext i
  match i with
  | 0 => exact h0
  | 1 => exact h1
  | 2 => exact h2
  | 3 => exact h3

/-- C153 on NEON, where whole vectors are equal to those on SSE: constants, sums, differences, products, masks, selections, floor and ceiling,
projections. -/
theorem C153_vectors_partial (a b m v : Vec) (w : Word) :
    (Neon.vecFloatGetZero = vecFloatGetZero ∧ Neon.vecFloatGetMinusZero = vecFloatGetMinusZero ∧
      Neon.vecLoadVectorConstant w = vecLoadVectorConstant w ∧ Neon.vecSmearX v = vecSmearX v ∧ Neon.vecSmearY v = vecSmearY v ∧
      Neon.vecSmearZ v = vecSmearZ v ∧ Neon.vecSmearW v = vecSmearW v) ∧
    (Neon.vecAdd a b = vecAdd a b ∧ Neon.vecSub a b = vecSub a b ∧ Neon.vecMul a b = vecMul a b ∧ Neon.vecAnd a b = vecAnd a b ∧
      Neon.vecAndc a b = vecAndc a b ∧ Neon.vecOr a b = vecOr a b ∧ Neon.vecXor a b = vecXor a b ∧ Neon.vecSelect a b m = vecSelect a b m ∧
      Neon.vecMaskCmpeq a b = vecMaskCmpeq a b ∧ Neon.vecMaskCmplt a b = vecMaskCmplt a b ∧ Neon.vecMaskCmpgt a b = vecMaskCmpgt a b) ∧
    (Neon.vecFloor v = vecFloor v ∧ Neon.vecCeil v = vecCeil v ∧ Neon.vecPositiveFloor v = vecPositiveFloor v ∧
      Neon.vecNegativeFloor v = vecNegativeFloor v ∧ Neon.vecPositiveCeil v = vecPositiveCeil v ∧ Neon.vecNegativeCeil v = vecNegativeCeil v ∧
      Neon.vecFloorCeil v = vecFloorCeil v ∧ Neon.vecPositiveFloorCeil v = vecPositiveFloorCeil v ∧
      Neon.vecNegativeFloorCeil v = vecNegativeFloorCeil v) ∧
    (Neon.vecProject3D a b = vecProject3D a b ∧ Neon.vecReject3D a b = vecReject3D a b) := by
  have dup0 : ∀ v : Vec, Neon.dup (v 0) = vecSmearX v := fun v => vec_ext rfl rfl rfl rfl
  have dot : Neon.vecDot3D a b 0 = vecDot3D a b 0 := rfl
  refine ⟨⟨rfl, rfl, rfl, dup0 v, vec_ext rfl rfl rfl rfl, vec_ext rfl rfl rfl rfl, vec_ext rfl rfl rfl rfl⟩,
    ⟨rfl, rfl, rfl, rfl, ?_, rfl, rfl, ?_, rfl, rfl, rfl⟩, ⟨?_, ?_, rfl, rfl, rfl, rfl, rfl, rfl, rfl⟩, ?_, ?_⟩
  · funext i; exact BitVec.and_comm _ _
  · funext i; exact bslW_eq _ _ _
  · funext i
    unfold Neon.vecFloor Neon.vbslq
    simp only [bslW_eq, absW_eq, Simd.ps]
    rfl
  · funext i
    unfold Neon.vecCeil Neon.vbslq
    simp only [bslW_eq, absW_eq, Simd.ps]
    rfl
  · unfold Neon.vecProject3D vecProject3D
    dsimp only
    rw [dup0]
    funext i
    show mulW (b i) (vecSmearX _ i) = mulW (b i) (vecSmearX _ i)
    rw [(C122_smear _ (fun _ => 0) i 0).1, (C122_smear _ (fun _ => 0) i 0).1, dot]
  · unfold Neon.vecReject3D vecReject3D
    dsimp only
    rw [dup0]
    funext i
    show subW (a i) (mulW (b i) (vecSmearX _ i)) = subW (a i) (mulW (b i) (vecSmearX _ i))
    rw [(C122_smear _ (fun _ => 0) i 0).1, (C122_smear _ (fun _ => 0) i 0).1, dot]

/-- C153 on NEON, where the first components and the truth values are those on SSE: functions for scalars, sums of components and comparisons. -/
theorem C153_scalars_partial (a b v : Vec) (w : Word) :
    (Neon.vecLoadScalarConstant w 0 = vecLoadScalarConstant w 0 ∧ Neon.vecAddScalar a b 0 = vecAddScalar a b 0 ∧
      Neon.vecSubScalar a b 0 = vecSubScalar a b 0 ∧ Neon.vecMulScalar a b 0 = vecMulScalar a b 0) ∧
    (Neon.vecFloorScalar v 0 = vecFloorScalar v 0 ∧ Neon.vecCeilScalar v 0 = vecCeilScalar v 0 ∧
      Neon.vecPositiveFloorScalar v 0 = vecPositiveFloorScalar v 0 ∧ Neon.vecNegativeFloorScalar v 0 = vecNegativeFloorScalar v 0 ∧
      Neon.vecPositiveCeilScalar v 0 = vecPositiveCeilScalar v 0 ∧ Neon.vecNegativeCeilScalar v 0 = vecNegativeCeilScalar v 0) ∧
    ((Neon.vecFloorCeilScalar v).1 0 = (vecFloorCeilScalar v).1 0 ∧ (Neon.vecFloorCeilScalar v).2 0 = (vecFloorCeilScalar v).2 0 ∧
      (Neon.vecPositiveFloorCeilScalar v).1 0 = (vecPositiveFloorCeilScalar v).1 0 ∧
      (Neon.vecPositiveFloorCeilScalar v).2 0 = (vecPositiveFloorCeilScalar v).2 0 ∧
      (Neon.vecNegativeFloorCeilScalar v).1 0 = (vecNegativeFloorCeilScalar v).1 0 ∧
      (Neon.vecNegativeFloorCeilScalar v).2 0 = (vecNegativeFloorCeilScalar v).2 0) ∧
    (Neon.vecHorizontalSum3D v 0 = vecHorizontalSum3D v 0 ∧ Neon.vecDot3D a b 0 = vecDot3D a b 0 ∧ Neon.vecDot4D a b 0 = vecDot4D a b 0 ∧
      Neon.vecPlaneDotPoint3D a b 0 = vecPlaneDotPoint3D a b 0) ∧
    (Neon.vecCmpeqScalar a b = vecCmpeqScalar a b ∧ Neon.vecCmpltScalar a b = vecCmpltScalar a b ∧
      Neon.vecCmpgtScalar a b = vecCmpgtScalar a b ∧ Neon.vecCmpltAny3D a b = vecCmpltAny3D a b ∧
      Neon.vecCmpgtAny3D a b = vecCmpgtAny3D a b) := by
  obtain ⟨-, -, ⟨f1, f2, -⟩, -⟩ := C153_vectors_partial a b a v w
  obtain ⟨-, -, -, -, -, -, -, -, s1, s2, -⟩ := C121_scalar a b a v
  exact ⟨⟨rfl, rfl, rfl, rfl⟩, ⟨(congrFun f1 0).trans s1.symm, (congrFun f2 0).trans s2.symm, rfl, rfl, rfl, rfl⟩,
    ⟨rfl, rfl, rfl, rfl, rfl, rfl⟩, ⟨rfl, rfl, rfl, rfl⟩, rfl, rfl, rfl, rfl, rfl⟩

/-- C153 for memory: stores are the same on SSE, SSE4 and NEON, but NEON also allows addresses that are not aligned; what is loaded is the same,
but `VecLoadScalar` fills the other components with the number on NEON and with zero on SSE. -/
theorem C153_memory_partial (v : Vec) (m : Block) (i : Nat) :
    (Sse4.vecStoreX v m i = vecStoreX v m i ∧ Sse4.vecStoreY v m i = vecStoreY v m i ∧ Sse4.vecStoreZ v m i = vecStoreZ v m i ∧
      Sse4.vecStoreW v m i = vecStoreW v m i ∧ Sse4.vecStore3D v m i = vecStore3D v m i) ∧
    (Neon.vecStoreX v m i = vecStoreX v m i ∧ Neon.vecStoreY v m i = vecStoreY v m i ∧ Neon.vecStoreZ v m i = vecStoreZ v m i ∧
      Neon.vecStoreW v m i = vecStoreW v m i ∧ Neon.vecStore3D v m i = vecStore3D v m i ∧
      Neon.vecStoreUnaligned v m i = vecStoreUnaligned v m i) ∧
    (Neon.vecLoadUnaligned m i = vecLoadUnaligned m i ∧ Neon.vecLoadSmearScalar m i = vecLoadSmearScalar m i) ∧
    ((m.addr + 4 * i) % 16 = 0 → Neon.vecLoad m i = vecLoad m i ∧ Neon.vecStore v m i = vecStore v m i) ∧
    ((m.addr + 4 * i) % 16 ≠ 0 → Neon.vecLoad m i = vecLoadUnaligned m i ∧ Neon.vecStore v m i = vecStoreUnaligned v m i ∧
      vecLoad m i = .ub ∧ vecStore v m i = .ub) ∧
    (∀ w, m.data[i]? = some w → Neon.vecLoadScalar m i = .ok (fun _ => w) ∧
      vecLoadScalar m i = .ok fun k => if k = 0 then w else 0) ∧
    (m.data[i]? = none → Neon.vecLoadScalar m i = .ub) := by
  refine ⟨⟨rfl, rfl, rfl, rfl, rfl⟩, ⟨rfl, rfl, rfl, rfl, rfl, rfl⟩, ⟨rfl, ?_⟩, fun h => ?_, fun h => ?_, fun w h => ?_, fun h => ?_⟩
  · unfold Neon.vecLoadSmearScalar Neon.loadDup vecLoadSmearScalar loadss
    cases m.data[i]? with
    | none => rfl
    | some w =>
      dsimp only
      rw [Out.ok_bind]
      congr 1
      exact vec_ext rfl rfl rfl rfl
  · unfold vecLoad vecStore
    rw [if_pos (show aligned m i from h), if_pos (show aligned m i from h)]
    exact ⟨rfl, rfl⟩
  · exact ⟨rfl, rfl, if_neg h, if_neg h⟩
  · unfold Neon.vecLoadScalar Neon.loadDup vecLoadScalar loadss
    rw [h]
    exact ⟨rfl, rfl⟩
  · unfold Neon.vecLoadScalar Neon.loadDup
    rw [h]

/-- `VecNegate` on NEON changes the sign of every component, also of zero: C124 holds there. -/
theorem C153_negate_partial (v : Vec) (i : Fin 4) :
    fl (Neon.vecNegate v i) = neg (fl (v i)) ∧ (v i ≠ 0 → fl (Neon.vecNegate v i) = fl (vecNegate v i)) := by
  have k : fl (Neon.vecNegate v i) = neg (fl (v i)) := by
    show fl (Neon.negW (v i)) = _
    generalize v i = w
    have e : (Neon.negW w).toNat = (w.toNat + 2 ^ 31) % 2 ^ 32 := by
      unfold Neon.negW
      rw [show w ^^^ 0x80000000 = w + 0x80000000 from ?_, BitVec.toNat_add]
      · rfl
      · apply BitVec.eq_of_toNat_eq
        rw [BitVec.toNat_xor, BitVec.toNat_add]
        have hw := w.isLt
        rw [show (0x80000000 : Word).toNat = 2 ^ 31 by decide]
        apply Nat.eq_of_testBit_eq
        intro j
        rw [Nat.testBit_xor, Nat.testBit_two_pow]
        by_cases hj : j = 31
        · subst hj
          simp only [decide_true, Nat.testBit_eq_decide_div_mod_eq]
          by_cases h : 2 ^ 31 ≤ w.toNat
          · rw [show w.toNat / 2 ^ 31 % 2 = 1 by omega, show (w.toNat + 2 ^ 31) % 2 ^ 32 / 2 ^ 31 % 2 = 0 by omega]; rfl
          · rw [show w.toNat / 2 ^ 31 % 2 = 0 by omega, show (w.toNat + 2 ^ 31) % 2 ^ 32 / 2 ^ 31 % 2 = 1 by omega]; rfl
        · rw [show decide (31 = j) = false by simp; omega, Bool.xor_false]
          by_cases h : j < 31
          · have : ((w.toNat + 2 ^ 31) % 2 ^ 32) % 2 ^ 31 = w.toNat % 2 ^ 31 := by omega
            generalize (w.toNat + 2 ^ 31) % 2 ^ 32 = X at *
            have t : (X % 2 ^ 31).testBit j = (w.toNat % 2 ^ 31).testBit j := congrArg (fun n => n.testBit j) this
            rw [Nat.testBit_mod_two_pow, Nat.testBit_mod_two_pow, decide_eq_true h, Bool.true_and, Bool.true_and] at t
            exact t.symm
          · rw [Nat.testBit_lt_two_pow (lt_of_lt_of_le hw (Nat.pow_le_pow_right (by decide) (by omega))),
              Nat.testBit_lt_two_pow (lt_of_lt_of_le (Nat.mod_lt _ (by decide)) (Nat.pow_le_pow_right (by decide) (by omega)))]
    unfold fl
    rw [e]
    have hlt := w.isLt
    generalize w.toNat = n at *
    unfold ofBits
    have h1 : (n + 2 ^ 31) % 2 ^ 32 / 2 ^ 23 % 256 = n / 2 ^ 23 % 256 := by omega
    have h2 : (n + 2 ^ 31) % 2 ^ 32 % 2 ^ 23 = n % 2 ^ 23 := by omega
    have h3 : decide (2 ^ 31 ≤ (n + 2 ^ 31) % 2 ^ 32 % 2 ^ 32) = !decide (2 ^ 31 ≤ n % 2 ^ 32) := by
      by_cases h : 2 ^ 31 ≤ n % 2 ^ 32
      · rw [decide_eq_true h, decide_eq_false (by omega)]; rfl
      · rw [decide_eq_false h, decide_eq_true (by omega)]; rfl
    simp only [h1, h2, h3]
    repeat' split
    all_goals rfl
  exact ⟨k, fun h => k.trans ((C124_negate_partial v i).1 h).symm⟩

/-- Floats that are equal as numbers. -/
theorem equal_floats {x y : Flt} (hx : Valid x) (hy : Valid y) (h1 : x ≠ .nan) (h2 : y ≠ .nan) (h3 : lt x y = false) (h4 : lt y x = false) :
    x = y ∨ ∃ s s', x = .fin s 0 0 ∧ y = .fin s' 0 0 := by
  rcases hx with ⟨s, m, q, rfl, hc⟩ | ⟨s, rfl⟩ | rfl
  · rcases hy with ⟨s', m', q', rfl, hc'⟩ | ⟨s', rfl⟩ | rfl
    · have z : ∀ {m q : Nat}, Canonical m q → m * 2 ^ q = 0 → m = 0 ∧ q = 0 := by
        intro m q hc h
        have h0 : m = 0 := (Nat.mul_eq_zero.1 h).resolve_right (Nat.two_pow_pos q).ne'
        obtain ⟨-, -, hq | hq⟩ := hc
        · exact ⟨h0, hq⟩
        · omega
      simp only [lt, decide_eq_false_iff_not] at h3 h4
      have e : scaled s m q = scaled s' m' q' := by omega
      have r := round_self s hc
      have r' := round_self s' hc'
      unfold scaled at e
      by_cases h0 : m * 2 ^ q = 0
      · have h0' : m' * 2 ^ q' = 0 := by
          rw [h0] at e
          cases s <;> cases s' <;> simp at e <;> simp [e]
        obtain ⟨rfl, rfl⟩ := z hc h0
        obtain ⟨rfl, rfl⟩ := z hc' h0'
        exact .inr ⟨_, _, rfl, rfl⟩
      · left
        generalize m * 2 ^ q = A at *
        generalize m' * 2 ^ q' = B at *
        have : s = s' ∧ A = B := by
          cases s <;> cases s' <;> simp at e ⊢ <;> omega
        obtain ⟨rfl, rfl⟩ := this
        rw [← r, ← r']
    · cases s' <;> simp [lt] at h3 h4
    · exact absurd rfl h2
  · rcases hy with ⟨s', m', q', rfl, hc'⟩ | ⟨s', rfl⟩ | rfl
    · cases s <;> simp [lt] at h3 h4
    · cases s <;> cases s' <;> simp_all [lt]
    · exact absurd rfl h2
  · exact absurd rfl h1

theorem lt_asymm' (x y : Flt) (h : lt x y = true) : lt y x = false := by
  cases x <;> cases y <;> simp_all [lt]
  omega

theorem vmin_cases (x y : Flt) (h1 : x ≠ .nan) (h2 : y ≠ .nan) :
    (∃ s s', x = .fin s 0 0 ∧ y = .fin s' 0 0) ∨
      (Neon.vmin x y = (if lt x y then x else y) ∧ Neon.vmax x y = (if lt y x then x else y)) := by
  by_cases h : ∃ s s', x = .fin s 0 0 ∧ y = .fin s' 0 0
  · exact .inl h
  · right
    constructor
    · unfold Neon.vmin
      split
      · exact absurd rfl h1
      · exact absurd rfl h2
      · exact absurd ⟨_, _, rfl, rfl⟩ h
      · rfl
    · unfold Neon.vmax
      split
      · exact absurd rfl h1
      · exact absurd rfl h2
      · exact absurd ⟨_, _, rfl, rfl⟩ h
      · rfl

theorem vmin_nan (x : Flt) : Neon.vmin x .nan = .nan ∧ Neon.vmax x .nan = .nan := by
  cases x <;> exact ⟨rfl, rfl⟩

theorem vmin_comm {x y : Flt} (hx : Valid x) (hy : Valid y) : Neon.vmin x y = Neon.vmin y x ∧ Neon.vmax x y = Neon.vmax y x := by
  by_cases h1 : x = .nan
  · rw [h1, (vmin_nan y).1, (vmin_nan y).2]; exact ⟨rfl, rfl⟩
  by_cases h2 : y = .nan
  · rw [h2, (vmin_nan x).1, (vmin_nan x).2]; exact ⟨rfl, rfl⟩
  rcases vmin_cases x y h1 h2 with ⟨s, s', rfl, rfl⟩ | ⟨e1, e2⟩
  · cases s <;> cases s' <;> exact ⟨rfl, rfl⟩
  rcases vmin_cases y x h2 h1 with ⟨s, s', rfl, rfl⟩ | ⟨e3, e4⟩
  · cases s <;> cases s' <;> exact ⟨rfl, rfl⟩
  rw [e1, e2, e3, e4]
  cases h3 : lt x y with
  | true => rw [lt_asymm' x y h3]; exact ⟨rfl, rfl⟩
  | false =>
    cases h4 : lt y x with
    | true => exact ⟨rfl, rfl⟩
    | false =>
      rcases equal_floats hx hy h1 h2 h3 h4 with h | ⟨s, s', rfl, rfl⟩
      · rw [h]; exact ⟨rfl, rfl⟩
      · cases s <;> cases s' <;> first | exact ⟨rfl, rfl⟩ | (revert e1 e2 e3 e4; decide)

/-- C153 for minima and maxima: on NEON they do not depend on the order of the arguments and are NaN if one is NaN; unless one is NaN or both
are zeros, they are those on SSE. -/
theorem C153_extreme_partial (a b : Vec) (i : Fin 4) :
    (Neon.vecMin a b = Neon.vecMin b a ∧ Neon.vecMax a b = Neon.vecMax b a) ∧
    (Neon.vecMinScalar a b 0 = Neon.vecMin a b 0 ∧ Neon.vecMaxScalar a b 0 = Neon.vecMax a b 0) ∧
    (fl (a i) = .nan ∨ fl (b i) = .nan → fl (Neon.vecMin a b i) = .nan ∧ fl (Neon.vecMax a b i) = .nan) ∧
    (fl (a i) ≠ .nan → fl (b i) ≠ .nan → ¬ (eq (fl (a i)) zero ∧ eq (fl (b i)) zero) →
      Neon.vecMin a b i = vecMin a b i ∧ Neon.vecMax a b i = vecMax a b i) := by
  have c (i) := vmin_comm (fl_valid (a i)) (fl_valid (b i))
  refine ⟨⟨funext fun i => ?_, funext fun i => ?_⟩, ⟨rfl, rfl⟩, fun h => ?_, fun h1 h2 h3 => ?_⟩
  · show wd _ = wd _
    rw [(c i).1]
  · show wd _ = wd _
    rw [(c i).2]
  · unfold Neon.vecMin Neon.vecMax Simd.ps
    rw [Neon.fl_vminW, Neon.fl_vmaxW]
    rcases h with h | h
    · rw [h]; exact ⟨rfl, rfl⟩
    · rw [h]; exact vmin_nan _
  · unfold Neon.vecMin Neon.vecMax vecMin vecMax Simd.ps Neon.vminW Neon.vmaxW minW maxW
    rcases vmin_cases (fl (a i)) (fl (b i)) h1 h2 with ⟨s, s', e, e'⟩ | ⟨e1, e2⟩
    · refine absurd ⟨?_, ?_⟩ h3
      · rw [e]; cases s <;> decide
      · rw [e']; cases s' <;> decide
    · rw [e1, e2]
      constructor
      · split
        · exact wd_fl h1
        · exact wd_fl h2
      · split
        · exact wd_fl h1
        · exact wd_fl h2

/-- C153 for `VecTruncateConvert`: the results are the same if they are in the range of `int32`; otherwise NEON gives the nearest number of this
range or zero for NaN, and SSE the least one. -/
theorem C153_truncate_partial (v : Vec) :
    (∀ n, toInt (fl (v 0)) = .ok n → Neon.vecTruncateConvert v = vecTruncateConvert v) ∧
    (toInt (fl (v 0)) = .ub → vecTruncateConvert v = 0x80000000 ∧
      Neon.vecTruncateConvert v = if fl (v 0) = .nan then 0 else if lt (fl (v 0)) zero then 0x80000000 else 0x7FFFFFFF) := by
  unfold Neon.vecTruncateConvert vecTruncateConvert SimdInt.vcvtW cvttW
  generalize fl (v 0) = x
  match x with
  | .nan => exact ⟨fun n h => (nomatch h), fun _ => ⟨rfl, rfl⟩⟩
  | .inf s =>
    refine ⟨fun n h => (nomatch h), fun _ => ⟨rfl, ?_⟩⟩
    cases s <;> decide
  | .fin s m q =>
    have lz : lt (.fin s m q) zero = decide (scaled s m q < 0) := by
      rw [zero_fin]
      rfl
    have sc : scaled s m q = if s then -((m * 2 ^ q : Nat) : Int) else ((m * 2 ^ q : Nat) : Int) := rfl
    rw [lz, sc]
    simp only [toInt]
    have hd : (m * 2 ^ q / 2 ^ 149) * 2 ^ 149 ≤ m * 2 ^ q := Nat.div_mul_le_self _ _
    generalize m * 2 ^ q = A at *
    obtain ⟨B, hB⟩ : ∃ B, B = A / 2 ^ 149 := ⟨_, rfl⟩
    rw [← hB] at hd ⊢
    have hA : B ≤ A := by
      refine Nat.le_trans ?_ hd
      exact Nat.le_mul_of_pos_right _ (Nat.two_pow_pos _)
    clear hd hB
    obtain ⟨N, hN⟩ : ∃ N : Int, N = if s then -(B : Int) else B := ⟨_, rfl⟩
    rw [← hN]
    by_cases g : -2147483648 ≤ N ∧ N ≤ 2147483647
    · rw [if_pos g]
      exact ⟨fun n h => by rw [if_neg (by omega), if_neg (by omega)], fun h => (nomatch h)⟩
    · rw [if_neg g]
      refine ⟨fun n h => (nomatch h), fun _ => ⟨rfl, ?_⟩⟩
      rw [if_neg (show ¬ Flt.fin s m q = .nan by simp)]
      cases s
      · simp only [Bool.false_eq_true, if_false] at hN ⊢
        rw [if_neg (by omega), if_pos (by omega), if_neg (by simp)]
      · simp only [if_true] at hN ⊢
        rw [if_pos (by omega), if_pos (by simp; omega)]

/-- On NEON, 3e9 is converted to the greatest number, on SSE to the least; the minimum of a NaN and 1 is NaN on NEON, and 1 on SSE. -/
example : Neon.vecTruncateConvert (fun _ => 0x4F32D05E) = 0x7FFFFFFF ∧ vecTruncateConvert (fun _ => 0x4F32D05E) = 0x80000000 ∧
    Neon.vecTruncateConvert (fun _ => 0xC0700000) = BitVec.ofInt 32 (-3) ∧ vecTruncateConvert (fun _ => 0xC0700000) = BitVec.ofInt 32 (-3) ∧
    fl (Neon.vecMin (fun _ => 0x7FC00000) vecOnes 0) = .nan ∧ vecMin (fun _ => 0x7FC00000) vecOnes 0 = 0x3F800000 := by decide +kernel

/-- 1.5, -0.5, 8388607.5 and minus infinity, rounded on NEON. -/
example : List.map (Neon.vecFloor vecSample) [0, 1, 2, 3] = [0x3F800000, 0xBF800000, 0x4AFFFFFE, 0xFF800000] ∧
    List.map (Neon.vecNegate vecSample) [0, 1, 2, 3] = [0xBFC00000, 0x3F000000, 0xCAFFFFFF, 0x7F800000] ∧
    Neon.vecStore3D vecSample ⟨8, [1, 2, 3, 4]⟩ 1 = .ok ⟨8, [1, 0x3FC00000, 0xBF000000, 0x4AFFFFFF]⟩ := by decide +kernel

end Verif.Props
