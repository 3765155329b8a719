import Mathlib.Data.Nat.Bitwise
import Verif.Lemmas.Simd
import Verif.Props.Floats

/-!
# Properties of the vectors of floats (C121 to C123)
-/

namespace Verif.Props

open Verif Verif.B32 Verif.MathFns Verif.Spec.F32 Verif.Simd

/-! ## C121 -/

/-- **C121** for arithmetic: every component of the result is the float operation on the components of the arguments. -/
theorem C121_arithmetic (a b c : Vec) (i : Fin 4) :
    fl (vecAdd a b i) = add (fl (a i)) (fl (b i)) ∧
    fl (vecSub a b i) = sub (fl (a i)) (fl (b i)) ∧
    fl (vecMul a b i) = mul (fl (a i)) (fl (b i)) ∧
    fl (vecDiv a b i) = div (fl (a i)) (fl (b i)) ∧
    fl (vecMin a b i) = fmin (fl (a i)) (fl (b i)) ∧
    fl (vecMax a b i) = fmax (fl (a i)) (fl (b i)) ∧
    fl (vecMadd a b c i) = add (mul (fl (a i)) (fl (b i))) (fl (c i)) ∧
    fl (vecNmsub a b c i) = sub (fl (c i)) (mul (fl (a i)) (fl (b i))) :=
  ⟨fl_addW _ _, fl_subW _ _, fl_mulW _ _, fl_divW _ _, fl_minW _ _, fl_maxW _ _, by simp [vecMadd, ps], by simp [vecNmsub, ps]⟩

theorem fl_down (v r : Word) : fl (subW r (andW 0x3F800000 (ltW v r))) = down (fl v) (fl r) := by
  rw [fl_subW, fl_and_ltW]; rfl

theorem fl_up (v r : Word) : fl (addW r (andW 0x3F800000 (ltW r v))) = up (fl v) (fl r) := by
  rw [fl_addW, fl_and_ltW]; rfl

theorem fl_nearBoth (v : Word) :
    fl (subW (addW (addW (subW v 0x4B000000) 0x4B000000) 0x4B000000) 0x4B000000) = nearBoth (fl v) := by
  simp only [fl_subW, fl_addW, fl_two23]; rfl

theorem fl_nearPositive (v : Word) : fl (subW (addW v 0x4B000000) 0x4B000000) = nearPositive (fl v) := by
  simp only [fl_subW, fl_addW, fl_two23]; rfl

theorem fl_nearNegative (v : Word) : fl (addW (subW v 0x4B000000) 0x4B000000) = nearNegative (fl v) := by
  simp only [fl_subW, fl_addW, fl_two23]; rfl

/-- The choice between the argument and the rounded number. -/
theorem fl_choice (v r : Word) :
    fl (orW (andnotW (ltW 0x4B000000 (andnotW 0x80000000 v)) r) (andW (ltW 0x4B000000 (andnotW 0x80000000 v)) v)) =
      if lt two23 (fabs (fl v)) then fl v else fl r := by
  unfold ltW
  rw [select_mask, fl_two23, fl_clear]
  split <;> rfl

/-- **C121** for rounding: every component is rounded as by the functions `Floor`, `Ceil` and so on of `Math`. -/
theorem C121_rounding (v : Vec) (i : Fin 4) :
    fl (vecFloor v i) = floor (fl (v i)) ∧
    fl (vecCeil v i) = ceil (fl (v i)) ∧
    fl (vecPositiveFloor v i) = positiveFloor (fl (v i)) ∧
    fl (vecNegativeFloor v i) = negativeFloor (fl (v i)) ∧
    fl (vecPositiveCeil v i) = positiveCeil (fl (v i)) ∧
    fl (vecNegativeCeil v i) = negativeCeil (fl (v i)) ∧
    (fl ((vecFloorCeil v).1 i), fl ((vecFloorCeil v).2 i)) = floorCeil (fl (v i)) ∧
    (fl ((vecPositiveFloorCeil v).1 i), fl ((vecPositiveFloorCeil v).2 i)) = positiveFloorCeil (fl (v i)) ∧
    (fl ((vecNegativeFloorCeil v).1 i), fl ((vecNegativeFloorCeil v).2 i)) = negativeFloorCeil (fl (v i)) := by
  refine ⟨?_, ?_, ?_, ?_, ?_, ?_, ?_, ?_, ?_⟩
  · refine (fl_choice _ _).trans ?_
    unfold floor
    congr 1
    exact (fl_down _ _).trans (congrArg _ (fl_nearBoth _))
  · refine (fl_choice _ _).trans ?_
    unfold ceil
    congr 1
    exact (fl_up _ _).trans (congrArg _ (fl_nearBoth _))
  · exact (fl_down _ _).trans (congrArg _ (fl_nearPositive _))
  · exact (fl_down _ _).trans (congrArg _ (fl_nearNegative _))
  · exact (fl_up _ _).trans (congrArg _ (fl_nearPositive _))
  · exact (fl_up _ _).trans (congrArg _ (fl_nearNegative _))
  · exact Prod.ext ((fl_down _ _).trans (congrArg _ (fl_nearBoth _))) ((fl_up _ _).trans (congrArg _ (fl_nearBoth _)))
  · exact Prod.ext ((fl_down _ _).trans (congrArg _ (fl_nearPositive _))) ((fl_up _ _).trans (congrArg _ (fl_nearPositive _)))
  · exact Prod.ext ((fl_down _ _).trans (congrArg _ (fl_nearNegative _))) ((fl_up _ _).trans (congrArg _ (fl_nearNegative _)))

/-- **C121** for rounding: floor and ceiling of finite components. -/
theorem C121_floor (v : Vec) (i : Fin 4) (h : Spec.F32.Finite (fl (v i))) :
    IsFloor (fl (v i)) (fl (vecFloor v i)) ∧ IsCeil (fl (v i)) (fl (vecCeil v i)) := by
  obtain ⟨h1, h2, -⟩ := C121_rounding v i
  rw [h1, h2]
  exact ⟨(C91_floor.1 _ h).1, (C91_floor.1 _ h).2.1⟩

/-- The sign bit of a word. -/
theorem and_sign (w : Word) : andW 0x80000000 w = if 2 ^ 31 ≤ w.toNat then 0x80000000 else 0 := by
  apply BitVec.eq_of_toNat_eq
  unfold andW
  have hlt := w.isLt
  rw [BitVec.toNat_and, show (0x80000000 : Word).toNat = 2 ^ 31 by decide, Nat.and_comm, Nat.and_two_pow, Nat.testBit_eq_decide_div_mod_eq]
  split
  · rw [show w.toNat / 2 ^ 31 % 2 = 1 by omega]; decide
  · rw [show w.toNat / 2 ^ 31 % 2 = 0 by omega]; decide

/-- One with a sign bit. -/
theorem fl_sign (p : Bool) : fl (orW 0x3F800000 (if p then 0x80000000 else 0)) = .fin p (2 ^ 23) 126 := by
  cases p <;> decide

theorem withSign_fl {w : Word} (h : fl w ≠ .nan) : withSign (fl w) = .fin (decide (2 ^ 31 ≤ w.toNat)) (2 ^ 23) 126 := by
  have hlt := w.isLt
  unfold fl ofBits at *
  rw [Nat.mod_eq_of_lt hlt] at *
  simp only at *
  split
  · next e =>
    rw [if_pos e] at h
    split
    · rfl
    · next e' => rw [if_neg e'] at h; exact absurd rfl h
  · split <;> rfl

theorem fl_nonzeroFsgn {w : Word} (h : fl w ≠ .nan) : fl (orW 0x3F800000 (andW 0x80000000 w)) = nonzeroFsgn (fl w) := by
  unfold nonzeroFsgn
  rw [withSign_fl h, and_sign]
  by_cases hw : 2 ^ 31 ≤ w.toNat
  · simp only [hw]; decide
  · simp only [hw]; decide

theorem fl_nonzeroFnsgn {w : Word} (h : fl w ≠ .nan) : fl (orW 0x3F800000 (andnotW w 0x80000000)) = nonzeroFnsgn (fl w) := by
  have e : andnotW w 0x80000000 = andW 0x80000000 (~~~w) := by unfold andnotW andW; rw [BitVec.and_comm]
  have hlt := w.isLt
  unfold nonzeroFnsgn
  rw [withSign_fl h, e, and_sign, BitVec.toNat_not]
  have : (2 ^ 31 ≤ 2 ^ 32 - 1 - w.toNat) ↔ ¬ 2 ^ 31 ≤ w.toNat := by omega
  simp only [this]
  by_cases hw : 2 ^ 31 ≤ w.toNat
  · simp only [hw]; decide
  · simp only [hw]; decide

theorem fl_masked (x w : Word) : fl (andnotW (eqW w 0) x) = if eq (fl w) zero then zero else fl x := by
  unfold eqW
  rw [fl_zero]
  split
  · unfold andnotW; rw [BitVec.not_allOnes]; exact (congrArg fl BitVec.zero_and).trans fl_zero
  · unfold andnotW
    rw [show ~~~(0 : Word) = BitVec.allOnes 32 by decide, BitVec.allOnes_and]

/-- **C121** for signs, unless a component is NaN. -/
theorem C121_signs (v : Vec) (i : Fin 4) (h : fl (v i) ≠ .nan) :
    fl (vecFsgn v i) = fsgn (fl (v i)) ∧ fl (vecFnsgn v i) = fnsgn (fl (v i)) ∧
    fl (vecNonzeroFsgn v i) = nonzeroFsgn (fl (v i)) ∧ fl (vecNonzeroFnsgn v i) = nonzeroFnsgn (fl (v i)) := by
  refine ⟨?_, ?_, fl_nonzeroFsgn h, fl_nonzeroFnsgn h⟩
  · refine (fl_masked _ _).trans ?_
    unfold fsgn
    exact congrArg _ (fl_nonzeroFsgn h)
  · refine (fl_masked _ _).trans ?_
    unfold fnsgn
    exact congrArg _ (fl_nonzeroFnsgn h)

/-- **C121** for the functions `…Scalar`: the component x as above. -/
theorem C121_scalar (a b c v : Vec) :
    vecAddScalar a b 0 = vecAdd a b 0 ∧ vecSubScalar a b 0 = vecSub a b 0 ∧ vecMulScalar a b 0 = vecMul a b 0 ∧
    vecDivScalar a b 0 = vecDiv a b 0 ∧ vecMinScalar a b 0 = vecMin a b 0 ∧ vecMaxScalar a b 0 = vecMax a b 0 ∧
    vecMaddScalar a b c 0 = vecMadd a b c 0 ∧ vecNmsubScalar a b c 0 = vecNmsub a b c 0 ∧
    vecFloorScalar v 0 = vecFloor v 0 ∧ vecCeilScalar v 0 = vecCeil v 0 ∧
    vecPositiveFloorScalar v 0 = vecPositiveFloor v 0 ∧ vecNegativeFloorScalar v 0 = vecNegativeFloor v 0 ∧
    vecPositiveCeilScalar v 0 = vecPositiveCeil v 0 ∧ vecNegativeCeilScalar v 0 = vecNegativeCeil v 0 ∧
    (vecFloorCeilScalar v).1 0 = (vecFloorCeil v).1 0 ∧ (vecFloorCeilScalar v).2 0 = (vecFloorCeil v).2 0 ∧
    (vecPositiveFloorCeilScalar v).1 0 = (vecPositiveFloorCeil v).1 0 ∧
    (vecPositiveFloorCeilScalar v).2 0 = (vecPositiveFloorCeil v).2 0 ∧
    (vecNegativeFloorCeilScalar v).1 0 = (vecNegativeFloorCeil v).1 0 ∧
    (vecNegativeFloorCeilScalar v).2 0 = (vecNegativeFloorCeil v).2 0 := by
  refine ⟨rfl, rfl, rfl, rfl, rfl, rfl, rfl, rfl, rfl, rfl, rfl, rfl, rfl, rfl, rfl, rfl, rfl, rfl, rfl, rfl⟩

/-- **C121** for the functions `…Scalar`: the components y, z and w are those of one argument. -/
theorem C121_others (a b c v : Vec) (i : Fin 4) (h : i ≠ 0) :
    vecAddScalar a b i = a i ∧ vecSubScalar a b i = a i ∧ vecMulScalar a b i = a i ∧ vecDivScalar a b i = a i ∧
    vecMinScalar a b i = a i ∧ vecMaxScalar a b i = a i ∧ vecMaddScalar a b c i = a i ∧ vecNmsubScalar a b c i = c i ∧
    vecFloorScalar v i = v i ∧ vecCeilScalar v i = v i ∧ vecPositiveFloorScalar v i = v i ∧
    vecNegativeFloorScalar v i = v i ∧ vecPositiveCeilScalar v i = v i ∧ vecNegativeCeilScalar v i = v i ∧
    (vecFloorCeilScalar v).1 i = v i ∧ (vecFloorCeilScalar v).2 i = v i ∧
    (vecPositiveFloorCeilScalar v).1 i = v i ∧ (vecPositiveFloorCeilScalar v).2 i = v i ∧
    (vecNegativeFloorCeilScalar v).1 i = v i ∧ (vecNegativeFloorCeilScalar v).2 i = v i := by
  have e (f : Word → Word → Word) (a b : Vec) : ss f a b i = a i := if_neg h
  have k (m w : Word) (p : Bool) : orW (andnotW (if p then BitVec.allOnes 32 else 0) w) (andW (if p then BitVec.allOnes 32 else 0) w) = w := by
    rw [select_mask]; split <;> rfl
  refine ⟨e .., e .., e .., e .., e .., e .., ?_, e .., ?_, ?_, ?_, ?_, ?_, ?_, ?_, ?_, ?_, ?_, ?_, ?_⟩
  · unfold vecMaddScalar; rw [e, e]
  · unfold vecFloorScalar; simp only [ps, e]; exact k 0 _ _
  · unfold vecCeilScalar; simp only [ps, e]; exact k 0 _ _
  · unfold vecPositiveFloorScalar; simp only [e]
  · unfold vecNegativeFloorScalar; simp only [e]
  · unfold vecPositiveCeilScalar; simp only [e]
  · unfold vecNegativeCeilScalar; simp only [e]
  · unfold vecFloorCeilScalar; simp only [e]
  · unfold vecFloorCeilScalar; simp only [e]
  · unfold vecPositiveFloorCeilScalar; simp only [e]
  · unfold vecPositiveFloorCeilScalar; simp only [e]
  · unfold vecNegativeFloorCeilScalar; simp only [e]
  · unfold vecNegativeFloorCeilScalar; simp only [e]

/-- **C121** for eight components. -/
theorem C121_eight (a b c : Exv) (i : Fin 8) :
    fl (exvMul a b i) = mul (fl (a i)) (fl (b i)) ∧ fl (exvMadd a b c i) = add (mul (fl (a i)) (fl (b i))) (fl (c i)) :=
  ⟨fl_mulW _ _, by simp [exvMadd, ps]⟩

/-- (1.5, -0.5, 8388607.5, -infinity): floor, ceiling and sign. -/
def vecSample : Vec
  | 0 => 0x3FC00000
  | 1 => 0xBF000000
  | 2 => 0x4AFFFFFF
  | 3 => 0xFF800000

example : List.map (vecFloor vecSample) [0, 1, 2, 3] = [0x3F800000, 0xBF800000, 0x4AFFFFFE, 0xFF800000] ∧
    List.map (vecCeilScalar vecSample) [0, 1, 2, 3] = [0x40000000, 0xBF000000, 0x4AFFFFFF, 0xFF800000] ∧
    List.map (vecFnsgn vecSample) [0, 1, 2, 3] = [0xBF800000, 0x3F800000, 0xBF800000, 0x3F800000] := by decide +kernel

/-! ## C122 -/

/-- The words of a block from `i` on, replaced by the first `n` components of a vector. -/
def Stored (m m' : Block) (i n : Nat) (f : Nat → Word) : Prop :=
  m'.addr = m.addr ∧ m'.data.length = m.data.length ∧
  ∀ j, m'.data[j]? = if i ≤ j ∧ j < i + n then some (f (j - i)) else m.data[j]?

/-- The components by number. -/
def comp (v : Vec) (k : Nat) : Word := v (Fin.ofNat 4 k)

theorem stored_one (m : Block) (i : Nat) (w : Word) (h : i < m.data.length) :
    Stored m { m with data := m.data.set i w } i 1 (fun _ => w) := by
  refine ⟨rfl, by simp, fun j => ?_⟩
  simp only [List.getElem?_set]
  split
  · next e => subst e; rw [if_pos (by omega)]
  · rw [if_neg (by omega)]

/-- **C122**: the functions that store write the given components, and only these; they are undefined if the memory is too
small or, for `VecStore`, not aligned. -/
theorem C122_store (v : Vec) (m : Block) (i : Nat) :
    (i + 4 ≤ m.data.length → ∃ m', vecStoreUnaligned v m i = .ok m' ∧ Stored m m' i 4 (comp v)) ∧
    (i + 4 ≤ m.data.length → (m.addr + 4 * i) % 16 = 0 → ∃ m', vecStore v m i = .ok m' ∧ Stored m m' i 4 (comp v)) ∧
    (i + 3 ≤ m.data.length → ∃ m', vecStore3D v m i = .ok m' ∧ Stored m m' i 3 (comp v)) ∧
    (i < m.data.length →
      (∃ m', vecStoreX v m i = .ok m' ∧ Stored m m' i 1 fun _ => v 0) ∧
      (∃ m', vecStoreY v m i = .ok m' ∧ Stored m m' i 1 fun _ => v 1) ∧
      (∃ m', vecStoreZ v m i = .ok m' ∧ Stored m m' i 1 fun _ => v 2) ∧
      (∃ m', vecStoreW v m i = .ok m' ∧ Stored m m' i 1 fun _ => v 3)) ∧
    (m.data.length < i + 4 → vecStoreUnaligned v m i = .ub ∧ vecStore v m i = .ub) ∧
    ((m.addr + 4 * i) % 16 ≠ 0 → vecStore v m i = .ub) ∧
    (m.data.length < i + 3 → vecStore3D v m i = .ub) ∧
    (m.data.length ≤ i → vecStoreX v m i = .ub ∧ vecStoreY v m i = .ub ∧ vecStoreZ v m i = .ub ∧ vecStoreW v m i = .ub) := by
  have four (h : i + 4 ≤ m.data.length) : ∃ m', storeu v m i = .ok m' ∧ Stored m m' i 4 (comp v) := by
    refine ⟨_, if_pos h, rfl, by simp, fun j => ?_⟩
    simp only [List.getElem?_set, List.length_set]
    by_cases h3 : i + 3 = j
    · subst h3
      rw [if_pos rfl, if_pos (by omega), if_pos (by omega), show i + 3 - i = 3 by omega]; rfl
    rw [if_neg h3]
    by_cases h2 : i + 2 = j
    · subst h2
      rw [if_pos rfl, if_pos (by omega), if_pos (by omega), show i + 2 - i = 2 by omega]; rfl
    rw [if_neg h2]
    by_cases h1 : i + 1 = j
    · subst h1
      rw [if_pos rfl, if_pos (by omega), if_pos (by omega), show i + 1 - i = 1 by omega]; rfl
    rw [if_neg h1]
    by_cases h0 : i = j
    · subst h0
      rw [if_pos rfl, if_pos (by omega), if_pos (by omega), Nat.sub_self]; rfl
    rw [if_neg h0, if_neg (by omega)]
  refine ⟨four, fun h h' => ?_, fun h => ?_, fun h => ?_, fun h => ?_, fun h => if_neg h, fun h => ?_, fun h => ?_⟩
  · unfold vecStore; rw [if_pos (show aligned m i from h')]; exact four h
  · unfold vecStore3D storess
    rw [if_pos (by omega)]
    simp only [Out.ok_bind, List.length_set]
    rw [if_pos (by omega)]
    simp only [Out.ok_bind, List.length_set]
    rw [if_pos (by omega)]
    refine ⟨_, rfl, rfl, by simp, fun j => ?_⟩
    simp only [List.getElem?_set, List.length_set]
    by_cases h2 : i + 2 = j
    · subst h2
      rw [if_pos rfl, if_pos (by omega), if_pos (by omega), show i + 2 - i = 2 by omega]; rfl
    rw [if_neg h2]
    by_cases h1 : i + 1 = j
    · subst h1
      rw [if_pos rfl, if_pos (by omega), if_pos (by omega), show i + 1 - i = 1 by omega]; rfl
    rw [if_neg h1]
    by_cases h0 : i = j
    · subst h0
      rw [if_pos rfl, if_pos (by omega), if_pos (by omega), Nat.sub_self]; rfl
    rw [if_neg h0, if_neg (by omega)]
  · exact ⟨⟨_, if_pos h, stored_one m i _ h⟩, ⟨_, if_pos h, stored_one m i _ h⟩, ⟨_, if_pos h, stored_one m i _ h⟩,
      ⟨_, if_pos h, stored_one m i _ h⟩⟩
  · have : storeu v m i = .ub := if_neg (by omega)
    refine ⟨this, ?_⟩
    unfold vecStore
    split
    · exact this
    · rfl
  · unfold vecStore3D storess
    by_cases h0 : i < m.data.length
    · rw [if_pos h0]
      simp only [Out.ok_bind, List.length_set]
      by_cases h1 : i + 1 < m.data.length
      · rw [if_pos h1]
        simp only [Out.ok_bind, List.length_set]
        rw [if_neg (by omega)]
      · rw [if_neg h1]; rfl
    · rw [if_neg h0]; rfl
  · exact ⟨if_neg (by omega), if_neg (by omega), if_neg (by omega), if_neg (by omega)⟩

/-- **C122**: the functions that load. -/
theorem C122_load (m : Block) (i : Nat) :
    (i + 4 ≤ m.data.length → ∃ v, vecLoadUnaligned m i = .ok v ∧ ((m.addr + 4 * i) % 16 = 0 → vecLoad m i = .ok v) ∧
      ∀ k : Fin 4, m.data[i + k.val]? = some (v k)) ∧
    (∀ w, m.data[i]? = some w → (∃ v, vecLoadScalar m i = .ok v ∧ v 0 = w ∧ v 1 = 0 ∧ v 2 = 0 ∧ v 3 = 0) ∧
      vecLoadSmearScalar m i = .ok fun _ => w) ∧
    (m.data.length < i + 4 → vecLoadUnaligned m i = .ub ∧ vecLoad m i = .ub) ∧
    ((m.addr + 4 * i) % 16 ≠ 0 → vecLoad m i = .ub) ∧
    (m.data.length ≤ i → vecLoadScalar m i = .ub ∧ vecLoadSmearScalar m i = .ub) := by
  refine ⟨fun h => ?_, fun w h => ?_, fun h => ?_, fun h => if_neg h, fun h => ?_⟩
  · refine ⟨_, if_pos h, fun h' => ?_, fun k => ?_⟩
    · unfold vecLoad; rw [if_pos (show aligned m i from h')]; exact if_pos h
    · have : i + k.val < m.data.length := by omega
      rw [List.getElem?_eq_getElem this]; rfl
  · have e : loadss m i = .ok fun k => if k = 0 then w else 0 := by unfold loadss; rw [h]
    refine ⟨⟨_, e, rfl, rfl, rfl, rfl⟩, ?_⟩
    unfold vecLoadSmearScalar
    rw [e, Out.ok_bind]
    congr 1
    funext k
    match k with
    | 0 => rfl
    | 1 => rfl
    | 2 => rfl
    | 3 => rfl
  · have : loadu m i = .ub := if_neg (by omega)
    refine ⟨this, ?_⟩
    unfold vecLoad
    split
    · exact this
    · rfl
  · have e : loadss m i = .ub := by unfold loadss; rw [List.getElem?_eq_none h]
    exact ⟨e, by unfold vecLoadSmearScalar; rw [e]; rfl⟩

/-- **C122**: what is stored is loaded. -/
theorem C122_round_trip (v : Vec) (m m' : Block) (i : Nat) :
    (vecStore v m i = .ok m' → vecLoad m' i = .ok v) ∧ (vecStoreUnaligned v m i = .ok m' → vecLoadUnaligned m' i = .ok v) := by
  have key (h : vecStoreUnaligned v m i = .ok m') : vecLoadUnaligned m' i = .ok v ∧ m'.addr = m.addr := by
    by_cases hl : i + 4 ≤ m.data.length
    · obtain ⟨m2, h1, h2, h3, h4⟩ := (C122_store v m i).1 hl
      rw [h] at h1
      cases h1
      obtain ⟨u, u1, -, u3⟩ := (C122_load m' i).1 (by omega)
      refine ⟨?_, h2⟩
      rw [u1]
      congr 1
      funext k
      have := u3 k
      rw [h4, if_pos (by omega), Nat.add_sub_cancel_left] at this
      injection this with this
      rw [← this]
      unfold comp
      congr 1
      ext
      simp
    · rw [((C122_store v m i).2.2.2.2.1 (by omega)).1] at h
      cases h
  refine ⟨fun h => ?_, fun h => (key h).1⟩
  unfold vecStore at h
  split at h
  · next ha =>
    obtain ⟨k1, k2⟩ := key h
    unfold vecLoad
    rw [if_pos (by unfold aligned at *; rw [k2]; exact ha)]
    exact k1
  · cases h

/-- `VecStore3D` leaves the fourth float; at the end of a block it needs only three. -/
example : vecStore3D vecSample ⟨8, [1, 2, 3, 4]⟩ 0 = .ok ⟨8, [0x3FC00000, 0xBF000000, 0x4AFFFFFF, 4]⟩ ∧
    vecStore3D vecSample ⟨8, [1, 2, 3, 4]⟩ 1 = .ok ⟨8, [1, 0x3FC00000, 0xBF000000, 0x4AFFFFFF]⟩ ∧
    vecStore vecSample ⟨8, [1, 2, 3, 4]⟩ 0 = .ub := by decide +kernel

/-- **C122**: components are repeated. -/
theorem C122_smear (v : Vec) (e : Exv) (i : Fin 4) (j : Fin 8) :
    vecSmearX v i = v 0 ∧ vecSmearY v i = v 1 ∧ vecSmearZ v i = v 2 ∧ vecSmearW v i = v 3 ∧
    (exvSmearX e j = if j < 4 then e 0 else e 4) ∧ (exvSmearY e j = if j < 4 then e 1 else e 5) ∧
    (exvSmearZ e j = if j < 4 then e 2 else e 6) ∧ (exvSmearW e j = if j < 4 then e 3 else e 7) ∧
    lowHalf (exvSmearVecLo e) = lowHalf e ∧ (exvSmearVecLo (exvFloat v v) = exvFloat v v) ∧
    (∀ a b : Vec, exvSmearVecLo (exvFloat a b) = exvFloat a a ∧ exvSmearVecHi (exvFloat a b) = exvFloat b b) := by
  have four (f : Fin 4 → Word) (w : Word) (h0 : f 0 = w) (h1 : f 1 = w) (h2 : f 2 = w) (h3 : f 3 = w) : f i = w := by
    match i with
    | 0 => exact h0
    | 1 => exact h1
    | 2 => exact h2
    | 3 => exact h3
  have all (P : Fin 8 → Prop) (h : P 0 ∧ P 1 ∧ P 2 ∧ P 3 ∧ P 4 ∧ P 5 ∧ P 6 ∧ P 7) (j : Fin 8) : P j := by
    obtain ⟨h0, h1, h2, h3, h4, h5, h6, h7⟩ := h
    match j with
    | 0 => exact h0
    | 1 => exact h1
    | 2 => exact h2
    | 3 => exact h3
    | 4 => exact h4
    | 5 => exact h5
    | 6 => exact h6
    | 7 => exact h7
  refine ⟨four _ _ rfl rfl rfl rfl, four _ _ rfl rfl rfl rfl, four _ _ rfl rfl rfl rfl, four _ _ rfl rfl rfl rfl,
    all (fun j => exvSmearX e j = if j < 4 then e 0 else e 4) ⟨rfl, rfl, rfl, rfl, rfl, rfl, rfl, rfl⟩ j,
    all (fun j => exvSmearY e j = if j < 4 then e 1 else e 5) ⟨rfl, rfl, rfl, rfl, rfl, rfl, rfl, rfl⟩ j,
    all (fun j => exvSmearZ e j = if j < 4 then e 2 else e 6) ⟨rfl, rfl, rfl, rfl, rfl, rfl, rfl, rfl⟩ j,
    all (fun j => exvSmearW e j = if j < 4 then e 3 else e 7) ⟨rfl, rfl, rfl, rfl, rfl, rfl, rfl, rfl⟩ j, ?_, ?_, fun a b => ⟨?_, ?_⟩⟩
  · funext k
    match k with
    | 0 => rfl
    | 1 => rfl
    | 2 => rfl
    | 3 => rfl
  · funext k; exact all (fun k => exvSmearVecLo (exvFloat v v) k = exvFloat v v k) ⟨rfl, rfl, rfl, rfl, rfl, rfl, rfl, rfl⟩ k
  · funext k; exact all (fun k => exvSmearVecLo (exvFloat a b) k = exvFloat a a k) ⟨rfl, rfl, rfl, rfl, rfl, rfl, rfl, rfl⟩ k
  · funext k; exact all (fun k => exvSmearVecHi (exvFloat a b) k = exvFloat b b k) ⟨rfl, rfl, rfl, rfl, rfl, rfl, rfl, rfl⟩ k

/-! ## C123 -/

/-- **C123**: a mask made by a comparison selects, component by component. -/
theorem C123_select (a b x y : Vec) (i : Fin 4) :
    vecSelect a b (vecMaskCmplt x y) i = (if lt (fl (x i)) (fl (y i)) then b i else a i) ∧
    vecSelect a b (vecMaskCmpgt x y) i = (if lt (fl (y i)) (fl (x i)) then b i else a i) ∧
    vecSelect a b (vecMaskCmpeq x y) i = (if eq (fl (x i)) (fl (y i)) then b i else a i) ∧
    vecAnd a (vecMaskCmplt x y) i = (if lt (fl (x i)) (fl (y i)) then a i else 0) ∧
    vecAndc a (vecMaskCmplt x y) i = (if lt (fl (x i)) (fl (y i)) then 0 else a i) := by
  refine ⟨select_mask _ _ _, select_mask _ _ _, select_mask _ _ _, and_ltW _ _ _, ?_⟩
  show andnotW (ltW (x i) (y i)) (a i) = _
  unfold ltW andnotW
  split
  · rw [BitVec.not_allOnes]; exact BitVec.zero_and
  · rw [show ~~~(0 : Word) = BitVec.allOnes 32 by decide, BitVec.allOnes_and]

/-- **C123**: comparisons in terms of the order of floats; w is not looked at. -/
theorem C123_compare (a b : Vec) :
    (vecCmpltScalar a b = true ↔ Le (fl (a 0)) (fl (b 0)) ∧ ¬ Le (fl (b 0)) (fl (a 0))) ∧
    (vecCmpgtScalar a b = true ↔ Le (fl (b 0)) (fl (a 0)) ∧ ¬ Le (fl (a 0)) (fl (b 0))) ∧
    (vecCmpltAny3D a b = true ↔ ∃ i : Fin 4, i ≠ 3 ∧ Le (fl (a i)) (fl (b i)) ∧ ¬ Le (fl (b i)) (fl (a i))) ∧
    (vecCmpgtAny3D a b = true ↔ ∃ i : Fin 4, i ≠ 3 ∧ Le (fl (b i)) (fl (a i)) ∧ ¬ Le (fl (a i)) (fl (b i))) := by
  have any (P : Fin 4 → Bool) : (P 0 || P 1 || P 2) = true ↔ ∃ i : Fin 4, i ≠ 3 ∧ P i = true := by
    constructor
    · intro h
      rcases (Bool.or_eq_true _ _).mp h with h | h
      · rcases (Bool.or_eq_true _ _).mp h with h | h
        · exact ⟨0, by decide, h⟩
        · exact ⟨1, by decide, h⟩
      · exact ⟨2, by decide, h⟩
    · rintro ⟨i, h, hi⟩
      match i, h with
      | 0, _ => rw [hi]; rfl
      | 1, _ => rw [hi, Bool.or_true]; rfl
      | 2, _ => rw [hi, Bool.or_true]
      | 3, h => exact absurd rfl h
  refine ⟨lt_iff _ _, lt_iff _ _, ?_, ?_⟩
  · refine (any fun i => lt (fl (a i)) (fl (b i))).trans ?_
    simp only [lt_iff]
  · refine (any fun i => lt (fl (b i)) (fl (a i))).trans ?_
    simp only [lt_iff]

/-- NaN in one component, a smaller number in w only. -/
example : vecCmpltAny3D vecSample (fun i => if i = 0 then 0x7FC00000 else vecSample i) = false ∧
    vecCmpltAny3D vecSample (fun i => if i = 3 then 0x3F800000 else vecSample i) = false ∧
    vecCmpltAny3D vecSample (fun i => if i = 1 then 0x00000000 else vecSample i) = true := by decide +kernel

end Verif.Props
