import Verif.Lemmas.Floor

/-!
# Properties of the functions of floats (C91 to C95)
-/

namespace Verif.Props

open Verif Verif.B32 Verif.MathFns Verif.Spec.F32

/-! ## C91 -/

/-- **C91**: `Floor` is the greatest integer that is not greater than the argument and `Ceil` the least integer that is not
less, for all finite floats, with and without SIMD. Infinities and NaN are returned as they are. -/
theorem C91_floor :
    (∀ v, Finite v → IsFloor v (floor v) ∧ IsCeil v (ceil v) ∧ IsFloor v (floorPlain v) ∧ IsCeil v (ceilPlain v)) ∧
    (∀ v, (∃ s, v = .inf s) ∨ v = .nan → floor v = v ∧ ceil v = v ∧ floorPlain v = v ∧ ceilPlain v = v) := by
  refine ⟨fun v hv => ?_, fun v hv => ?_⟩
  · obtain ⟨f1, f2⟩ := fabs_spec hv
    have nb := near_both hv
    have big := large_int hv
    refine ⟨?_, ?_, ?_, ?_⟩
    · unfold floor
      rw [lt_spec finite_two23 f1, val_two23, f2]
      split
      · next h => exact (big (by simp at h; omega)).1
      · next h => exact down_floor hv (nb (by simp at h; omega))
    · unfold ceil
      rw [lt_spec finite_two23 f1, val_two23, f2]
      split
      · next h => exact (big (by simp at h; omega)).2
      · next h => exact up_ceil hv (nb (by simp at h; omega))
    · unfold floorPlain
      rw [lt_spec f1 finite_two23, val_two23, f2]
      split
      · next h =>
        have n := nb (by simp at h; omega)
        have hd := down_floor hv n
        unfold down at hd
        split
        · next h => rwa [if_pos h] at hd
        · next h => rw [if_neg h] at hd; exact floor_same n hd
      · next h => exact (big (by simp at h; omega)).1
    · unfold ceilPlain
      rw [lt_spec f1 finite_two23, val_two23, f2]
      split
      · next h =>
        have n := nb (by simp at h; omega)
        have hd := up_ceil hv n
        unfold up at hd
        split
        · next h => rwa [if_pos h] at hd
        · next h => rw [if_neg h] at hd; exact ceil_same n hd
      · next h => exact (big (by simp at h; omega)).2
  · rcases hv with ⟨s, rfl⟩ | rfl
    · cases s <;> decide
    · decide

/-- -2.5 and 8388607.5. -/
example : toBits (floor (ofBits 0xC0200000)) = 0xC0400000 ∧ toBits (ceil (ofBits 0xC0200000)) = 0xC0000000 ∧
    toBits (floor (ofBits 0x4AFFFFFF)) = 0x4AFFFFFE ∧ toBits (ceil (ofBits 0x4AFFFFFF)) = 0x4B000000 := by decide +kernel

/-! ## C92 -/

/-- **C92**: on nonnegative numbers `PositiveFloor` and `PositiveCeil`, and on the others `NegativeFloor` and `NegativeCeil`,
are floor and ceiling. -/
def C92_statement : Prop := ∀ v, Finite v →
  (0 ≤ val v → IsFloor v (positiveFloor v) ∧ IsCeil v (positiveCeil v)) ∧
  (val v ≤ 0 → IsFloor v (negativeFloor v) ∧ IsCeil v (negativeCeil v))

/-- **C92** up to `2^23`. Missing are larger numbers (which are integers themselves). -/
theorem C92_signed_partial (v : Flt) (hv : Finite v) (h : (val v).natAbs ≤ 2 ^ 23 * unit) :
    (0 ≤ val v → IsFloor v (positiveFloor v) ∧ IsCeil v (positiveCeil v)) ∧
    (val v ≤ 0 → IsFloor v (negativeFloor v) ∧ IsCeil v (negativeCeil v)) := by
  rw [← T_unit] at h
  constructor
  · intro h0
    have n := (near_positive hv h0 (by omega)).1
    exact ⟨down_floor hv n, up_ceil hv n⟩
  · intro h0
    have n := (near_negative hv (by omega) h0).1
    exact ⟨down_floor hv n, up_ceil hv n⟩

/-- **C92 is violated**: `PositiveFloor(8388609)` is 8388608. -/
theorem C92_violated : ¬ C92_statement := by
  intro h
  obtain ⟨-, n, h1, h2, h3⟩ := ((h (.fin false (2 ^ 23 + 1) 149) ⟨_, _, _, rfl, by decide, by decide, .inr (by decide)⟩).1
    (by decide)).1
  have e : val (positiveFloor (.fin false (2 ^ 23 + 1) 149)) = (2 ^ 23 : Nat) * unit := by decide +kernel
  have e' : val (.fin false (2 ^ 23 + 1) 149) = ((2 ^ 23 : Nat) + 1) * unit := by decide +kernel
  rw [e'] at h3
  rw [e] at h1
  have hu : 0 < unit := by decide +kernel
  rw [Int.add_mul, Int.add_mul, ← h1] at h3
  omega

/-- 2.5, 8388607.5 and -2.5; `PositiveCeil(33554430)` is 33554432. -/
example : toBits (positiveFloor (ofBits 0x40200000)) = 0x40000000 ∧ toBits (positiveCeil (ofBits 0x40200000)) = 0x40400000 ∧
    toBits (positiveFloor (ofBits 0x4AFFFFFF)) = 0x4AFFFFFE ∧ toBits (negativeFloor (ofBits 0xC0200000)) = 0xC0400000 ∧
    toBits (negativeCeil (ofBits 0xC0200000)) = 0xC0000000 ∧
    toBits (positiveCeil (ofBits 0x4BFFFFFF)) = 0x4C000000 := by decide +kernel

/-! ## C93 -/

/-- **C93**: `FloorCeil` stores floor and ceiling; so do `PositiveFloorCeil` for nonnegative numbers and `NegativeFloorCeil`
for the others. -/
def C93_statement : Prop := ∀ v, Finite v →
  (IsFloor v (floorCeil v).1 ∧ IsCeil v (floorCeil v).2) ∧
  (0 ≤ val v → IsFloor v (positiveFloorCeil v).1 ∧ IsCeil v (positiveFloorCeil v).2) ∧
  (val v ≤ 0 → IsFloor v (negativeFloorCeil v).1 ∧ IsCeil v (negativeFloorCeil v).2)

/-- **C93** up to `2^23`. Missing are larger numbers. -/
theorem C93_both_partial (v : Flt) (hv : Finite v) (h : (val v).natAbs ≤ 2 ^ 23 * unit) :
    (IsFloor v (floorCeil v).1 ∧ IsCeil v (floorCeil v).2) ∧
    (0 ≤ val v → IsFloor v (positiveFloorCeil v).1 ∧ IsCeil v (positiveFloorCeil v).2) ∧
    (val v ≤ 0 → IsFloor v (negativeFloorCeil v).1 ∧ IsCeil v (negativeFloorCeil v).2) := by
  have n := near_both hv (by rw [T_unit]; exact h)
  exact ⟨⟨down_floor hv n, up_ceil hv n⟩, C92_signed_partial v hv h⟩

/-- **C93 is violated**: `FloorCeil(8388609)` stores 8388608 as the floor, which `Floor` (C91) does not. -/
theorem C93_violated : ¬ C93_statement := by
  intro h
  obtain ⟨-, n, h1, h2, h3⟩ := (h (.fin false (2 ^ 23 + 1) 149) ⟨_, _, _, rfl, by decide, by decide, .inr (by decide)⟩).1.1
  have e : val (floorCeil (.fin false (2 ^ 23 + 1) 149)).1 = (2 ^ 23 : Nat) * unit := by decide +kernel
  have e' : val (.fin false (2 ^ 23 + 1) 149) = ((2 ^ 23 : Nat) + 1) * unit := by decide +kernel
  rw [e'] at h3
  rw [e] at h1
  have hu : 0 < unit := by decide +kernel
  rw [Int.add_mul, Int.add_mul, ← h1] at h3
  omega

example : toBits (floorCeil (ofBits 0xC0200000)).1 = 0xC0400000 ∧ toBits (floorCeil (ofBits 0xC0200000)).2 = 0xC0000000 ∧
    toBits (floorCeil (ofBits 0x4B000001)).1 = 0x4B000000 ∧ toBits (floor (ofBits 0x4B000001)) = 0x4B000001 := by decide +kernel

/-! ## C94 -/

/-- **C94**: `Frac(x)` is `x - Floor(x)`: nonnegative, less than one, and `x` less an integer. -/
def C94_statement : Prop := ∀ v, Finite v →
  Finite (frac v) ∧ 0 ≤ val (frac v) ∧ val (frac v) < unit ∧ (unit : Int) ∣ val v - val (frac v)

/-- **C94** for nonnegative numbers; `PositiveFrac` is the same up to `2^23`. Missing are negative numbers, whose fraction may be
rounded. -/
theorem C94_frac_partial (v : Flt) (hv : Finite v) (h0 : 0 ≤ val v) :
    (Finite (frac v) ∧ 0 ≤ val (frac v) ∧ val (frac v) < unit ∧ (unit : Int) ∣ val v - val (frac v)) ∧
    (val v ≤ 2 ^ 23 * unit →
      Finite (positiveFrac v) ∧ 0 ≤ val (positiveFrac v) ∧ val (positiveFrac v) < unit ∧
        (unit : Int) ∣ val v - val (positiveFrac v)) := by
  refine ⟨frac_exact hv h0 (C91_floor.1 v hv).1, fun h => frac_exact hv h0 ?_⟩
  exact ((C92_signed_partial v hv (by omega)).1 h0).1

/-- For negative numbers the result is between zero and one, and rounded. -/
theorem C94_negative_partial (v : Flt) (hv : Finite v) (h0 : val v < 0) :
    Finite (frac v) ∧ 0 ≤ val (frac v) ∧ val (frac v) ≤ unit ∧
      ∃ n : Int, (unit : Int) ∣ val v - n ∧ 0 ≤ n ∧ n < unit ∧ 2 ^ 25 * (val (frac v) - n).natAbs ≤ unit := by
  exact frac_rounded hv (C91_floor.1 v hv).1

/-- `NegativeFrac` is the same from `-2^23` to zero. -/
theorem C94_negative_frac_partial (v : Flt) (hv : Finite v) (h0 : val v ≤ 0) (h1 : -(2 ^ 23 * unit) ≤ val v) :
    Finite (negativeFrac v) ∧ 0 ≤ val (negativeFrac v) ∧ val (negativeFrac v) ≤ unit ∧
      ∃ n : Int, (unit : Int) ∣ val v - n ∧ 0 ≤ n ∧ n < unit ∧ 2 ^ 25 * (val (negativeFrac v) - n).natAbs ≤ unit := by
  exact frac_rounded hv ((C92_signed_partial v hv (by omega)).2 h0).1

/-- **C94 is violated**: `Frac(-1.0e-20F)` is one. -/
theorem C94_violated : ¬ C94_statement := by
  intro h
  obtain ⟨-, -, h1, -⟩ := h (ofBits 0x9E3CE508) ⟨true, 12379400, 59, by decide, by decide, by decide, .inr (by decide)⟩
  revert h1
  decide +kernel

/-- 2.75 and -2.75. -/
example : toBits (frac (ofBits 0x40300000)) = 0x3F400000 ∧ toBits (frac (ofBits 0xC0300000)) = 0x3E800000 := by decide +kernel

/-! ## C95 -/

/-- **C95**: `Fmin`, `Fmax`, `FminZero`, `FmaxZero`, `Clamp` and `Saturate` on floats that are not NaN (infinities and both
zeros included): the results are among the arguments, and extreme. The functions of three and four arguments likewise.
`Saturate` of NaN is zero. -/
theorem C95_extreme (x y z w : Flt) (hx : x ≠ .nan) (hy : y ≠ .nan) (hz : z ≠ .nan) (hw : w ≠ .nan) :
    (fmin x y ∈ [x, y] ∧ ∀ a ∈ [x, y], Le (fmin x y) a) ∧ (fmax x y ∈ [x, y] ∧ ∀ a ∈ [x, y], Le a (fmax x y)) ∧
    (fmin3 x y z ∈ [x, y, z] ∧ ∀ a ∈ [x, y, z], Le (fmin3 x y z) a) ∧
    (fmax3 x y z ∈ [x, y, z] ∧ ∀ a ∈ [x, y, z], Le a (fmax3 x y z)) ∧
    (fmin4 x y z w ∈ [x, y, z, w] ∧ ∀ a ∈ [x, y, z, w], Le (fmin4 x y z w) a) ∧
    (fmax4 x y z w ∈ [x, y, z, w] ∧ ∀ a ∈ [x, y, z, w], Le a (fmax4 x y z w)) ∧
    (fminZero x ∈ [x, zero] ∧ Le (fminZero x) x ∧ Le (fminZero x) zero) ∧
    (fmaxZero x ∈ [x, zero] ∧ Le x (fmaxZero x) ∧ Le zero (fmaxZero x)) ∧
    (Le y z → Le y (clamp x y z) ∧ Le (clamp x y z) z ∧ (Le y x → Le x z → Same (clamp x y z) x) ∧
      (Le x y → Same (clamp x y z) y) ∧ (Le z x → Same (clamp x y z) z)) ∧
    saturate x = clamp x zero one ∧ saturate .nan = zero := by
  have hz0 : zero ≠ .nan := by decide
  have n1 := fmin_spec hx hy
  have n2 := fmax_spec hx hy
  have k1 : fmin x y ≠ .nan := ne_of_mem n1.1 (by simp [hx.symm, hy.symm])
  have k2 : fmax x y ≠ .nan := ne_of_mem n2.1 (by simp [hx.symm, hy.symm])
  have n3 := fmin_spec k1 hz
  have n4 := fmax_spec k2 hz
  have n5 := fmin_spec hz hw
  have n6 := fmax_spec hz hw
  have k5 : fmin z w ≠ .nan := ne_of_mem n5.1 (by simp [hz.symm, hw.symm])
  have k6 : fmax z w ≠ .nan := ne_of_mem n6.1 (by simp [hz.symm, hw.symm])
  have n7 := fmin_spec k1 k5
  have n8 := fmax_spec k2 k6
  have n9 := fmin_spec hx hz0
  have n10 := fmax_spec hx hz0
  refine ⟨n1, n2, ?_, ?_, ?_, ?_, ⟨n9.1, n9.2 _ (by simp), n9.2 _ (by simp)⟩,
    ⟨n10.1, n10.2 _ (by simp), n10.2 _ (by simp)⟩, ?_, rfl, by decide⟩
  · refine ⟨?_, ?_⟩
    · exact mem3 (n3.1) (n1.1)
    · intro a ha
      simp only [List.mem_cons, List.not_mem_nil, or_false] at ha
      have b := n3.2 (fmin x y) (by simp)
      rcases ha with rfl | rfl | rfl
      · exact Le.trans b (n1.2 _ (by simp))
      · exact Le.trans b (n1.2 _ (by simp))
      · exact n3.2 _ (by simp)
  · refine ⟨?_, ?_⟩
    · exact mem3 (n4.1) (n2.1)
    · intro a ha
      simp only [List.mem_cons, List.not_mem_nil, or_false] at ha
      have b := n4.2 (fmax x y) (by simp)
      rcases ha with rfl | rfl | rfl
      · exact Le.trans (n2.2 _ (by simp)) b
      · exact Le.trans (n2.2 _ (by simp)) b
      · exact n4.2 _ (by simp)
  · refine ⟨?_, ?_⟩
    · exact mem4 (n7.1) (n1.1) (n5.1)
    · intro a ha
      simp only [List.mem_cons, List.not_mem_nil, or_false] at ha
      have b := n7.2 (fmin x y) (by simp)
      have c := n7.2 (fmin z w) (by simp)
      rcases ha with rfl | rfl | rfl | rfl
      · exact Le.trans b (n1.2 _ (by simp))
      · exact Le.trans b (n1.2 _ (by simp))
      · exact Le.trans c (n5.2 _ (by simp))
      · exact Le.trans c (n5.2 _ (by simp))
  · refine ⟨?_, ?_⟩
    · exact mem4 (n8.1) (n2.1) (n6.1)
    · intro a ha
      simp only [List.mem_cons, List.not_mem_nil, or_false] at ha
      have b := n8.2 (fmax x y) (by simp)
      have c := n8.2 (fmax z w) (by simp)
      rcases ha with rfl | rfl | rfl | rfl
      · exact Le.trans (n2.2 _ (by simp)) b
      · exact Le.trans (n2.2 _ (by simp)) b
      · exact Le.trans (n6.2 _ (by simp)) c
      · exact Le.trans (n6.2 _ (by simp)) c
  · intro hyz
    have m := fmin_spec k2 hz
    have m1 := m.2 _ (List.mem_cons_self ..)
    have m2 := m.2 z (by simp)
    have p1 := n2.2 x (by simp)
    have p2 := n2.2 y (by simp)
    have q1 := m.1
    have q2 := n2.1
    simp only [List.mem_cons, List.not_mem_nil, or_false] at q1 q2
    show Le y (fmin (fmax x y) z) ∧ Le (fmin (fmax x y) z) z ∧ (_ → _ → Same (fmin (fmax x y) z) x) ∧
      (_ → Same (fmin (fmax x y) z) y) ∧ (_ → Same (fmin (fmax x y) z) z)
    have low : Le y (fmin (fmax x y) z) := by
      rcases q1 with e | e <;> rw [e] <;> assumption
    refine ⟨low, m2, ?_, ?_, ?_⟩
    · intro h1 h2
      refine ⟨?_, ?_⟩
      · refine Le.trans m1 ?_
        rcases q2 with e | e <;> rw [e]
        · exact Le.refl hx
        · exact h1
      · rcases q1 with e | e <;> rw [e]
        · exact p1
        · exact h2
    · intro h1
      refine ⟨Le.trans m1 ?_, low⟩
      rcases q2 with e | e <;> rw [e]
      · exact h1
      · exact Le.refl hy
    · intro h1
      refine ⟨m2, ?_⟩
      rcases q1 with e | e <;> rw [e]
      · exact Le.trans h1 p1
      · exact Le.refl hz

/-- With a NaN the second argument is returned, so `Fmin` and `Fmax` are not symmetric. -/
theorem C95_nan (x y : Flt) (h : x = .nan ∨ y = .nan) : fmin x y = y ∧ fmax x y = y := by
  unfold fmin fmax
  rcases h with rfl | rfl
  · cases y <;> exact ⟨rfl, rfl⟩
  · cases x <;> exact ⟨rfl, rfl⟩

/-- The functions of signs. -/
theorem C95_signs (x : Flt) (hx : Finite x) :
    val (fabs x) = (val x).natAbs ∧ val (fnabs x) = -(val x).natAbs ∧ val (fsgn x) = (val x).sign * unit ∧
    val (fnsgn x) = -((val x).sign * unit) ∧ (val x ≠ 0 → val (nonzeroFsgn x) = (val x).sign * unit ∧
      val (nonzeroFnsgn x) = -((val x).sign * unit)) := by
  obtain ⟨s, m, q, rfl, hc⟩ := hx
  have hs : val (.fin s m q) ≠ 0 → val (withSign (.fin s m q)) = (val (.fin s m q)).sign * unit := by
    intro h
    have e1 : val (withSign (.fin s m q)) = if s then -(unit : Int) else unit := by
      change val (.fin s (2 ^ 23) 126) = _
      cases s <;> decide +kernel
    rw [e1]
    cases s
    · have : 0 < val (.fin false m q) := by simp only [val, Bool.false_eq_true, if_false] at *; omega
      rw [Int.sign_eq_one_of_pos this]; simp
    · have : val (.fin true m q) < 0 := by simp only [val, if_true] at *; omega
      rw [Int.sign_eq_neg_one_of_neg this]; simp
  have he : eq (.fin s m q) zero = decide (val (.fin s m q) = 0) := by
    unfold eq
    rw [lt_spec ⟨s, m, q, rfl, hc⟩ finite_zero, lt_spec finite_zero ⟨s, m, q, rfl, hc⟩, val_zero]
    by_cases h : val (.fin s m q) = 0
    · rw [h]; rfl
    · rcases Int.lt_or_gt_of_ne h with h' | h'
      · simp [h, h']
      · simp [h, h', Int.not_lt.2 (Int.le_of_lt h')]
  refine ⟨(fabs_spec ⟨s, m, q, rfl, hc⟩).2, ?_, ?_, ?_, ?_⟩
  · rw [val_natAbs]; rfl
  · unfold fsgn
    rw [he]
    by_cases h : val (.fin s m q) = 0
    · rw [if_pos (by simpa using h), h, val_zero]; simp
    · rw [if_neg (by simpa using h)]; exact hs h
  · unfold fnsgn
    rw [he]
    by_cases h : val (.fin s m q) = 0
    · rw [if_pos (by simpa using h), h, val_zero]; simp
    · rw [if_neg (by simpa using h), val_neg, hs h]
  · intro h
    exact ⟨hs h, by unfold nonzeroFnsgn; rw [val_neg, hs h]⟩

/-- The functions of signs on infinities and NaN. -/
theorem C95_infinite (s : Bool) :
    fabs (.inf s) = .inf false ∧ fnabs (.inf s) = .inf true ∧ fabs .nan = .nan ∧ fnabs .nan = .nan ∧
    (∀ f ∈ [fsgn, nonzeroFsgn], val (f (.inf s)) = if s then -(unit : Int) else unit) ∧
    (∀ f ∈ [fnsgn, nonzeroFnsgn], val (f (.inf s)) = if s then (unit : Int) else -unit) ∧
    (∀ f ∈ [fsgn, nonzeroFsgn, fnsgn, nonzeroFnsgn], (val (f .nan)).natAbs = unit) := by
  cases s <;> decide +kernel

example : fmin (ofBits 0xC0000000) (.inf true) = .inf true ∧ toBits (clamp (ofBits 0x40A00000) (ofBits 0x3F800000) (ofBits 0x40400000)) = 0x40400000 ∧
    toBits (saturate (ofBits 0xC0000000)) = 0 ∧ toBits (fsgn (ofBits 0xC0000000)) = 0xBF800000 ∧ toBits (fsgn (ofBits 0x80000000)) = 0 := by decide

end Verif.Props
