import Verif.Model.SimdSse4
import Verif.Props.Arctan
import Verif.Props.Neon

/-!
# Vectors of floats on SSE4 (C158, C159)
-/

namespace Verif.Props

open Verif Verif.B32 Verif.MathFns Verif.Spec.F32 Verif.Simd

/-! ## C158 -/

theorem roundTo_valid {up : Bool} {x : Flt} (h : Valid x) : Valid (Sse4.roundTo up x) := by
  rcases h with ⟨s, m, q, rfl, -⟩ | ⟨s, rfl⟩ | rfl
  · exact round_valid _ Nat.one_pos
  · exact inf_valid _
  · exact nan_valid

/-- An instruction that rounds is exact. -/
theorem roundTo_spec (up : Bool) {x : Flt} (hx : Spec.F32.Finite x) :
    (up = false → IsFloor x (Sse4.roundTo up x)) ∧ (up = true → IsCeil x (Sse4.roundTo up x)) := by
  obtain ⟨s, m, q, rfl, hc⟩ := hx
  have hu : 0 < unit := Nat.two_pow_pos _
  obtain ⟨n, hn⟩ : ∃ n, n = m * 2 ^ q / 2 ^ 149 := ⟨_, rfl⟩
  obtain ⟨N, hN⟩ : ∃ N, N = if m * 2 ^ q % 2 ^ 149 ≠ 0 ∧ s ≠ up then n + 1 else n := ⟨_, rfl⟩
  have e : Sse4.roundTo up (.fin s m q) = B32.round s (N * 2 ^ 149) 1 := by rw [hN, hn]; rfl
  have dm := Nat.div_add_mod (m * 2 ^ q) unit
  have ml := Nat.mod_lt (m * 2 ^ q) hu
  have ex : Spec.F32.Finite (B32.round s (N * 2 ^ 149) 1) ∧ val (B32.round s (N * 2 ^ 149) 1) = if s then -((N * unit : Nat) : Int) else ((N * unit : Nat) : Int) := by
    by_cases hq : 149 ≤ q
    · have r0 : m * 2 ^ q % 2 ^ 149 = 0 := Nat.mod_eq_zero_of_dvd (Nat.dvd_trans (Nat.pow_dvd_pow 2 hq) (Nat.dvd_mul_left _ _))
      have : N * 2 ^ 149 = m * 2 ^ q := by
        rw [hN, if_neg (by rw [r0]; simp), hn]
        exact Nat.div_mul_cancel (Nat.dvd_of_mod_eq_zero r0)
      rw [show N * unit = N * 2 ^ 149 from rfl, this, round_self s hc]
      exact ⟨⟨_, _, _, rfl, hc⟩, rfl⟩
    · have nb : n < 2 ^ 23 ∨ n = 0 ∨ n < 2 ^ 24 := by
        right; right
        rw [hn]
        refine Nat.div_lt_of_lt_mul ?_
        calc m * 2 ^ q < 2 ^ 24 * 2 ^ q := Nat.mul_lt_mul_of_pos_right hc.1 (Nat.two_pow_pos _)
          _ ≤ 2 ^ 24 * 2 ^ 149 := Nat.mul_le_mul_left _ (Nat.pow_le_pow_right (by decide) (by omega))
          _ = 2 ^ 149 * 2 ^ 24 := Nat.mul_comm _ _
      have Nb : N ≤ 2 ^ 24 := by
        rw [hN]
        split <;> omega
      obtain ⟨f, r⟩ := round_int s (n := N * 2 ^ 149) (Nat.le_trans (Nat.mul_le_mul_right _ Nb) (by decide))
      refine ⟨f, ?_⟩
      refine rounded_exact (c := N) (j := 149) r ?_ Nb
      show (if s then -((N * unit : Nat) : Int) else ((N * unit : Nat) : Int)).natAbs = N * unit
      generalize N * unit = z
      cases s <;> simp
  rw [e]
  obtain ⟨f, v⟩ := ex
  have vx : val (.fin s m q) = if s then -((m * 2 ^ q : Nat) : Int) else ((m * 2 ^ q : Nat) : Int) := rfl
  rw [show (2 : Nat) ^ 149 = unit from rfl] at hn hN
  unfold IsFloor IsCeil
  generalize m * 2 ^ q = A at *
  generalize unit = U at *
  rw [← hn] at dm
  generalize hr : A % U = R at *
  have dz : (U : Int) * n + R = A := by exact_mod_cast dm
  have ez : (n : Int) * U = U * n := Int.mul_comm _ _
  constructor
  · rintro rfl
    refine ⟨f, if s then -(N : Int) else N, ?_, ?_, ?_⟩
    · rw [v]; cases s <;> simp [Int.neg_mul]
    · rw [vx]
      cases s
      · simp only [Bool.false_eq_true, if_false]
        have : N = n := by rw [hN, if_neg (by simp)]
        rw [this]
        omega
      · simp only [if_true]
        by_cases h : R = 0
        · have : N = n := by rw [hN, if_neg (by simp [h])]
          rw [this, Int.neg_mul]
          omega
        · have : N = n + 1 := by rw [hN, if_pos ⟨h, by decide⟩]
          rw [this, Int.neg_mul, Nat.cast_add, Nat.cast_one, Int.add_mul, Int.one_mul]
          omega
    · rw [vx]
      cases s
      · simp only [Bool.false_eq_true, if_false]
        have : N = n := by rw [hN, if_neg (by simp)]
        rw [this, Int.add_mul, Int.one_mul]
        omega
      · simp only [if_true]
        by_cases h : R = 0
        · have : N = n := by rw [hN, if_neg (by simp [h])]
          rw [this, Int.add_mul, Int.one_mul, Int.neg_mul]
          omega
        · have : N = n + 1 := by rw [hN, if_pos ⟨h, by decide⟩]
          rw [this, Nat.cast_add, Nat.cast_one, show (-((n : Int) + 1) + 1) = -n by omega, Int.neg_mul]
          omega
  · rintro rfl
    refine ⟨f, if s then -(N : Int) else N, ?_, ?_, ?_⟩
    · rw [v]; cases s <;> simp [Int.neg_mul]
    · rw [vx]
      cases s
      · simp only [Bool.false_eq_true, if_false]
        by_cases h : R = 0
        · have : N = n := by rw [hN, if_neg (by simp [h])]
          rw [this, Int.sub_mul, Int.one_mul]
          omega
        · have : N = n + 1 := by rw [hN, if_pos ⟨h, by decide⟩]
          rw [this, Nat.cast_add, Nat.cast_one, show ((n : Int) + 1 - 1) = n by omega]
          omega
      · simp only [if_true]
        have : N = n := by rw [hN, if_neg (by simp)]
        rw [this, Int.sub_mul, Int.one_mul, Int.neg_mul]
        omega
    · rw [vx]
      cases s
      · simp only [Bool.false_eq_true, if_false]
        by_cases h : R = 0
        · have : N = n := by rw [hN, if_neg (by simp [h])]
          rw [this]
          omega
        · have : N = n + 1 := by rw [hN, if_pos ⟨h, by decide⟩]
          rw [this, Nat.cast_add, Nat.cast_one, Int.add_mul, Int.one_mul]
          omega
      · simp only [if_true]
        have : N = n := by rw [hN, if_neg (by simp)]
        rw [this, Int.neg_mul]
        omega

/-- **C158**: on SSE4, all the functions that round give the floor or the ceiling of every finite component, also those for positive and those
for negative numbers, without a bound on the number; infinities are not changed, and NaN stays NaN. The functions for scalars do the same
with all components. -/
theorem C158_round (v : Vec) (i : Fin 4) :
    (Spec.F32.Finite (fl (v i)) →
      (IsFloor (fl (v i)) (fl (Sse4.vecFloor v i)) ∧ IsFloor (fl (v i)) (fl (Sse4.vecPositiveFloor v i)) ∧
        IsFloor (fl (v i)) (fl (Sse4.vecNegativeFloor v i)) ∧ IsFloor (fl (v i)) (fl ((Sse4.vecFloorCeil v).1 i)) ∧
        IsFloor (fl (v i)) (fl ((Sse4.vecPositiveFloorCeil v).1 i)) ∧ IsFloor (fl (v i)) (fl ((Sse4.vecNegativeFloorCeil v).1 i))) ∧
      (IsCeil (fl (v i)) (fl (Sse4.vecCeil v i)) ∧ IsCeil (fl (v i)) (fl (Sse4.vecPositiveCeil v i)) ∧
        IsCeil (fl (v i)) (fl (Sse4.vecNegativeCeil v i)) ∧ IsCeil (fl (v i)) (fl ((Sse4.vecFloorCeil v).2 i)) ∧
        IsCeil (fl (v i)) (fl ((Sse4.vecPositiveFloorCeil v).2 i)) ∧ IsCeil (fl (v i)) (fl ((Sse4.vecNegativeFloorCeil v).2 i)))) ∧
    (¬ Spec.F32.Finite (fl (v i)) → fl (Sse4.vecFloor v i) = fl (v i) ∧ fl (Sse4.vecCeil v i) = fl (v i)) ∧
    (Sse4.vecFloorScalar v = Sse4.vecFloor v ∧ Sse4.vecPositiveFloorScalar v = Sse4.vecPositiveFloor v ∧
      Sse4.vecNegativeFloorScalar v = Sse4.vecNegativeFloor v ∧ Sse4.vecCeilScalar v = Sse4.vecCeil v ∧
      Sse4.vecPositiveCeilScalar v = Sse4.vecPositiveCeil v ∧ Sse4.vecNegativeCeilScalar v = Sse4.vecNegativeCeil v ∧
      Sse4.vecFloorCeilScalar v = Sse4.vecFloorCeil v ∧ Sse4.vecPositiveFloorCeilScalar v = Sse4.vecPositiveFloorCeil v ∧
      Sse4.vecNegativeFloorCeilScalar v = Sse4.vecNegativeFloorCeil v) := by
  have f : fl (Sse4.floorPs v i) = Sse4.roundTo false (fl (v i)) := fl_wd (roundTo_valid (fl_valid _))
  have c : fl (Sse4.ceilPs v i) = Sse4.roundTo true (fl (v i)) := fl_wd (roundTo_valid (fl_valid _))
  refine ⟨fun h => ?_, fun h => ?_, ⟨rfl, rfl, rfl, rfl, rfl, rfl, rfl, rfl, rfl⟩⟩
  · have k1 : IsFloor (fl (v i)) (fl (Sse4.floorPs v i)) := by rw [f]; exact (roundTo_spec false h).1 rfl
    have k2 : IsCeil (fl (v i)) (fl (Sse4.ceilPs v i)) := by rw [c]; exact (roundTo_spec true h).2 rfl
    exact ⟨⟨k1, k1, k1, k1, k1, k1⟩, k2, k2, k2, k2, k2, k2⟩
  · show fl (Sse4.floorPs v i) = _ ∧ fl (Sse4.ceilPs v i) = _
    rw [f, c]
    rcases fl_valid (v i) with ⟨s, m, q, e, hc⟩ | ⟨s, e⟩ | e
    · exact absurd ⟨s, m, q, e, hc⟩ h
    · rw [e]; exact ⟨rfl, rfl⟩
    · rw [e]; exact ⟨rfl, rfl⟩

/-- 1.5, -0.5, 8388607.5 and minus infinity; `VecPositiveFloor` on SSE4 also rounds the negative ones, and on SSE not 2^24 + 2. -/
example : List.map (Sse4.vecPositiveFloor vecSample) [0, 1, 2, 3] = [0x3F800000, 0xBF800000, 0x4AFFFFFE, 0xFF800000] ∧
    List.map (Sse4.vecCeilScalar vecSample) [0, 1, 2, 3] = [0x40000000, 0x80000000, 0x4B000000, 0xFF800000] := by decide +kernel

/-! ## C159 -/

theorem fl_sse4_sums (a b : Vec) :
    fl (Sse4.vecDot3D a b 0) = add (add (mul (fl (a 0)) (fl (b 0))) (mul (fl (a 1)) (fl (b 1)))) (add (mul (fl (a 2)) (fl (b 2))) zero) ∧
    fl (Sse4.vecDot4D a b 0) = add (add (mul (fl (a 0)) (fl (b 0))) (mul (fl (a 1)) (fl (b 1))))
      (add (mul (fl (a 2)) (fl (b 2))) (mul (fl (a 3)) (fl (b 3)))) ∧
    fl (Sse4.vecPlaneDotPoint3D a b 0) = add (add (mul (fl (a 0)) (fl (b 0))) (mul (fl (a 1)) (fl (b 1))))
      (add (mul (fl (a 2)) (fl (b 2))) (mul (fl (a 3)) (fl 0x3F800000))) := by
  have z : fl 0#32 = zero := fl_zero
  refine ⟨?_, ?_, ?_⟩
  · have : Sse4.vecDot3D a b 0 = addW (addW (mulW (a 0) (b 0)) (mulW (a 1) (b 1))) (addW (mulW (a 2) (b 2)) 0) := rfl
    rw [this]
    simp [z]
  · have : Sse4.vecDot4D a b 0 = addW (addW (mulW (a 0) (b 0)) (mulW (a 1) (b 1))) (addW (mulW (a 2) (b 2)) (mulW (a 3) (b 3))) := rfl
    rw [this]
    simp
  · have : Sse4.vecPlaneDotPoint3D a b 0 = addW (addW (mulW (a 0) (b 0)) (mulW (a 1) (b 1))) (addW (mulW (a 2) (b 2)) (mulW (a 3) 0x3F800000)) := rfl
    rw [this]
    simp

/-- **C159, all components.** The SSE4 versions leave the product in every component, not only in the first. -/
theorem C159_everywhere (a b : Vec) (i : Fin 4) :
    Sse4.vecDot3D a b i = Sse4.vecDot3D a b 0 ∧ Sse4.vecDot4D a b i = Sse4.vecDot4D a b 0 ∧
    Sse4.vecPlaneDotPoint3D a b i = Sse4.vecPlaneDotPoint3D a b 0 := by
  match i with
  | 0 => exact ⟨rfl, rfl, rfl⟩
  | 1 => exact ⟨rfl, rfl, rfl⟩
  | 2 => exact ⟨rfl, rfl, rfl⟩
  | 3 => exact ⟨rfl, rfl, rfl⟩

example : Sse4.vecDot4D vecLow vecHigh 3 = 0x428C0000 ∧ Sse4.vecDot3D vecLow vecHigh 2 = 0x42180000 := by decide +kernel

/-- Two pairs of approximate numbers. -/
theorem approx_pairs {x1 x2 x3 x4 : Flt} {p1 p2 p3 p4 : ℝ} (h1 : Approx x1 p1 (eps * |p1| + tiny)) (h2 : Approx x2 p2 (eps * |p2| + tiny))
    (h3 : Approx x3 p3 (eps * |p3| + tiny)) (h4 : Approx x4 p4 (eps * |p4| + tiny)) (h : |p1| + |p2| + |p3| + |p4| ≤ 2 ^ 126) :
    Spec.F32.Finite (add (add x1 x2) (add x3 x4)) ∧
    |real (add (add x1 x2) (add x3 x4)) - (p1 + p2 + p3 + p4)| ≤ 4 / 2 ^ 24 * (|p1| + |p2| + |p3| + |p4|) + 5 / 2 ^ 150 := by
  have n1 := abs_nonneg p1
  have n2 := abs_nonneg p2
  have n3 := abs_nonneg p3
  have n4 := abs_nonneg p4
  have s1 := approx_sum h1 h2 (by unfold eps tiny; norm_num at h ⊢; linarith)
  have s2 := approx_sum h3 h4 (by unfold eps tiny; norm_num at h ⊢; linarith)
  have a1 := abs_add_le p1 p2
  have a2 := abs_add_le p3 p4
  have s := approx_sum s1 s2 (by unfold eps tiny; norm_num at h ⊢; linarith)
  rw [show p1 + p2 + (p3 + p4) = p1 + p2 + p3 + p4 by ring] at s
  refine ⟨s.1, s.2.trans ?_⟩
  unfold eps tiny
  norm_num
  linarith

theorem zero_finite : Spec.F32.Finite zero ∧ real zero = 0 := by
  rw [zero_fin, real_fin]
  exact ⟨⟨_, _, _, rfl, by decide, by decide, by decide⟩, by simp⟩

theorem one_exact' : Spec.F32.Finite (fl 0x3F800000) ∧ real (fl 0x3F800000) = 1 := by
  have : fl 0x3F800000 = .fin false (2 ^ 23) 126 := by decide
  rw [this, real_fin]
  refine ⟨⟨_, _, _, rfl, by decide, by decide, by decide⟩, ?_⟩
  norm_num

/-- **C159**: on SSE4, the errors of the dot products of three and of four components and of `VecPlaneDotPoint3D` are at most four units of the
sum of the absolute values of their terms, apart from underflow; `VecHorizontalSum3D` gives the same number as on SSE. -/
theorem C159_sums {a b : Vec} (ha : FiniteVec a) (hb : FiniteVec b) :
    (|rv a 0 * rv b 0| + |rv a 1 * rv b 1| + |rv a 2 * rv b 2| ≤ 2 ^ 126 → Spec.F32.Finite (fl (Sse4.vecDot3D a b 0)) ∧
      |rv (Sse4.vecDot3D a b) 0 - (rv a 0 * rv b 0 + rv a 1 * rv b 1 + rv a 2 * rv b 2)| ≤
        4 / 2 ^ 24 * (|rv a 0 * rv b 0| + |rv a 1 * rv b 1| + |rv a 2 * rv b 2|) + 5 / 2 ^ 150) ∧
    (|rv a 0 * rv b 0| + |rv a 1 * rv b 1| + |rv a 2 * rv b 2| + |rv a 3 * rv b 3| ≤ 2 ^ 126 → Spec.F32.Finite (fl (Sse4.vecDot4D a b 0)) ∧
      |rv (Sse4.vecDot4D a b) 0 - (rv a 0 * rv b 0 + rv a 1 * rv b 1 + rv a 2 * rv b 2 + rv a 3 * rv b 3)| ≤
        4 / 2 ^ 24 * (|rv a 0 * rv b 0| + |rv a 1 * rv b 1| + |rv a 2 * rv b 2| + |rv a 3 * rv b 3|) + 5 / 2 ^ 150) ∧
    (|rv a 0 * rv b 0| + |rv a 1 * rv b 1| + |rv a 2 * rv b 2| + |rv a 3| ≤ 2 ^ 126 → Spec.F32.Finite (fl (Sse4.vecPlaneDotPoint3D a b 0)) ∧
      |rv (Sse4.vecPlaneDotPoint3D a b) 0 - (rv a 0 * rv b 0 + rv a 1 * rv b 1 + rv a 2 * rv b 2 + rv a 3)| ≤
        4 / 2 ^ 24 * (|rv a 0 * rv b 0| + |rv a 1 * rv b 1| + |rv a 2 * rv b 2| + |rv a 3|) + 5 / 2 ^ 150) ∧
    Sse4.vecHorizontalSum3D a 0 = vecHorizontalSum3D a 0 := by
  obtain ⟨e1, e2, e3⟩ := fl_sse4_sums a b
  unfold rv
  rw [e1, e2, e3]
  have n0 := abs_nonneg (real (fl (a 0)) * real (fl (b 0)))
  have n1 := abs_nonneg (real (fl (a 1)) * real (fl (b 1)))
  have n2 := abs_nonneg (real (fl (a 2)) * real (fl (b 2)))
  have n3 := abs_nonneg (real (fl (a 3)) * real (fl (b 3)))
  have n4 := abs_nonneg (real (fl (a 3)))
  refine ⟨fun h => ?_, fun h => ?_, fun h => ?_, rfl⟩
  · have p0 := approx_product (ha 0) (hb 0) (by norm_num [-abs_mul] at h ⊢; linarith)
    have p1 := approx_product (ha 1) (hb 1) (by norm_num [-abs_mul] at h ⊢; linarith)
    have p2 := approx_product (ha 2) (hb 2) (by norm_num [-abs_mul] at h ⊢; linarith)
    have z : Approx zero 0 (eps * |(0 : ℝ)| + tiny) := ⟨zero_finite.1, by rw [zero_finite.2]; simp [tiny]⟩
    have := approx_pairs p0 p1 p2 z (by rw [abs_zero]; linarith)
    rwa [abs_zero, add_zero, add_zero] at this
  · exact approx_pairs (approx_product (ha 0) (hb 0) (by norm_num [-abs_mul] at h ⊢; linarith))
      (approx_product (ha 1) (hb 1) (by norm_num [-abs_mul] at h ⊢; linarith))
      (approx_product (ha 2) (hb 2) (by norm_num [-abs_mul] at h ⊢; linarith))
      (approx_product (ha 3) (hb 3) (by norm_num [-abs_mul] at h ⊢; linarith)) h
  · have p3 := approx_product (ha 3) one_exact'.1 (by rw [one_exact'.2, mul_one]; norm_num [-abs_mul] at h ⊢; linarith)
    rw [one_exact'.2, mul_one] at p3
    exact approx_pairs (approx_product (ha 0) (hb 0) (by norm_num [-abs_mul] at h ⊢; linarith))
      (approx_product (ha 1) (hb 1) (by norm_num [-abs_mul] at h ⊢; linarith))
      (approx_product (ha 2) (hb 2) (by norm_num [-abs_mul] at h ⊢; linarith)) p3 h

/-- Adding a zero changes nothing but the sign of zero. -/
theorem add_zero_cases {x : Flt} (hx : Valid x) : add x zero = x ∨ x = .fin true 0 0 := by
  rcases hx with ⟨s, m, q, rfl, hc⟩ | ⟨s, rfl⟩ | rfl
  · rw [zero_fin]
    cases s
    · left
      simp only [add, Nat.zero_mul, Nat.add_zero, if_true]
      exact round_self _ hc
    · by_cases h : m * 2 ^ q = 0
      · right
        have h0 : m = 0 := (Nat.mul_eq_zero.1 h).resolve_right (Nat.two_pow_pos q).ne'
        obtain ⟨-, -, hq | hq⟩ := hc
        · rw [h0, hq]
        · omega
      · left
        simp only [add, Nat.zero_mul]
        rw [if_neg (by decide), if_neg h, if_pos (by omega), Nat.sub_zero]
        exact round_self _ hc
  · left; rfl
  · left; rfl

/-- **C159**: on SSE4, `VecDot3D` gives the same number as on SSE, unless both results are zeros, which may differ in sign. -/
theorem C159_dot3 (a b : Vec) :
    fl (Sse4.vecDot3D a b 0) = fl (vecDot3D a b 0) ∨ (eq (fl (Sse4.vecDot3D a b 0)) zero ∧ eq (fl (vecDot3D a b 0)) zero) := by
  have e : fl (vecDot3D a b 0) = add (add (mul (fl (a 0)) (fl (b 0))) (mul (fl (a 1)) (fl (b 1)))) (mul (fl (a 2)) (fl (b 2))) := by
    simp [vecDot3D, ss, ps, vecSmearY, vecSmearZ, shuffle]
  rw [(fl_sse4_sums a b).1, e]
  have hv := add_valid (mul (fl (a 0)) (fl (b 0))) (mul (fl (a 1)) (fl (b 1)))
  generalize add (mul (fl (a 0)) (fl (b 0))) (mul (fl (a 1)) (fl (b 1))) = y at *
  rcases add_zero_cases (mul_valid (fl (a 2)) (fl (b 2))) with h | h
  · left; rw [h]
  · rw [h]
    have z : add (.fin true 0 0) zero = zero := by decide
    rw [z]
    rcases hv with ⟨s, m, q, rfl, hc⟩ | ⟨s, rfl⟩ | rfl
    · rcases add_zero_cases (.inl ⟨s, m, q, rfl, hc⟩) with h | h
      · rw [h]
        by_cases h0 : m * 2 ^ q = 0
        · right
          have h0' : m = 0 := (Nat.mul_eq_zero.1 h0).resolve_right (Nat.two_pow_pos q).ne'
          have hq : q = 0 := by
            obtain ⟨-, -, hq | hq⟩ := hc
            · exact hq
            · omega
          subst h0' hq
          cases s <;> decide
        · left
          simp only [add, Nat.zero_mul, Nat.add_zero]
          cases s
          · rw [if_neg (by decide), if_neg h0, if_pos (by omega), Nat.sub_zero, round_self _ hc]
          · rw [if_pos rfl, round_self _ hc]
      · right
        rw [h]
        decide
    · left; rfl
    · left; rfl

theorem real_of_eq_zero {x : Flt} (hx : Valid x) (h : eq x zero) : Spec.F32.Finite x ∧ real x = 0 := by
  have hz := zero_finite
  simp only [eq, Bool.and_eq_true, Bool.not_eq_true'] at h
  rcases hx with hf | ⟨s, rfl⟩ | rfl
  · refine ⟨hf, le_antisymm ?_ ?_⟩
    · rw [← hz.2]
      exact not_lt.1 fun hh => by rw [(lt_real hz.1 hf).2 hh] at h; simp at h
    · rw [← hz.2]
      exact not_lt.1 fun hh => by rw [(lt_real hf hz.1).2 hh] at h; simp at h
  · exfalso
    revert h
    cases s <;> decide
  · exact absurd h (by decide)

/-- **C159** for `VecProject3D` and `VecReject3D`, which use `VecDot3D`: the same bounds as on SSE (C127). -/
theorem C159_project {a b : Vec} (ha : FiniteVec a) (hb : FiniteVec b) {S : ℝ} (i : Fin 4)
    (hS : S = |rv a 0 * rv b 0| + |rv a 1 * rv b 1| + |rv a 2 * rv b 2|) (h : S ≤ 2 ^ 126) (hi : |rv a i| + S * |rv b i| ≤ 2 ^ 125) :
    (Spec.F32.Finite (fl (Sse4.vecProject3D a b i)) ∧
      |rv (Sse4.vecProject3D a b) i - (rv a 0 * rv b 0 + rv a 1 * rv b 1 + rv a 2 * rv b 2) * rv b i| ≤
        (5 / 2 ^ 24 * S + 4 / 2 ^ 150) * |rv b i| + 1 / 2 ^ 150) ∧
    (Spec.F32.Finite (fl (Sse4.vecReject3D a b i)) ∧
      |rv (Sse4.vecReject3D a b) i - (rv a i - (rv a 0 * rv b 0 + rv a 1 * rv b 1 + rv a 2 * rv b 2) * rv b i)| ≤
        1 / 2 ^ 24 * |rv a i| + (7 / 2 ^ 24 * S + 5 / 2 ^ 150) * |rv b i| + 2 / 2 ^ 150) := by
  have e : fl (vecDot3D a b 0) = add (add (mul (fl (a 0)) (fl (b 0))) (mul (fl (a 1)) (fl (b 1)))) (mul (fl (a 2)) (fl (b 2))) := by
    simp [vecDot3D, ss, ps, vecSmearY, vecSmearZ, shuffle]
  have e1 : fl (Sse4.vecProject3D a b i) = mul (fl (b i)) (fl (Sse4.vecDot3D a b 0)) := by
    match i with
    | 0 | 1 | 2 | 3 => simp [Sse4.vecProject3D, ps, vecSmearX, shuffle]
  have e2 : fl (Sse4.vecReject3D a b i) = sub (fl (a i)) (mul (fl (b i)) (fl (Sse4.vecDot3D a b 0))) := by
    match i with
    | 0 | 1 | 2 | 3 => simp [Sse4.vecReject3D, ps, vecSmearX, shuffle]
  have t := approx_three (ha 0) (hb 0) (ha 1) (hb 1) (ha 2) (hb 2) (hS ▸ h)
  have g := abs_add_three (real (fl (a 0)) * real (fl (b 0))) (real (fl (a 1)) * real (fl (b 1))) (real (fl (a 2)) * real (fl (b 2)))
  have d : Spec.F32.Finite (fl (Sse4.vecDot3D a b 0)) ∧ real (fl (Sse4.vecDot3D a b 0)) = real (fl (vecDot3D a b 0)) := by
    rcases C159_dot3 a b with h | ⟨h1, h2⟩
    · rw [h]
      exact ⟨e ▸ t.1, rfl⟩
    · rw [(fl_sse4_sums a b).1] at h1 ⊢
      rw [e] at h2 ⊢
      have z1 := real_of_eq_zero (add_valid _ _) h1
      exact ⟨z1.1, z1.2.trans (real_of_eq_zero (add_valid _ _) h2).2.symm⟩
  unfold rv at *
  rw [← hS] at t g
  rw [← e] at t
  rw [e1, e2]
  exact approx_project (ha i) (hb i) ⟨d.1, d.2 ▸ t.2⟩ g h hi

/-- 38, 70, 42 and 6 as on SSE; but 2^24 + 1 + 1 + 1 is 2^24 on SSE and 2^24 + 2 on SSE4. -/
example : Sse4.vecDot3D vecLow vecHigh 0 = 0x42180000 ∧ Sse4.vecDot4D vecLow vecHigh 0 = 0x428C0000 ∧
    Sse4.vecPlaneDotPoint3D vecLow vecHigh 0 = 0x42280000 ∧ Sse4.vecHorizontalSum3D vecLow 0 = 0x40C00000 ∧
    vecDot4D vecSteep vecOnes 0 = 0x4B800000 ∧ Sse4.vecDot4D vecSteep vecOnes 0 = 0x4B800001 ∧
    Sse4.vecProject3D vecLow vecHigh 1 = 0x43640000 ∧ Sse4.vecReject3D vecLow vecHigh 1 = 0xC3620000 := by decide +kernel

end Verif.Props
