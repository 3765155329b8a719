import Verif.Lemmas.SimdReal
import Verif.Lemmas.RoundNearest
import Verif.Props.MathConst
import Verif.Props.Sqrt
import Verif.Props.Simd

/-!
# Accuracy of the vectors of floats (C124 to C128)
-/

namespace Verif.Props

open Verif Verif.B32 Verif.MathFns Verif.Spec.F32 Verif.Simd
open Verif.Trig (newtonPlain)

/-- The real value of a component. -/
noncomputable def rv (v : Vec) (i : Fin 4) : ℝ := real (fl (v i))

/-- All components are finite. -/
def FiniteVec (v : Vec) : Prop := ∀ i, Spec.F32.Finite (fl (v i))

/-! ## C121 -/

/-- **C121**: sums, differences, products and quotients of components are finite floats nearest to the exact results, unless these are too
large. -/
theorem C121_nearest {a b : Vec} {i : Fin 4} (ha : Spec.F32.Finite (fl (a i))) (hb : Spec.F32.Finite (fl (b i))) :
    (|rv a i + rv b i| ≤ 2 ^ 127 → NearestReal (fl (vecAdd a b i)) (rv a i + rv b i)) ∧
    (|rv a i - rv b i| ≤ 2 ^ 127 → NearestReal (fl (vecSub a b i)) (rv a i - rv b i)) ∧
    (|rv a i * rv b i| ≤ 2 ^ 127 → NearestReal (fl (vecMul a b i)) (rv a i * rv b i)) ∧
    (rv b i ≠ 0 → |rv a i / rv b i| ≤ 2 ^ 127 → NearestReal (fl (vecDiv a b i)) (rv a i / rv b i)) := by
  obtain ⟨h1, h2, h3, h4, -⟩ := C121_arithmetic a b a i
  rw [h1, h2, h3, h4]
  exact ⟨add_closest ha hb, sub_closest ha hb, mul_closest ha hb, div_closest ha hb⟩

/-! ## C124 -/

theorem zero_fin : zero = .fin false 0 0 := by decide

/-- **C124**: `VecNegate` changes the sign of every component. -/
def C124_statement : Prop := ∀ (v : Vec) (i : Fin 4), fl (vecNegate v i) = neg (fl (v i))

/-- The negative of positive zero is positive zero: the code subtracts the vector from zero. -/
theorem C124_violated : ¬ C124_statement := by
  intro h
  have := h (fun _ => 0) 0
  revert this
  decide

/-- C124 for all components but positive zero; the negative of positive zero is positive zero. -/
theorem C124_negate_partial (v : Vec) (i : Fin 4) :
    (v i ≠ 0 → fl (vecNegate v i) = neg (fl (v i))) ∧ (v i = 0 → vecNegate v i = 0) := by
  refine ⟨fun h => ?_, fun h => by unfold vecNegate ps vecFloatGetZero; rw [h]; decide⟩
  show fl (subW 0 (v i)) = _
  rw [fl_subW, fl_zero]
  rcases fl_valid (v i) with ⟨s, m, q, e, hc⟩ | ⟨s, e⟩ | e
  · by_cases h0 : m = 0
    · have hq : q = 0 := by
        obtain ⟨-, -, hq | hq⟩ := hc
        · exact hq
        · omega
      subst h0 hq
      cases s
      · exfalso
        apply h
        have := wd_fl (w := v i) (by rw [e]; simp)
        rw [e] at this
        rw [← this]
        decide
      · rw [e]; decide
    · have hne : m * 2 ^ q ≠ 0 := Nat.mul_ne_zero h0 (Nat.two_pow_pos q).ne'
      rw [e]
      cases s
      · rw [zero_fin]
        simp only [B32.sub, neg, add, Nat.zero_mul]
        rw [if_neg (by decide), if_neg (Ne.symm hne), if_neg (by omega), Nat.sub_zero]
        exact round_self _ hc
      · rw [zero_fin]
        simp only [B32.sub, neg, add, Nat.zero_mul, Bool.not_true]
        rw [if_pos trivial, Nat.zero_add]
        exact round_self _ hc
  · rw [e]; cases s <;> decide
  · rw [e]; decide

example : vecNegate (fun i => if i = 0 then 0x40400000 else if i = 1 then 0x80000000 else if i = 2 then 0x7F800000 else 0) 0 = 0xC0400000 ∧
    vecNegate (fun i => if i = 0 then 0x40400000 else if i = 1 then 0x80000000 else if i = 2 then 0x7F800000 else 0) 1 = 0 ∧
    vecNegate (fun i => if i = 0 then 0x40400000 else if i = 1 then 0x80000000 else if i = 2 then 0x7F800000 else 0) 2 = 0xFF800000 := by
  decide +kernel

/-! ## C125 -/

theorem mul_comm' (x y : Flt) : mul x y = mul y x := by
  have c : ∀ s t : Bool, (s != t) = (t != s) := by decide
  match x, y with
  | .nan, .nan => rfl
  | .nan, .inf _ => rfl
  | .nan, .fin .. => rfl
  | .inf _, .nan => rfl
  | .fin .., .nan => rfl
  | .inf s, .inf s' => simp only [mul]; rw [c]
  | .inf s, .fin s' m _ => simp only [mul]; rw [c]
  | .fin s m _, .inf s' => simp only [mul]; rw [c]
  | .fin s m q, .fin s' m' q' => simp only [mul]; rw [c, Nat.mul_comm]

theorem mulW_comm (a b : Word) : mulW a b = mulW b a := by unfold mulW; rw [mul_comm']

/-- **C125** for `VecDot3D`: if the products are not too large, the first component is finite, and its error is at most four units of the
sum of the absolute values of the products, apart from underflow. -/
theorem C125_dot3 {a b : Vec} (ha : FiniteVec a) (hb : FiniteVec b)
    (h : |rv a 0 * rv b 0| + |rv a 1 * rv b 1| + |rv a 2 * rv b 2| ≤ 2 ^ 126) :
    Spec.F32.Finite (fl (vecDot3D a b 0)) ∧
    |rv (vecDot3D a b) 0 - (rv a 0 * rv b 0 + rv a 1 * rv b 1 + rv a 2 * rv b 2)| ≤
      4 / 2 ^ 24 * (|rv a 0 * rv b 0| + |rv a 1 * rv b 1| + |rv a 2 * rv b 2|) + 4 / 2 ^ 150 := by
  have e : fl (vecDot3D a b 0) = add (add (mul (fl (a 0)) (fl (b 0))) (mul (fl (a 1)) (fl (b 1)))) (mul (fl (a 2)) (fl (b 2))) := by
    simp [vecDot3D, ss, ps, vecSmearY, vecSmearZ, shuffle]
  have := approx_three (ha 0) (hb 0) (ha 1) (hb 1) (ha 2) (hb 2) h
  unfold rv at *
  rw [e]
  refine ⟨this.1, this.2.trans ?_⟩
  unfold eps tiny
  have n1 := abs_nonneg (real (fl (a 0)) * real (fl (b 0)))
  have n2 := abs_nonneg (real (fl (a 1)) * real (fl (b 1)))
  have n3 := abs_nonneg (real (fl (a 2)) * real (fl (b 2)))
  linarith

/-- **C125** for `VecDot4D`. -/
theorem C125_dot4 {a b : Vec} (ha : FiniteVec a) (hb : FiniteVec b)
    (h : |rv a 0 * rv b 0| + |rv a 1 * rv b 1| + |rv a 2 * rv b 2| + |rv a 3 * rv b 3| ≤ 2 ^ 126) :
    Spec.F32.Finite (fl (vecDot4D a b 0)) ∧
    |rv (vecDot4D a b) 0 - (rv a 0 * rv b 0 + rv a 1 * rv b 1 + rv a 2 * rv b 2 + rv a 3 * rv b 3)| ≤
      5 / 2 ^ 24 * (|rv a 0 * rv b 0| + |rv a 1 * rv b 1| + |rv a 2 * rv b 2| + |rv a 3 * rv b 3|) + 5 / 2 ^ 150 := by
  have e : fl (vecDot4D a b 0) = add (add (add (mul (fl (a 0)) (fl (b 0))) (mul (fl (a 1)) (fl (b 1)))) (mul (fl (a 2)) (fl (b 2))))
      (mul (fl (a 3)) (fl (b 3))) := by
    simp [vecDot4D, ss, ps, vecSmearY, vecSmearZ, vecSmearW, shuffle]
  unfold rv at *
  rw [e]
  have n1 := abs_nonneg (real (fl (a 0)) * real (fl (b 0)))
  have n2 := abs_nonneg (real (fl (a 1)) * real (fl (b 1)))
  have n3 := abs_nonneg (real (fl (a 2)) * real (fl (b 2)))
  have n4 := abs_nonneg (real (fl (a 3)) * real (fl (b 3)))
  have t := approx_three (ha 0) (hb 0) (ha 1) (hb 1) (ha 2) (hb 2) (by linarith)
  have p := approx_product (ha 3) (hb 3) (by norm_num [-abs_mul] at h ⊢; linarith)
  have g := abs_add_three (real (fl (a 0)) * real (fl (b 0))) (real (fl (a 1)) * real (fl (b 1))) (real (fl (a 2)) * real (fl (b 2)))
  have s := approx_sum t p (by unfold eps tiny; norm_num [-abs_mul] at h ⊢; linarith)
  refine ⟨s.1, s.2.trans ?_⟩
  unfold eps tiny
  norm_num [-abs_mul]
  linarith

/-- **C125** for `VecPlaneDotPoint3D`: the first vector is a plane, the second a point. -/
theorem C125_plane {a b : Vec} (ha : FiniteVec a) (hb : FiniteVec b)
    (h : |rv a 0 * rv b 0| + |rv a 1 * rv b 1| + |rv a 2 * rv b 2| + |rv a 3| ≤ 2 ^ 126) :
    Spec.F32.Finite (fl (vecPlaneDotPoint3D a b 0)) ∧
    |rv (vecPlaneDotPoint3D a b) 0 - (rv a 0 * rv b 0 + rv a 1 * rv b 1 + rv a 2 * rv b 2 + rv a 3)| ≤
      5 / 2 ^ 24 * (|rv a 0 * rv b 0| + |rv a 1 * rv b 1| + |rv a 2 * rv b 2| + |rv a 3|) + 4 / 2 ^ 150 := by
  have e : fl (vecPlaneDotPoint3D a b 0) = add (add (add (mul (fl (a 0)) (fl (b 0))) (mul (fl (a 1)) (fl (b 1)))) (mul (fl (a 2)) (fl (b 2))))
      (fl (a 3)) := by
    simp [vecPlaneDotPoint3D, ss, ps, vecSmearY, vecSmearZ, vecSmearW, shuffle]
  unfold rv at *
  rw [e]
  have n1 := abs_nonneg (real (fl (a 0)) * real (fl (b 0)))
  have n2 := abs_nonneg (real (fl (a 1)) * real (fl (b 1)))
  have n3 := abs_nonneg (real (fl (a 2)) * real (fl (b 2)))
  have n4 := abs_nonneg (real (fl (a 3)))
  have t := approx_three (ha 0) (hb 0) (ha 1) (hb 1) (ha 2) (hb 2) (by linarith)
  have g := abs_add_three (real (fl (a 0)) * real (fl (b 0))) (real (fl (a 1)) * real (fl (b 1))) (real (fl (a 2)) * real (fl (b 2)))
  have s := approx_more t (ha 3) (by unfold eps tiny; norm_num [-abs_mul] at h ⊢; linarith)
  refine ⟨s.1, s.2.trans ?_⟩
  unfold eps tiny
  norm_num [-abs_mul]
  linarith

/-- **C125** for `VecHorizontalSum3D`. -/
theorem C125_sum {a : Vec} (ha : FiniteVec a) (h : |rv a 0| + |rv a 1| + |rv a 2| ≤ 2 ^ 126) :
    Spec.F32.Finite (fl (vecHorizontalSum3D a 0)) ∧
    |rv (vecHorizontalSum3D a) 0 - (rv a 0 + rv a 1 + rv a 2)| ≤ 3 / 2 ^ 24 * (|rv a 0| + |rv a 1| + |rv a 2|) := by
  have e : fl (vecHorizontalSum3D a 0) = add (add (fl (a 0)) (fl (a 1))) (fl (a 2)) := by
    simp [vecHorizontalSum3D, ss, vecSmearY, vecSmearZ, shuffle]
  unfold rv at *
  rw [e]
  have n1 := abs_nonneg (real (fl (a 0)))
  have n2 := abs_nonneg (real (fl (a 1)))
  have n3 := abs_nonneg (real (fl (a 2)))
  have s1 := approx_more (Approx.exact (ha 0)) (ha 1) (by norm_num [-abs_mul] at h ⊢; linarith)
  have g := abs_add_le (real (fl (a 0))) (real (fl (a 1)))
  have s := approx_more s1 (ha 2) (by unfold eps; norm_num [-abs_mul] at h ⊢; linarith)
  refine ⟨s.1, s.2.trans ?_⟩
  unfold eps
  norm_num
  linarith

/-- **C125**: the order of the factors does not matter, not even for infinities. -/
theorem C125_symmetric (a b : Vec) : vecDot3D a b = vecDot3D b a ∧ vecDot4D a b = vecDot4D b a := by
  have : ps mulW a b = ps mulW b a := funext fun i => mulW_comm _ _
  unfold vecDot3D vecDot4D
  rw [this]
  exact ⟨rfl, rfl⟩

/-- (1, 2, 3, 4) and (5, 6, 7, 8). -/
def vecLow : Vec := fun i => if i = 0 then 0x3F800000 else if i = 1 then 0x40000000 else if i = 2 then 0x40400000 else 0x40800000
def vecHigh : Vec := fun i => if i = 0 then 0x40A00000 else if i = 1 then 0x40C00000 else if i = 2 then 0x40E00000 else 0x41000000

/-- 38, 70, 42 and 6. -/
example : vecDot3D vecLow vecHigh 0 = 0x42180000 ∧ vecDot4D vecLow vecHigh 0 = 0x428C0000 ∧ vecPlaneDotPoint3D vecLow vecHigh 0 = 0x42280000 ∧
    vecHorizontalSum3D vecLow 0 = 0x40C00000 := by decide +kernel

/-! ## C126 -/

/-- A difference of products. -/
theorem approx_minor {x1 y1 x2 y2 : Flt} (hx1 : Spec.F32.Finite x1) (hy1 : Spec.F32.Finite y1) (hx2 : Spec.F32.Finite x2)
    (hy2 : Spec.F32.Finite y2) (h : |real x1 * real y1| + |real x2 * real y2| ≤ 2 ^ 126) :
    Spec.F32.Finite (sub (mul x1 y1) (mul x2 y2)) ∧
    |real (sub (mul x1 y1) (mul x2 y2)) - (real x1 * real y1 - real x2 * real y2)| ≤
      3 / 2 ^ 24 * (|real x1 * real y1| + |real x2 * real y2|) + 3 / 2 ^ 150 := by
  have n1 := abs_nonneg (real x1 * real y1)
  have n2 := abs_nonneg (real x2 * real y2)
  have p1 := approx_product hx1 hy1 (by norm_num [-abs_mul] at h ⊢; linarith)
  have p2 := approx_product hx2 hy2 (by norm_num [-abs_mul] at h ⊢; linarith)
  have s := approx_diff p1 p2 (by unfold eps tiny; norm_num [-abs_mul] at h ⊢; linarith)
  refine ⟨s.1, s.2.trans ?_⟩
  unfold eps tiny
  norm_num [-abs_mul]
  linarith

/-- The next of the three components. -/
def nextOf3 : Fin 4 → Fin 4
  | 0 => 1
  | 1 => 2
  | 2 => 0
  | 3 => 3

theorem fl_cross (a b : Vec) (i : Fin 4) :
    fl (vecCross3D a b i) =
      sub (mul (fl (a (nextOf3 i))) (fl (b (nextOf3 (nextOf3 i))))) (mul (fl (a (nextOf3 (nextOf3 i)))) (fl (b (nextOf3 i)))) := by
  match i with
  | 0 | 1 | 2 | 3 => simp [vecCross3D, ps, shuffle, nextOf3]

/-- **C126**: if the products are not too large, every component of the cross product is finite, and its error is at most three units of the
sum of the absolute values of its two products, apart from underflow. -/
theorem C126_cross {a b : Vec} (ha : FiniteVec a) (hb : FiniteVec b) :
    (|rv a 1 * rv b 2| + |rv a 2 * rv b 1| ≤ 2 ^ 126 → Spec.F32.Finite (fl (vecCross3D a b 0)) ∧
      |rv (vecCross3D a b) 0 - (rv a 1 * rv b 2 - rv a 2 * rv b 1)| ≤ 3 / 2 ^ 24 * (|rv a 1 * rv b 2| + |rv a 2 * rv b 1|) + 3 / 2 ^ 150) ∧
    (|rv a 2 * rv b 0| + |rv a 0 * rv b 2| ≤ 2 ^ 126 → Spec.F32.Finite (fl (vecCross3D a b 1)) ∧
      |rv (vecCross3D a b) 1 - (rv a 2 * rv b 0 - rv a 0 * rv b 2)| ≤ 3 / 2 ^ 24 * (|rv a 2 * rv b 0| + |rv a 0 * rv b 2|) + 3 / 2 ^ 150) ∧
    (|rv a 0 * rv b 1| + |rv a 1 * rv b 0| ≤ 2 ^ 126 → Spec.F32.Finite (fl (vecCross3D a b 2)) ∧
      |rv (vecCross3D a b) 2 - (rv a 0 * rv b 1 - rv a 1 * rv b 0)| ≤ 3 / 2 ^ 24 * (|rv a 0 * rv b 1| + |rv a 1 * rv b 0|) + 3 / 2 ^ 150) := by
  unfold rv
  refine ⟨fun h => ?_, fun h => ?_, fun h => ?_⟩
  · rw [fl_cross]; exact approx_minor (ha 1) (hb 2) (ha 2) (hb 1) h
  · rw [fl_cross]; exact approx_minor (ha 2) (hb 0) (ha 0) (hb 2) h
  · rw [fl_cross]; exact approx_minor (ha 0) (hb 1) (ha 1) (hb 0) h

/-- The difference of a finite float and itself. -/
theorem sub_self' {x : Flt} (h : Spec.F32.Finite x) : sub x x = zero := by
  obtain ⟨s, m, q, rfl, -⟩ := h
  rw [zero_fin]
  cases s <;> simp [B32.sub, neg, add]

/-- **C126**: the last component of a cross product is zero, if the product of the last components does not overflow. -/
theorem C126_last {a b : Vec} (ha : FiniteVec a) (hb : FiniteVec b) (h : |rv a 3 * rv b 3| ≤ 2 ^ 127) : vecCross3D a b 3 = 0 := by
  have e := fl_cross a b 3
  have : fl (vecCross3D a b 3) = zero := e.trans (sub_self' (approx_product (ha 3) (hb 3) h).1)
  rw [← wd_fl (w := vecCross3D a b 3) (by rw [this, zero_fin]; simp), this]
  decide

/-- **C126**: the cross product of a vector and itself is zero, if the products do not overflow. -/
theorem C126_self {a : Vec} (ha : FiniteVec a) (h : ∀ i j, |rv a i * rv a j| ≤ 2 ^ 127) : vecCross3D a a = fun _ => 0 := by
  funext i
  have e := fl_cross a a i
  rw [mul_comm' (fl (a (nextOf3 (nextOf3 i))))] at e
  have : fl (vecCross3D a a i) = zero := e.trans (sub_self' (approx_product (ha _) (ha _) (h _ _)).1)
  rw [← wd_fl (w := vecCross3D a a i) (by rw [this, zero_fin]; simp), this]
  decide

theorem sub_swap (x y : Flt) : sub y x = neg (sub x y) ∨ (sub x y = zero ∧ sub y x = zero) := by
  have rn : ∀ s num den, B32.round (!s) num den = neg (B32.round s num den) := by
    intro s num den
    unfold B32.round pack
    repeat' split
    all_goals rfl
  match x, y with
  | .nan, .nan => left; rfl
  | .nan, .inf _ => left; rfl
  | .nan, .fin .. => left; rfl
  | .inf s, .nan => left; rfl
  | .fin .., .nan => left; rfl
  | .inf s, .inf s' => left; cases s <;> cases s' <;> decide
  | .inf s, .fin s' m' q' => left; simp [B32.sub, neg, add]
  | .fin s m q, .inf s' => left; simp [B32.sub, neg, add]
  | .fin s m q, .fin s' m' q' =>
    by_cases hs : s = s'
    · subst hs
      rcases Nat.lt_trichotomy (m * 2 ^ q) (m' * 2 ^ q') with h | h | h
      · left
        simp only [B32.sub, neg, add]
        rw [if_neg (by cases s <;> decide), if_neg (by omega), if_pos h, if_neg (by cases s <;> decide), if_neg (by omega), if_neg (by omega)]
        exact (congrArg (fun t => B32.round t _ 1) (Bool.not_not s).symm).trans (rn _ _ _)
      · right
        constructor
        · simp only [B32.sub, neg, add]
          rw [if_neg (by cases s <;> decide), if_pos h]; rfl
        · simp only [B32.sub, neg, add]
          rw [if_neg (by cases s <;> decide), if_pos h.symm]; rfl
      · left
        simp only [B32.sub, neg, add]
        rw [if_neg (by cases s <;> decide), if_neg (by omega), if_neg (by omega), if_neg (by cases s <;> decide), if_neg (by omega), if_pos h]
        exact rn _ _ _
    · have h1 : s' = !s := by cases s <;> cases s' <;> simp_all
      subst h1
      left
      simp only [B32.sub, neg, add, Bool.not_not, if_true]
      rw [Nat.add_comm]
      exact rn _ _ _

/-- **C126**: exchanging the factors changes the sign of every component that is not zero, for all floats. -/
theorem C126_anti (a b : Vec) (i : Fin 4) :
    fl (vecCross3D b a i) = neg (fl (vecCross3D a b i)) ∨ (fl (vecCross3D a b i) = zero ∧ fl (vecCross3D b a i) = zero) := by
  rw [fl_cross, fl_cross, mul_comm' (fl (b (nextOf3 i))), mul_comm' (fl (b (nextOf3 (nextOf3 i))))]
  exact sub_swap _ _

/-- (−4, 8, −4, 0). -/
example : vecCross3D vecLow vecHigh 0 = 0xC0800000 ∧ vecCross3D vecLow vecHigh 1 = 0x41000000 ∧ vecCross3D vecLow vecHigh 2 = 0xC0800000 ∧
    vecCross3D vecLow vecHigh 3 = 0 := by decide +kernel

/-! ## C127 -/

/-- **C127** for `VecTransformVector3D`: every component is the product of a row of the matrix with the given columns and the vector. -/
theorem C127_vector {c1 c2 c3 v : Vec} (h1 : FiniteVec c1) (h2 : FiniteVec c2) (h3 : FiniteVec c3) (hv : FiniteVec v) (i : Fin 4)
    (h : |rv c1 i * rv v 0| + |rv c2 i * rv v 1| + |rv c3 i * rv v 2| ≤ 2 ^ 126) :
    Spec.F32.Finite (fl (vecTransformVector3D c1 c2 c3 v i)) ∧
    |rv (vecTransformVector3D c1 c2 c3 v) i - (rv c1 i * rv v 0 + rv c2 i * rv v 1 + rv c3 i * rv v 2)| ≤
      4 / 2 ^ 24 * (|rv c1 i * rv v 0| + |rv c2 i * rv v 1| + |rv c3 i * rv v 2|) + 4 / 2 ^ 150 := by
  have e : fl (vecTransformVector3D c1 c2 c3 v i) =
      add (add (mul (fl (c1 i)) (fl (v 0))) (mul (fl (c2 i)) (fl (v 1)))) (mul (fl (c3 i)) (fl (v 2))) := by
    match i with
    | 0 | 1 | 2 | 3 => simp [vecTransformVector3D, ps, vecSmearX, vecSmearY, vecSmearZ, shuffle]
  have := approx_three (h1 i) (hv 0) (h2 i) (hv 1) (h3 i) (hv 2) h
  unfold rv at *
  rw [e]
  refine ⟨this.1, this.2.trans ?_⟩
  unfold eps tiny
  have n1 := abs_nonneg (real (fl (c1 i)) * real (fl (v 0)))
  have n2 := abs_nonneg (real (fl (c2 i)) * real (fl (v 1)))
  have n3 := abs_nonneg (real (fl (c3 i)) * real (fl (v 2)))
  linarith

/-- **C127** for `VecTransformPoint3D`: the fourth column is the translation. -/
theorem C127_point {c1 c2 c3 c4 v : Vec} (h1 : FiniteVec c1) (h2 : FiniteVec c2) (h3 : FiniteVec c3) (h4 : FiniteVec c4) (hv : FiniteVec v)
    (i : Fin 4) (h : |rv c1 i * rv v 0| + |rv c2 i * rv v 1| + |rv c3 i * rv v 2| + |rv c4 i| ≤ 2 ^ 126) :
    Spec.F32.Finite (fl (vecTransformPoint3D c1 c2 c3 c4 v i)) ∧
    |rv (vecTransformPoint3D c1 c2 c3 c4 v) i - (rv c1 i * rv v 0 + rv c2 i * rv v 1 + rv c3 i * rv v 2 + rv c4 i)| ≤
      5 / 2 ^ 24 * (|rv c1 i * rv v 0| + |rv c2 i * rv v 1| + |rv c3 i * rv v 2| + |rv c4 i|) + 4 / 2 ^ 150 := by
  have e : fl (vecTransformPoint3D c1 c2 c3 c4 v i) =
      add (add (add (mul (fl (c1 i)) (fl (v 0))) (mul (fl (c2 i)) (fl (v 1)))) (mul (fl (c3 i)) (fl (v 2)))) (fl (c4 i)) := by
    match i with
    | 0 | 1 | 2 | 3 => simp [vecTransformPoint3D, ps, vecSmearX, vecSmearY, vecSmearZ, shuffle]
  unfold rv at *
  rw [e]
  have n1 := abs_nonneg (real (fl (c1 i)) * real (fl (v 0)))
  have n2 := abs_nonneg (real (fl (c2 i)) * real (fl (v 1)))
  have n3 := abs_nonneg (real (fl (c3 i)) * real (fl (v 2)))
  have n4 := abs_nonneg (real (fl (c4 i)))
  have t := approx_three (h1 i) (hv 0) (h2 i) (hv 1) (h3 i) (hv 2) (by linarith)
  have g := abs_add_three (real (fl (c1 i)) * real (fl (v 0))) (real (fl (c2 i)) * real (fl (v 1))) (real (fl (c3 i)) * real (fl (v 2)))
  have s := approx_more t (h4 i) (by unfold eps tiny; norm_num [-abs_mul] at h ⊢; linarith)
  refine ⟨s.1, s.2.trans ?_⟩
  unfold eps tiny
  norm_num [-abs_mul]
  linarith

/-- A multiple of an approximate number. -/
theorem approx_scale {b d : Flt} {r S : ℝ} (hb : Spec.F32.Finite b) (hd : Approx d r (7 / 2 * eps * S + 7 / 2 * tiny)) (hr : |r| ≤ S)
    (h : S * |real b| ≤ 2 ^ 125) :
    Approx (mul b d) (r * real b) ((5 * eps * S + 4 * tiny) * |real b| + tiny) := by
  have n := abs_nonneg (real b)
  have h0 : 0 ≤ S := (abs_nonneg _).trans hr
  have hb' : |real b| ≤ 2 ^ 128 := by
    rw [abs_le]
    have := real_le hb
    have h' := real_le (finite_neg hb)
    rw [real_neg] at h'
    constructor <;> linarith
  have k1 := hd.abs_le hr
  have k2 : |real d| * |real b| ≤ (S + (7 / 2 * eps * S + 7 / 2 * tiny)) * |real b| := mul_le_mul_of_nonneg_right k1 n
  have k3 : tiny * |real b| ≤ 1 := by
    refine (mul_le_mul_of_nonneg_left hb' (by unfold tiny; positivity)).trans ?_
    unfold tiny
    norm_num
  have k4 : |real b * real d| = |real d| * |real b| := by rw [abs_mul, mul_comm]
  have p := approx_product hb hd.1 (by
    rw [k4]
    refine k2.trans ?_
    have : (S + (7 / 2 * eps * S + 7 / 2 * tiny)) * |real b| = S * |real b| + 7 / 2 * eps * (S * |real b|) + 7 / 2 * (tiny * |real b|) := by ring
    rw [this]
    unfold eps at *
    norm_num at h ⊢
    linarith)
  refine ⟨p.1, ?_⟩
  have t := abs_add_le (real (mul b d) - real b * real d) (real b * real d - r * real b)
  rw [sub_add_sub_cancel] at t
  have u : |real b * real d - r * real b| = |real d - r| * |real b| := by
    rw [← abs_mul]
    congr 1
    ring
  have w := mul_le_mul_of_nonneg_right hd.2 n
  have p2 := p.2
  rw [k4] at p2
  rw [u] at t
  have e1 : eps * (|real d| * |real b|) ≤ eps * ((S + (7 / 2 * eps * S + 7 / 2 * tiny)) * |real b|) :=
    mul_le_mul_of_nonneg_left k2 (by unfold eps; positivity)
  have z1 : 0 ≤ S * |real b| := by positivity
  have e2 : eps * ((S + (7 / 2 * eps * S + 7 / 2 * tiny)) * |real b|) ≤ 3 / 2 * eps * (S * |real b|) + 1 / 2 * (tiny * |real b|) := by
    unfold eps tiny
    norm_num
    linarith
  have e3 : (5 * eps * S + 4 * tiny) * |real b| = 5 * eps * (S * |real b|) + 4 * (tiny * |real b|) := by ring
  have e4 : (7 / 2 * eps * S + 7 / 2 * tiny) * |real b| = 7 / 2 * eps * (S * |real b|) + 7 / 2 * (tiny * |real b|) := by ring
  rw [e3]
  rw [e4] at w
  linarith

theorem approx_project {x y d : Flt} {r S : ℝ} (hx : Spec.F32.Finite x) (hy : Spec.F32.Finite y) (t : Approx d r (7 / 2 * eps * S + 7 / 2 * tiny))
    (g : |r| ≤ S) (h : S ≤ 2 ^ 126) (hi : |real x| + S * |real y| ≤ 2 ^ 125) :
    (Spec.F32.Finite (mul y d) ∧ |real (mul y d) - r * real y| ≤ (5 / 2 ^ 24 * S + 4 / 2 ^ 150) * |real y| + 1 / 2 ^ 150) ∧
    (Spec.F32.Finite (sub x (mul y d)) ∧ |real (sub x (mul y d)) - (real x - r * real y)| ≤
      1 / 2 ^ 24 * |real x| + (7 / 2 ^ 24 * S + 5 / 2 ^ 150) * |real y| + 2 / 2 ^ 150) := by
  have n1 := abs_nonneg (real x)
  have n2 := abs_nonneg (real y)
  have p := approx_scale hy t g (by linarith)
  refine ⟨⟨p.1, p.2.trans (le_of_eq ?_)⟩, ?_⟩
  · unfold eps tiny; ring
  have h0 : 0 ≤ S := (abs_nonneg _).trans g
  have hb' : |real y| ≤ 2 ^ 128 := by
    rw [abs_le]
    have := real_le hy
    have h' := real_le (finite_neg hy)
    rw [real_neg] at h'
    constructor <;> linarith
  have z : |r * real y| ≤ S * |real y| := by
    rw [abs_mul]
    exact mul_le_mul_of_nonneg_right g n2
  have z1 : 0 ≤ S * |real y| := by positivity
  have s := approx_diff (Approx.exact hx) p (by
    unfold eps tiny at *
    norm_num [-abs_mul] at hi hb' ⊢
    linarith)
  refine ⟨s.1, s.2.trans ?_⟩
  unfold eps tiny
  norm_num [-abs_mul]
  linarith

/-- **C127** for `VecProject3D` and `VecReject3D`: with `d` the dot product of `a` and `b`, the components of the first are those of `d` times
`b`, and those of the second are those of `a` minus `d` times `b`. -/
theorem C127_project {a b : Vec} (ha : FiniteVec a) (hb : FiniteVec b) {S : ℝ} (i : Fin 4)
    (hS : S = |rv a 0 * rv b 0| + |rv a 1 * rv b 1| + |rv a 2 * rv b 2|) (h : S ≤ 2 ^ 126) (hi : |rv a i| + S * |rv b i| ≤ 2 ^ 125) :
    (Spec.F32.Finite (fl (vecProject3D a b i)) ∧
      |rv (vecProject3D a b) i - (rv a 0 * rv b 0 + rv a 1 * rv b 1 + rv a 2 * rv b 2) * rv b i| ≤
        (5 / 2 ^ 24 * S + 4 / 2 ^ 150) * |rv b i| + 1 / 2 ^ 150) ∧
    (Spec.F32.Finite (fl (vecReject3D a b i)) ∧
      |rv (vecReject3D a b) i - (rv a i - (rv a 0 * rv b 0 + rv a 1 * rv b 1 + rv a 2 * rv b 2) * rv b i)| ≤
        1 / 2 ^ 24 * |rv a i| + (7 / 2 ^ 24 * S + 5 / 2 ^ 150) * |rv b i| + 2 / 2 ^ 150) := by
  have e : fl (vecDot3D a b 0) = add (add (mul (fl (a 0)) (fl (b 0))) (mul (fl (a 1)) (fl (b 1)))) (mul (fl (a 2)) (fl (b 2))) := by
    simp [vecDot3D, ss, ps, vecSmearY, vecSmearZ, shuffle]
  have e1 : fl (vecProject3D a b i) = mul (fl (b i)) (fl (vecDot3D a b 0)) := by
    match i with
    | 0 | 1 | 2 | 3 => simp [vecProject3D, ps, vecSmearX, shuffle]
  have e2 : fl (vecReject3D a b i) = sub (fl (a i)) (mul (fl (b i)) (fl (vecDot3D a b 0))) := by
    match i with
    | 0 | 1 | 2 | 3 => simp [vecReject3D, ps, vecSmearX, shuffle]
  have t := approx_three (ha 0) (hb 0) (ha 1) (hb 1) (ha 2) (hb 2) (hS ▸ h)
  have g := abs_add_three (real (fl (a 0)) * real (fl (b 0))) (real (fl (a 1)) * real (fl (b 1))) (real (fl (a 2)) * real (fl (b 2)))
  unfold rv at *
  rw [← hS] at t g
  rw [← e] at t
  rw [e1, e2]
  exact approx_project (ha i) (hb i) t g h hi

/-- The columns (1, 2, 3, 4), (5, 6, 7, 8), (1, 2, 3, 4) and (5, 6, 7, 8), and the vector (1, 2, 3): 14 and 19 are the first components. -/
example : vecTransformVector3D vecLow vecHigh vecLow vecLow 0 = 0x41600000 ∧ vecTransformPoint3D vecLow vecHigh vecLow vecHigh vecLow 0 = 0x41980000 ∧
    vecProject3D vecLow vecHigh 1 = 0x43640000 ∧ vecReject3D vecLow vecHigh 1 = 0xC3620000 := by decide +kernel

/-! ## C128 -/

/-- The documentation of `rsqrtps`: a relative error of at most `1.5 * 2^(-12)` for normal floats; subnormal floats count as zero. -/
structure RsqrtWord (r : Word → Word) : Prop where
  accurate : ∀ w, Spec.F32.Finite (fl w) → 1 / 2 ^ 126 ≤ real (fl w) →
    Spec.F32.Finite (fl (r w)) ∧ |real (fl (r w)) * √(real (fl w)) - 1| ≤ 3 / 2 ^ 13
  small : ∀ w, w.toNat < 2 ^ 23 → fl (r w) = .inf false
  infinite : fl (r 0x7F800000) = zero

/-- **C128**: the components of `VecInverseSqrt(v)` and `VecSqrt(v)` and the first components of the functions for scalars have a relative
error of at most `10^(-5)`, if the component of `v` is a positive finite float; and the root of zero is zero. -/
def C128_statement : Prop :=
  ∀ r, RsqrtWord r → ∀ (v : Vec) (i : Fin 4),
    (Spec.F32.Finite (fl (v i)) → 0 < rv v i →
      Relative (fl (vecInverseSqrt r v i)) (1 / √(rv v i)) (1 / 10 ^ 5) ∧ Relative (fl (vecSqrt r v i)) √(rv v i) (1 / 10 ^ 5) ∧
      (i = 0 → Relative (fl (vecInverseSqrtScalar r v 0)) (1 / √(rv v 0)) (1 / 10 ^ 5) ∧
        Relative (fl (vecSqrtScalar r v 0)) √(rv v 0) (1 / 10 ^ 5))) ∧
    (v i = 0 → vecSqrt r v i = 0 ∧ (i = 0 → vecSqrtScalar r v 0 = 0))

/-- One component of `VecInverseSqrt` and of `VecSqrt`. -/
def newtonW (r : Word → Word) (w : Word) : Word := mulW (mulW (subW 0x40400000 (mulW w (mulW (r w) (r w)))) (r w)) 0x3F000000
def rootW (r : Word → Word) (w : Word) : Word := andnotW (eqW w 0) (mulW (newtonW r w) w)

theorem inverse_lane (r : Word → Word) (v : Vec) (i : Fin 4) : vecInverseSqrt r v i = newtonW r (v i) ∧ vecSqrt r v i = rootW r (v i) := ⟨rfl, rfl⟩

theorem inverse_scalar (r : Word → Word) (v : Vec) : vecInverseSqrtScalar r v 0 = newtonW r (v 0) ∧ vecSqrtScalar r v 0 = rootW r (v 0) := ⟨rfl, rfl⟩

theorem fl_newtonW (r : Word → Word) (w : Word) :
    fl (newtonW r w) = mul (mul (sub (const 0x40400000) (mul (fl w) (mul (fl (r w)) (fl (r w))))) (fl (r w))) (const 0x3F000000) := by
  unfold newtonW
  simp only [fl_mulW, fl_subW]
  rfl

theorem normal_word {r : Word → Word} (hr : RsqrtWord r) {w : Word} (hx : Spec.F32.Finite (fl w)) (h : 1 / 2 ^ 126 ≤ real (fl w)) :
    Relative (fl (newtonW r w)) (1 / √(real (fl w))) (1 / 10 ^ 6) ∧ Relative (fl (rootW r w)) √(real (fl w)) (1 / 10 ^ 6) := by
  obtain ⟨r1, r2⟩ := root_normal hx h
  obtain ⟨a1, a2⟩ := hr.accurate w hx h
  have n := newton_vec hx r1 r2 ⟨a1, by rw [sub_self, abs_zero]⟩ (a2.trans (by norm_num))
  rw [← fl_newtonW] at n
  refine ⟨(near_relative r1.pos n).mono (by norm_num), ?_⟩
  have e : eqW w 0 = 0 := by
    unfold eqW
    rw [if_neg]
    rw [fl_zero]
    obtain ⟨s, m, q, e, -⟩ := hx
    rw [e] at h ⊢
    intro hh
    have h0 : scaled s m q = 0 := by
      rw [zero_fin] at hh
      have k : lt (.fin s m q) (.fin false 0 0) = false ∧ lt (.fin false 0 0) (.fin s m q) = false := by simpa [MathFns.eq] using hh
      simp only [lt, decide_eq_false_iff_not] at k
      have z : scaled false 0 0 = 0 := rfl
      omega
    have : real (.fin s m q) = 0 := by
      unfold real
      rw [show val (.fin s m q) = scaled s m q from rfl, h0]
      simp
    rw [this] at h
    norm_num at h
  have e' : rootW r w = mulW (newtonW r w) w := by
    unfold rootW andnotW
    rw [e, show ~~~(0 : Word) = BitVec.allOnes 32 by decide, BitVec.allOnes_and]
  rw [e', fl_mulW]
  exact (near_relative' r1.pos (Trig.near_root hx r1 r2 n (by norm_num))).mono (by norm_num)

/-- C128 for normal floats and for zero. -/
theorem C128_root_partial {r : Word → Word} (hr : RsqrtWord r) (v : Vec) (i : Fin 4) :
    (Spec.F32.Finite (fl (v i)) → 1 / 2 ^ 126 ≤ rv v i →
      Relative (fl (vecInverseSqrt r v i)) (1 / √(rv v i)) (1 / 10 ^ 6) ∧ Relative (fl (vecSqrt r v i)) √(rv v i) (1 / 10 ^ 6) ∧
      (i = 0 → Relative (fl (vecInverseSqrtScalar r v 0)) (1 / √(rv v 0)) (1 / 10 ^ 6) ∧
        Relative (fl (vecSqrtScalar r v 0)) √(rv v 0) (1 / 10 ^ 6))) ∧
    ((v i = 0 ∨ v i = 0x80000000) → vecSqrt r v i = 0 ∧ (i = 0 → vecSqrtScalar r v 0 = 0)) := by
  refine ⟨fun h1 h2 => ?_, fun h => ?_⟩
  · have n := normal_word hr h1 h2
    rw [(inverse_lane r v i).1, (inverse_lane r v i).2]
    refine ⟨n.1, n.2, fun hi => ?_⟩
    subst hi
    rw [(inverse_scalar r v).1, (inverse_scalar r v).2]
    exact n
  · have k : ∀ w : Word, w = 0 ∨ w = 0x80000000 → rootW r w = 0 := by
      intro w hw
      have : eqW w 0 = BitVec.allOnes 32 := by rcases hw with rfl | rfl <;> decide
      unfold rootW andnotW
      rw [this, show ~~~(BitVec.allOnes 32) = (0 : Word) by decide]
      exact BitVec.zero_and
    refine ⟨k _ h, fun hi => ?_⟩
    subst hi
    exact k _ h

/-- The subnormal floats. -/
theorem fl_small {w : Word} (h : w.toNat < 2 ^ 23) : fl w = .fin false w.toNat 0 := by
  unfold fl ofBits
  rw [show w.toNat / 2 ^ 23 % 256 = 0 by omega, show w.toNat % 2 ^ 23 = w.toNat by omega, show w.toNat % 2 ^ 32 = w.toNat by omega,
    show decide (2 ^ 31 ≤ w.toNat) = false by simp; omega]
  rfl

/-- What happens to the others: the root of a positive subnormal float is minus infinity, the inverse root of one is minus infinity, the inverse
root of zero is NaN, and the roots of infinity are NaN. -/
theorem C128_special {r : Word → Word} (hr : RsqrtWord r) {w : Word} :
    (0 < w.toNat → w.toNat < 2 ^ 23 → fl (newtonW r w) = .inf true ∧ fl (rootW r w) = .inf true) ∧
    fl (newtonW r 0) = .nan ∧ fl (newtonW r 0x7F800000) = .nan ∧ fl (rootW r 0x7F800000) = .nan := by
  refine ⟨fun h0 h => ?_, ?_, ?_, ?_⟩
  · have hw := fl_small h
    have n : fl (newtonW r w) = .inf true := by
      rw [fl_newtonW, hr.small w h, hw]
      have : mul (.fin false w.toNat 0) (mul (.inf false) (.inf false)) = .inf false := by
        simp [mul]; omega
      rw [this]
      decide
    refine ⟨n, ?_⟩
    have e : eqW w 0 = 0 := by
      unfold eqW
      rw [if_neg]
      rw [fl_zero, hw, zero_fin]
      simp [MathFns.eq, lt, scaled]
      omega
    unfold rootW andnotW
    rw [e, show ~~~(0 : Word) = BitVec.allOnes 32 by decide, BitVec.allOnes_and, fl_mulW, n, hw]
    simp [mul]
    omega
  · rw [fl_newtonW, hr.small 0 (by decide)]
    decide
  · rw [fl_newtonW, hr.infinite]
    decide
  · have : eqW 0x7F800000 0 = 0 := by decide
    unfold rootW andnotW
    rw [this, show ~~~(0 : Word) = BitVec.allOnes 32 by decide, BitVec.allOnes_and, fl_mulW, fl_newtonW, hr.infinite]
    decide

/-- The functions for scalars leave 3.0 in the other components. -/
theorem C128_others (r : Word → Word) (v : Vec) (i : Fin 4) (hi : i ≠ 0) :
    vecInverseSqrtScalar r v i = 0x40400000 ∧ vecSqrtScalar r v i = if eq (fl (v i)) zero then 0 else 0x40400000 := by
  have e : vecInverseSqrtScalar r v i = 0x40400000 := by simp [vecInverseSqrtScalar, ss, hi, vecLoadVectorConstant]
  refine ⟨e, ?_⟩
  have : vecSqrtScalar r v i = andnotW (eqW (v i) 0) (vecInverseSqrtScalar r v i) := by
    simp [vecSqrtScalar, vecAndc, ps, vecMulScalar, ss, hi, vecMaskCmpeq, vecFloatGetZero]
  rw [this, e]
  unfold eqW
  rw [fl_zero]
  split <;> decide

/-- An instruction that meets its documentation. -/
def someRsqrtWord (w : Word) : Word := if w.toNat < 2 ^ 23 then 0x7F800000 else wd (someRsqrt (fl w))

theorem newtonPlain_valid (x y : Flt) : Valid (newtonPlain x y) := by
  unfold newtonPlain
  exact mul_valid _ _

theorem someRsqrt_valid (x : Flt) : Valid (someRsqrt x) := by
  unfold someRsqrt
  split
  · exact zero_fin ▸ zero_valid false
  · split
    · exact nan_valid
    · exact newtonPlain_valid _ _

theorem someRsqrtWord_spec : RsqrtWord someRsqrtWord where
  accurate w hw h := by
    have : ¬ w.toNat < 2 ^ 23 := by
      intro hs
      rw [fl_small hs, real_fin, if_neg (by simp), one_mul, le_div_iff₀ (by positivity), Nat.pow_zero, Nat.mul_one] at h
      have : (w.toNat : ℝ) < 2 ^ 23 := by exact_mod_cast hs
      norm_num at *
      linarith
    unfold someRsqrtWord
    rw [if_neg this, fl_wd (someRsqrt_valid _)]
    exact someRsqrt_spec.accurate _ hw h
  small w h := by
    unfold someRsqrtWord
    rw [if_pos h]
    decide
  infinite := by decide

/-- The root of the smallest positive float is minus infinity. -/
theorem C128_violated : ¬ C128_statement := by
  intro h
  have hw : fl (1 : Word) = .fin false 1 0 := by decide
  have k := (h _ someRsqrtWord_spec (fun _ => 1) 1).1 (by rw [hw]; exact ⟨_, _, _, rfl, by decide, by decide, .inl rfl⟩) (by
    unfold rv
    rw [hw, real_fin]
    norm_num)
  obtain ⟨-, ⟨⟨s, m, q, e, -⟩, -⟩, -⟩ := k
  rw [(inverse_lane _ _ _).2, ((C128_special someRsqrtWord_spec (w := 1)).1 (by decide) (by decide)).2] at e
  cases e

/-- The root of four is one unit below two, with this instruction; the inverse root of two is `0x3F3504F3` to the nearest float. -/
example : vecSqrt someRsqrtWord (fun i => if i = 0 then 0x40000000 else 0x40800000) 1 = 0x3FFFFFFF ∧
    vecInverseSqrt someRsqrtWord (fun i => if i = 0 then 0x40000000 else 0x40800000) 0 = 0x3F3504F3 := by
  decide +kernel

end Verif.Props
