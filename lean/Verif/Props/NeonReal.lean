import Verif.Lemmas.NeonReal
import Verif.Props.Neon

/-!
# Accuracy of the vectors of floats on NEON (C154 to C157)
-/

namespace Verif.Props

open Verif Verif.B32 Verif.MathFns Verif.Spec.F32 Verif.Simd

/-! ## C154 -/

/-- **C154**: on NEON, too, the quotients of components are the floats nearest to the exact quotients, unless these are too large (as in C121). -/
def C154_statement : Prop :=
  ∀ (a b : Vec) (i : Fin 4), Spec.F32.Finite (fl (a i)) → Spec.F32.Finite (fl (b i)) → rv b i ≠ 0 → |rv a i / rv b i| ≤ 2 ^ 127 →
    NearestReal (fl (Neon.vecDiv a b i)) (rv a i / rv b i)

theorem fl_neon_div (a b : Vec) (i : Fin 4) : fl (Neon.vecDiv a b i) = mul (fl (a i)) (Neon.refine (fl (b i))) := by
  simp [Neon.vecDiv, ps, Neon.refine]

theorem one_word : Spec.F32.Finite (fl 0x3F800000) ∧ real (fl 0x3F800000) = 1 := by
  have : fl 0x3F800000 = .fin false (2 ^ 23) 126 := by decide
  rw [this, real_fin]
  refine ⟨⟨_, _, _, rfl, by decide, by decide, by decide⟩, ?_⟩
  norm_num

/-- 1 / 1 is 16777152 / 2^24. -/
theorem C154_violated : ¬ C154_statement := by
  intro h
  obtain ⟨o1, o2⟩ := one_word
  have e : fl (Neon.vecDiv vecOnes vecOnes 0) = .fin false 16777152 125 := by decide +kernel
  have := (h vecOnes vecOnes 0 o1 o1 (by show real (fl 0x3F800000) ≠ 0; rw [o2]; norm_num)
    (by show |real (fl 0x3F800000) / real (fl 0x3F800000)| ≤ _; rw [o2]; norm_num)).2 _ o1
  rw [e] at this
  unfold rv vecOnes at this
  rw [o2, real_fin] at this
  norm_num at this

/-- C154 with a relative error of `10^(-5)`, if the divisor is a normal number; `VecDivScalar` computes the same. -/
theorem C154_div_partial (a b : Vec) (i : Fin 4) :
    (Spec.F32.Finite (fl (a i)) → Spec.F32.Finite (fl (b i)) → 1 / 2 ^ 126 ≤ |rv b i| → |rv a i / rv b i| ≤ 2 ^ 126 →
      Spec.F32.Finite (fl (Neon.vecDiv a b i)) ∧
      |rv (Neon.vecDiv a b) i - rv a i / rv b i| ≤ 1 / 10 ^ 5 * |rv a i / rv b i| + 1 / 2 ^ 150) ∧
    Neon.vecDivScalar a b 0 = Neon.vecDiv a b 0 := by
  refine ⟨fun ha hb h1 h2 => ?_, rfl⟩
  unfold rv at *
  rw [fl_neon_div]
  exact Neon.div_near ha hb h1 h2

/-- Divisors below `2^(-128)`: the estimate of the reciprocal is infinite, and its correction gives an infinity with the wrong sign, or NaN. -/
theorem C154_tiny (a b : Vec) (i : Fin 4) (ha : Spec.F32.Finite (fl (a i))) (hb : Spec.F32.Finite (fl (b i))) (h0 : rv b i ≠ 0)
    (h : |rv b i| < 1 / 2 ^ 128) :
    (rv a i = 0 → fl (Neon.vecDiv a b i) = .nan) ∧ (0 < rv a i / rv b i → fl (Neon.vecDiv a b i) = .inf true) ∧
    (rv a i / rv b i < 0 → fl (Neon.vecDiv a b i) = .inf false) := by
  rw [fl_neon_div]
  unfold rv at *
  obtain ⟨s, m, q, e, hc⟩ := ha
  obtain ⟨t, n, r, e', hc'⟩ := hb
  rw [e'] at h0 h
  rw [e, e']
  have hn : n ≠ 0 := by
    intro hn
    apply h0
    rw [real_fin, hn]
    simp
  have hs : n * 2 ^ r < 2 ^ 21 := by
    rw [abs_real_fin, div_lt_div_iff₀ (by positivity) (by positivity), one_mul] at h
    have e : (2 : ℝ) ^ 149 = ((2 ^ 21 : Nat) : ℝ) * 2 ^ 128 := by norm_num
    rw [e] at h
    have := lt_of_mul_lt_mul_right h (by positivity)
    exact_mod_cast this
  have hf : Neon.refine (.fin t n r) = .inf (!t) := by
    have e1 : Neon.recpe (.fin t n r) = .inf t := by
      unfold Neon.recpe
      dsimp only
      rw [if_neg hn, if_pos hs]
    unfold Neon.refine
    rw [e1]
    have e2 : Neon.recipStep (.fin t n r) (.inf t) = .inf true := by
      unfold Neon.recipStep Neon.isInf Neon.isZero
      simp only [Bool.false_and, Bool.and_true, Bool.false_or]
      rw [if_neg (by simpa using hn)]
      have : const 0x40000000 = .fin false (2 ^ 23) 127 := by decide
      rw [this]
      unfold Neon.fmaOver neg
      dsimp only
      have : mul (.fin (!t) n r) (.inf t) = .inf true := by
        simp only [mul]
        rw [if_neg hn]
        cases t <;> rfl
      rw [this]
      rfl
    rw [e2]
    cases t <;> rfl
  rw [hf]
  have sg : ∀ (s : Bool) (m q : Nat), real (.fin s m q) = (if s then -1 else 1) * (((m * 2 ^ q : Nat) : ℝ) / 2 ^ 149) := real_fin
  have np : (0 : ℝ) < ((n * 2 ^ r : Nat) : ℝ) / 2 ^ 149 := by
    have : 0 < n * 2 ^ r := Nat.mul_pos (Nat.pos_of_ne_zero hn) (Nat.two_pow_pos _)
    have : (0 : ℝ) < ((n * 2 ^ r : Nat) : ℝ) := by exact_mod_cast this
    positivity
  have zero_iff : m = 0 ↔ real (.fin s m q) = 0 := by
    rw [sg]
    constructor
    · intro h; subst h; simp
    · intro h
      have : ((m * 2 ^ q : Nat) : ℝ) = 0 := by
        cases s <;> simpa using h
      have : m * 2 ^ q = 0 := by exact_mod_cast this
      exact (Nat.mul_eq_zero.1 this).resolve_right (Nat.two_pow_pos q).ne'
  have mp : m ≠ 0 → (0 : ℝ) < ((m * 2 ^ q : Nat) : ℝ) / 2 ^ 149 := by
    intro hm
    have : 0 < m * 2 ^ q := Nat.mul_pos (Nat.pos_of_ne_zero hm) (Nat.two_pow_pos _)
    have : (0 : ℝ) < ((m * 2 ^ q : Nat) : ℝ) := by exact_mod_cast this
    positivity
  refine ⟨fun h => ?_, fun h => ?_, fun h => ?_⟩
  · simp only [mul]
    rw [if_pos (zero_iff.2 h)]
  · have hm : m ≠ 0 := by
      intro hm
      rw [zero_iff.1 hm, zero_div] at h
      exact lt_irrefl _ h
    simp only [mul]
    rw [if_neg hm]
    have p := div_pos (mp hm) np
    rw [sg, sg] at h
    cases s <;> cases t <;> first | rfl | (exfalso; revert h; simp only [if_true, Bool.false_eq_true, if_false, one_mul, neg_mul, neg_div, div_neg, neg_neg]; intro h; linarith)
  · have hm : m ≠ 0 := by
      intro hm
      rw [zero_iff.1 hm, zero_div] at h
      exact lt_irrefl _ h
    simp only [mul]
    rw [if_neg hm]
    have p := div_pos (mp hm) np
    rw [sg, sg] at h
    cases s <;> cases t <;> first | rfl | (exfalso; revert h; simp only [if_true, Bool.false_eq_true, if_false, one_mul, neg_mul, neg_div, div_neg, neg_neg]; intro h; linarith)

/-- 6 / 3 is 2 minus a few units; 1 divided by the least positive float is minus infinity; 1 / 0 is infinity, and 1 / infinity is zero. -/
example : Neon.vecDiv (fun _ => 0x40C00000) (fun _ => 0x40400000) 0 = 0x3FFFFFF0 ∧
    Neon.vecDiv vecOnes (fun _ => 1) 0 = 0xFF800000 ∧ Neon.vecDiv vecOnes (fun _ => 0) 0 = 0x7F800000 ∧
    Neon.vecDiv vecOnes (fun _ => 0x7F800000) 0 = 0 := by decide +kernel

/-! ## C155 -/

/-- **C155**: on NEON, too, the components of `VecInverseSqrt(v)` and `VecSqrt(v)` have a relative error of at most `10^(-5)`, if the component
of `v` is a positive finite float; the root of zero is zero, and the root of infinity is infinity. -/
def C155_statement : Prop :=
  ∀ (v : Vec) (i : Fin 4),
    (Spec.F32.Finite (fl (v i)) → 0 < rv v i →
      Relative (fl (Neon.vecInverseSqrt v i)) (1 / √(rv v i)) (1 / 10 ^ 5) ∧ Relative (fl (Neon.vecSqrt v i)) √(rv v i) (1 / 10 ^ 5)) ∧
    (v i = 0 → Neon.vecSqrt v i = 0) ∧ (fl (v i) = .inf false → fl (Neon.vecSqrt v i) = .inf false)

/-- One component of `VecInverseSqrt` and of `VecSqrt`. -/
def neonInverse (w : Word) : Word := mulW (Neon.rsqrteW w) (Neon.rsqrtsW w (mulW (Neon.rsqrteW w) (Neon.rsqrteW w)))
def neonRoot (w : Word) : Word := mulW (neonInverse w) w &&& ~~~(eqW w 0)

theorem neon_lane (v : Vec) (i : Fin 4) :
    Neon.vecInverseSqrt v i = neonInverse (v i) ∧ Neon.vecSqrt v i = neonRoot (v i) ∧
    Neon.vecInverseSqrtScalar v i = neonInverse (v i) ∧ Neon.vecSqrtScalar v i = neonRoot (v i) := ⟨rfl, rfl, rfl, rfl⟩

theorem fl_neonInverse (w : Word) : fl (neonInverse w) = Neon.refineRoot (fl w) := by
  simp [neonInverse, Neon.refineRoot]

/-- The inverse root of 0x3F05FFFF is too small by 1.6e-5, the root of the least float is minus infinity, and that of infinity is NaN. -/
theorem C155_violated : (¬ ∀ (v : Vec) (i : Fin 4), Spec.F32.Finite (fl (v i)) → 1 / 2 ^ 126 ≤ rv v i →
      Relative (fl (Neon.vecInverseSqrt v i)) (1 / √(rv v i)) (15 / 10 ^ 6)) ∧
    fl (Neon.vecSqrt (fun _ => 1) 0) = .inf true ∧ fl (Neon.vecInverseSqrt (fun _ => 1) 0) = .inf true ∧
    fl (Neon.vecSqrt (fun _ => 0x7F800000) 0) = .nan ∧ ¬ C155_statement := by
  have k : fl (Neon.vecSqrt (fun _ => 0x7F800000) 0) = .nan := by decide +kernel
  refine ⟨fun h => ?_, by decide +kernel, by decide +kernel, k, fun h => ?_⟩
  · have e : fl (0x3F05FFFF : Word) = .fin false 8781823 125 := by decide
    have e' : fl (Neon.vecInverseSqrt (fun _ => 0x3F05FFFF) 0) = .fin false 11594459 126 := by decide +kernel
    have hf : Spec.F32.Finite (fl (0x3F05FFFF : Word)) := by
      rw [e]
      exact ⟨_, _, _, rfl, by decide, by decide, by decide⟩
    have r : real (fl (0x3F05FFFF : Word)) = 8781823 / 2 ^ 24 := by
      rw [e, real_fin]
      norm_num
    have := h (fun _ => 0x3F05FFFF) 0 hf (by show _ ≤ real (fl (0x3F05FFFF : Word)); rw [r]; norm_num)
    rw [e'] at this
    unfold rv at this
    dsimp only at this
    rw [r] at this
    have h2 := this.2
    rw [real_fin] at h2
    have sp : (0 : ℝ) < √(8781823 / 2 ^ 24) := Real.sqrt_pos.2 (by norm_num)
    have sq : √(8781823 / 2 ^ 24) * √(8781823 / 2 ^ 24) = (8781823 / 2 ^ 24 : ℝ) := Real.mul_self_sqrt (by norm_num)
    generalize √(8781823 / 2 ^ 24 : ℝ) = s at *
    rw [abs_of_pos (show 0 < 1 / s by positivity), abs_le] at h2
    have l := h2.1
    have e3 : (if false = true then (-1 : ℝ) else 1) * (((11594459 * 2 ^ 126 : Nat) : ℝ) / 2 ^ 149) = 11594459 / 2 ^ 23 := by norm_num
    rw [e3] at l
    have l' : (1 - 15 / 10 ^ 6) / s ≤ 11594459 / 2 ^ 23 := by
      have : (1 - 15 / 10 ^ 6) / s = 1 / s - 15 / 10 ^ 6 * (1 / s) := by ring
      rw [this]
      linarith
    rw [div_le_iff₀ sp] at l'
    have : (1 - 15 / 10 ^ 6 : ℝ) * (1 - 15 / 10 ^ 6) ≤ 11594459 / 2 ^ 23 * s * (11594459 / 2 ^ 23 * s) :=
      mul_self_le_mul_self (by norm_num) l'
    have e4 : (11594459 / 2 ^ 23 * s * (11594459 / 2 ^ 23 * s) : ℝ) = 11594459 / 2 ^ 23 * (11594459 / 2 ^ 23) * (s * s) := by ring
    rw [e4, sq] at this
    norm_num at this
  · have := (h (fun _ => 0x7F800000) 0).2.2 (by decide)
    rw [k] at this
    cases this

theorem not_zero_mask {w : Word} (hx : Spec.F32.Finite (fl w)) (h : 0 < real (fl w)) : eqW w 0 = 0 := by
  unfold eqW
  rw [if_neg]
  rw [fl_zero]
  obtain ⟨s, m, q, e, -⟩ := hx
  rw [e] at h ⊢
  intro hh
  have h0 : scaled s m q = 0 := by
    rw [zero_fin] at hh
    have k : lt (.fin s m q) (.fin false 0 0) = false ∧ lt (.fin false 0 0) (.fin s m q) = false := by simpa [MathFns.eq] using hh
    simp only [lt, decide_eq_false_iff_not] at k
    have z : scaled false 0 0 = 0 := rfl
    omega
  have : real (.fin s m q) = 0 := by
    unfold real
    rw [show val (.fin s m q) = scaled s m q from rfl, h0]
    simp
  rw [this] at h
  exact lt_irrefl _ h

/-- C155 with a relative error of `2 * 10^(-5)` for normal numbers; the roots of both zeros are zero, the inverse root of zero is infinity and
that of infinity is zero. -/
theorem C155_root_partial (v : Vec) (i : Fin 4) :
    (Spec.F32.Finite (fl (v i)) → 1 / 2 ^ 126 ≤ rv v i →
      Relative (fl (Neon.vecInverseSqrt v i)) (1 / √(rv v i)) (2 / 10 ^ 5) ∧ Relative (fl (Neon.vecSqrt v i)) √(rv v i) (2 / 10 ^ 5)) ∧
    ((v i = 0 ∨ v i = 0x80000000) → Neon.vecSqrt v i = 0) ∧
    (v i = 0 → fl (Neon.vecInverseSqrt v i) = .inf false) ∧
    (fl (v i) = .inf false → fl (Neon.vecInverseSqrt v i) = zero) ∧
    (Neon.vecInverseSqrtScalar v 0 = Neon.vecInverseSqrt v 0 ∧ Neon.vecSqrtScalar v 0 = Neon.vecSqrt v 0) := by
  obtain ⟨l1, l2, -⟩ := neon_lane v i
  rw [l1, l2]
  refine ⟨fun h1 h2 => ?_, fun h => ?_, fun h => ?_, fun h => ?_, rfl, rfl⟩
  · unfold rv at *
    obtain ⟨r1, r2⟩ := root_normal h1 h2
    constructor
    · rw [fl_neonInverse]
      exact (near_relative r1.pos (Neon.refineRoot_near h1 r1 r2)).mono (by norm_num)
    · have e : neonRoot (v i) = mulW (neonInverse (v i)) (v i) := by
        unfold neonRoot
        rw [not_zero_mask h1 (lt_of_lt_of_le (by positivity) h2), show ~~~(0 : Word) = BitVec.allOnes 32 by decide, BitVec.and_allOnes]
      rw [e, fl_mulW, fl_neonInverse]
      obtain ⟨f1, f2⟩ := Neon.root_near h1 r1 r2
      refine ⟨f1, f2.trans ?_⟩
      rw [abs_of_pos r1.pos]
      exact mul_le_mul_of_nonneg_right (by norm_num) r1.pos.le
  · unfold neonRoot
    have : eqW (v i) 0 = BitVec.allOnes 32 := by rcases h with h | h <;> rw [h] <;> decide
    rw [this, show ~~~(BitVec.allOnes 32) = (0 : Word) by decide]
    exact BitVec.and_zero
  · rw [h]; decide +kernel
  · rw [fl_neonInverse, h]; decide +kernel

/-- The roots of 4. -/
example : Neon.vecInverseSqrt (fun _ => 0x40800000) 0 = 0x3EFFFFA0 ∧ Neon.vecSqrt (fun _ => 0x40800000) 0 = 0x3FFFFFA0 ∧
    Neon.vecSqrt (fun _ => 0x80000000) 0 = 0 := by decide +kernel

/-! ## C156 -/

/-- **C156**: on NEON, `VecMadd` and `VecNmsub` round only once: their components are the floats nearest to the exact results. -/
theorem C156_fused (a b c : Vec) (i : Fin 4) (ha : Spec.F32.Finite (fl (a i))) (hb : Spec.F32.Finite (fl (b i)))
    (hc : Spec.F32.Finite (fl (c i))) :
    (|rv a i * rv b i + rv c i| ≤ 2 ^ 127 → NearestReal (fl (Neon.vecMadd a b c i)) (rv a i * rv b i + rv c i)) ∧
    (|rv c i - rv a i * rv b i| ≤ 2 ^ 127 → NearestReal (fl (Neon.vecNmsub a b c i)) (rv c i - rv a i * rv b i)) ∧
    Neon.vecMaddScalar a b c 0 = Neon.vecMadd a b c 0 ∧ Neon.vecNmsubScalar a b c 0 = Neon.vecNmsub a b c 0 := by
  unfold rv
  refine ⟨fun h => ?_, fun h => ?_, rfl, rfl⟩
  · have e : fl (Neon.vecMadd a b c i) = Neon.fma (fl (a i)) (fl (b i)) (fl (c i)) := Neon.fl_fmaW _ _ _
    rw [e]
    exact (Neon.fma_rounds ha hb hc h).1
  · have e : fl (Neon.vecNmsub a b c i) = Neon.fma (neg (fl (a i))) (fl (b i)) (fl (c i)) := Neon.fl_fmsW _ _ _
    have k : real (neg (fl (a i))) * real (fl (b i)) + real (fl (c i)) = real (fl (c i)) - real (fl (a i)) * real (fl (b i)) := by
      rw [real_neg]; ring
    have := (Neon.fma_rounds (finite_neg ha) hb hc (by rw [k]; exact h)).1
    rw [k] at this
    rw [e]
    exact this

/-- A fused multiplication and addition of an approximate number. -/
theorem approx_fma {x y z : Flt} {r d : ℝ} (hx : Spec.F32.Finite x) (hy : Spec.F32.Finite y) (hz : Approx z r d)
    (h : |real x * real y| + |r| + d ≤ 2 ^ 127) :
    Approx (Neon.fma x y z) (real x * real y + r) (d + eps * (|real x * real y| + |r| + d) + tiny) := by
  have k := hz.abs_le (le_refl |r|)
  have t := abs_add_le (real x * real y) (real z)
  obtain ⟨f, g⟩ := Neon.fma_rounds hx hy hz.1 (by linarith)
  refine ⟨f.1, ?_⟩
  have e : real (Neon.fma x y z) - (real x * real y + r) = (real (Neon.fma x y z) - (real x * real y + real z)) + (real z - r) := by ring
  rw [e]
  refine (abs_add_le _ _).trans ?_
  have : eps * |real x * real y + real z| ≤ eps * (|real x * real y| + |r| + d) :=
    mul_le_mul_of_nonneg_left (by linarith) (by unfold eps; positivity)
  have := hz.2
  linarith

/-- Three products with two fused additions. -/
theorem approx_fused3 {x1 y1 x2 y2 x3 y3 : Flt} (hx1 : Spec.F32.Finite x1) (hy1 : Spec.F32.Finite y1) (hx2 : Spec.F32.Finite x2)
    (hy2 : Spec.F32.Finite y2) (hx3 : Spec.F32.Finite x3) (hy3 : Spec.F32.Finite y3)
    (h : |real x1 * real y1| + |real x2 * real y2| + |real x3 * real y3| ≤ 2 ^ 126) :
    Approx (Neon.fma x3 y3 (Neon.fma x2 y2 (mul x1 y1))) (real x1 * real y1 + real x2 * real y2 + real x3 * real y3)
      (7 / 2 * eps * (|real x1 * real y1| + |real x2 * real y2| + |real x3 * real y3|) + 7 / 2 * tiny) := by
  have n1 := abs_nonneg (real x1 * real y1)
  have n2 := abs_nonneg (real x2 * real y2)
  have n3 := abs_nonneg (real x3 * real y3)
  have p1 := approx_product hx1 hy1 (by norm_num [-abs_mul] at h ⊢; linarith)
  have s1 := approx_fma hx2 hy2 p1 (by unfold eps tiny; norm_num [-abs_mul] at h ⊢; linarith)
  have ab := abs_add_le (real x2 * real y2) (real x1 * real y1)
  have s2 := approx_fma hx3 hy3 s1 (by unfold eps tiny; norm_num [-abs_mul] at h ⊢; linarith)
  rw [show real x3 * real y3 + (real x2 * real y2 + real x1 * real y1) = real x1 * real y1 + real x2 * real y2 + real x3 * real y3 by ring] at s2
  refine s2.mono ?_
  unfold eps tiny
  norm_num [-abs_mul]
  linarith

/-- **C156** for `VecTransformVector3D` and `VecTransformPoint3D` on NEON, with the bounds of C127. -/
theorem C156_transform {c1 c2 c3 c4 v : Vec} (h1 : FiniteVec c1) (h2 : FiniteVec c2) (h3 : FiniteVec c3) (h4 : FiniteVec c4) (hv : FiniteVec v)
    (i : Fin 4) (h : |rv c1 i * rv v 0| + |rv c2 i * rv v 1| + |rv c3 i * rv v 2| + |rv c4 i| ≤ 2 ^ 126) :
    (Spec.F32.Finite (fl (Neon.vecTransformVector3D c1 c2 c3 v i)) ∧
      |rv (Neon.vecTransformVector3D c1 c2 c3 v) i - (rv c1 i * rv v 0 + rv c2 i * rv v 1 + rv c3 i * rv v 2)| ≤
        4 / 2 ^ 24 * (|rv c1 i * rv v 0| + |rv c2 i * rv v 1| + |rv c3 i * rv v 2|) + 4 / 2 ^ 150) ∧
    (Spec.F32.Finite (fl (Neon.vecTransformPoint3D c1 c2 c3 c4 v i)) ∧
      |rv (Neon.vecTransformPoint3D c1 c2 c3 c4 v) i - (rv c1 i * rv v 0 + rv c2 i * rv v 1 + rv c3 i * rv v 2 + rv c4 i)| ≤
        5 / 2 ^ 24 * (|rv c1 i * rv v 0| + |rv c2 i * rv v 1| + |rv c3 i * rv v 2| + |rv c4 i|) + 4 / 2 ^ 150) := by
  have e : fl (Neon.vecTransformVector3D c1 c2 c3 v i) =
      Neon.fma (fl (c3 i)) (fl (v 2)) (Neon.fma (fl (c2 i)) (fl (v 1)) (mul (fl (c1 i)) (fl (v 0)))) := by
    simp [Neon.vecTransformVector3D, Neon.vfmaq, ps, Neon.vecSmearX, Neon.vecSmearY, Neon.vecSmearZ, Neon.dup]
  have e' : fl (Neon.vecTransformPoint3D c1 c2 c3 c4 v i) =
      add (Neon.fma (fl (c3 i)) (fl (v 2)) (Neon.fma (fl (c2 i)) (fl (v 1)) (mul (fl (c1 i)) (fl (v 0))))) (fl (c4 i)) := by
    simp [Neon.vecTransformPoint3D, Neon.vfmaq, ps, Neon.vecSmearX, Neon.vecSmearY, Neon.vecSmearZ, Neon.dup]
  unfold rv at *
  rw [e, e']
  have n1 := abs_nonneg (real (fl (c1 i)) * real (fl (v 0)))
  have n2 := abs_nonneg (real (fl (c2 i)) * real (fl (v 1)))
  have n3 := abs_nonneg (real (fl (c3 i)) * real (fl (v 2)))
  have n4 := abs_nonneg (real (fl (c4 i)))
  have t := approx_fused3 (h1 i) (hv 0) (h2 i) (hv 1) (h3 i) (hv 2) (by linarith)
  have g := abs_add_three (real (fl (c1 i)) * real (fl (v 0))) (real (fl (c2 i)) * real (fl (v 1))) (real (fl (c3 i)) * real (fl (v 2)))
  refine ⟨⟨t.1, t.2.trans ?_⟩, ?_⟩
  · unfold eps tiny
    linarith
  have s := approx_more t (h4 i) (by unfold eps tiny; norm_num [-abs_mul] at h ⊢; linarith)
  refine ⟨s.1, s.2.trans ?_⟩
  unfold eps tiny
  norm_num [-abs_mul]
  linarith

/-- (4097/4096)^2 - 1 is 1/2048 + 1/2^24; SSE loses the last part, NEON does not. And 14 and 19 as for C127. -/
example : Neon.vecMadd vecFine vecFine (fun _ => 0xBF800000) 0 = 0x3A000400 ∧ vecMadd vecFine vecFine (fun _ => 0xBF800000) 0 = 0x3A000000 ∧
    Neon.vecTransformVector3D vecLow vecHigh vecLow vecLow 0 = 0x41600000 ∧
    Neon.vecTransformPoint3D vecLow vecHigh vecLow vecHigh vecLow 0 = 0x41980000 := by decide +kernel

/-! ## C157 -/

/-- **C157**: on NEON, too, the cross product of a vector and itself is zero, exchanging the factors changes the signs, and the fourth component
is zero (as in C126), if no product is too large. -/
def C157_statement : Prop :=
  ∀ a b : Vec, FiniteVec a → FiniteVec b → (∀ i j, |rv a i * rv b j| ≤ 2 ^ 126) →
    Neon.vecCross3D a a = (fun _ => 0) ∧ (∀ i, fl (Neon.vecCross3D b a i) = neg (fl (Neon.vecCross3D a b i)) ∨
      (fl (Neon.vecCross3D a b i) = zero ∧ fl (Neon.vecCross3D b a i) = zero)) ∧ Neon.vecCross3D a b 3 = 0

theorem fl_neon_cross (a b : Vec) :
    fl (Neon.vecCross3D a b 0) = Neon.fma (neg (fl (a 2))) (fl (b 1)) (mul (fl (a 1)) (fl (b 2))) ∧
    fl (Neon.vecCross3D a b 1) = Neon.fma (neg (fl (a 0))) (fl (b 2)) (mul (fl (a 2)) (fl (b 0))) ∧
    fl (Neon.vecCross3D a b 2) = Neon.fma (neg (fl (a 1))) (fl (b 0)) (mul (fl (a 0)) (fl (b 1))) ∧
    Neon.vecCross3D a b 3 = Neon.vecCross3D a b 1 := by
  have b0 : ∀ x y : Word, Neon.bslW 0#32 x y = y := by intro x y; simp [Neon.bslW]; exact BitVec.allOnes_and
  have b1 : ∀ x y : Word, Neon.bslW 4294967295#32 x y = x := by intro x y; simp [Neon.bslW]; exact BitVec.allOnes_and
  refine ⟨?_, ?_, ?_, ?_⟩ <;> simp [Neon.vecCross3D, Neon.vbslq, Neon.crossMask, b0, b1, Neon.uzp0, Neon.uzp1, Neon.vfmsq, ps]

/-- The vector with all components 4097/4096 times itself is not zero, which also breaks the rule of signs; the fourth component is a copy of the
second. -/
theorem C157_violated :
    (∀ i, Neon.vecCross3D vecFine vecFine i = 0xB3800000) ∧ (∀ i, vecCross3D vecFine vecFine i = 0) ∧
    Neon.vecCross3D vecLow vecHigh 3 = 0x41000000 ∧ vecCross3D vecLow vecHigh 3 = 0 ∧ ¬ C157_statement := by
  have k : ∀ i, Neon.vecCross3D vecFine vecFine i = 0xB3800000 := by decide +kernel
  refine ⟨k, by decide +kernel, by decide +kernel, by decide +kernel, fun h => ?_⟩
  have e : fl (0x3F800800 : Word) = .fin false 8390656 126 := by decide
  have hf : FiniteVec vecFine := fun i => by
    show Spec.F32.Finite (fl (0x3F800800 : Word))
    rw [e]
    exact ⟨_, _, _, rfl, by decide, by decide, by decide⟩
  have r : ∀ i, rv vecFine i = 4097 / 4096 := fun i => by
    show real (fl (0x3F800800 : Word)) = _
    rw [e, real_fin]
    norm_num
  have := congrFun (h vecFine vecFine hf hf fun i j => by rw [r, r]; norm_num).1 0
  rw [k] at this
  revert this
  decide

/-- C157: the bounds of C126 hold on NEON for the first three components; the fourth is the second. -/
theorem C157_cross_partial {a b : Vec} (ha : FiniteVec a) (hb : FiniteVec b) :
    (|rv a 1 * rv b 2| + |rv a 2 * rv b 1| ≤ 2 ^ 126 → Spec.F32.Finite (fl (Neon.vecCross3D a b 0)) ∧
      |rv (Neon.vecCross3D a b) 0 - (rv a 1 * rv b 2 - rv a 2 * rv b 1)| ≤
        5 / 2 / 2 ^ 24 * (|rv a 1 * rv b 2| + |rv a 2 * rv b 1|) + 3 / 2 ^ 150) ∧
    (|rv a 2 * rv b 0| + |rv a 0 * rv b 2| ≤ 2 ^ 126 → Spec.F32.Finite (fl (Neon.vecCross3D a b 1)) ∧
      |rv (Neon.vecCross3D a b) 1 - (rv a 2 * rv b 0 - rv a 0 * rv b 2)| ≤
        5 / 2 / 2 ^ 24 * (|rv a 2 * rv b 0| + |rv a 0 * rv b 2|) + 3 / 2 ^ 150) ∧
    (|rv a 0 * rv b 1| + |rv a 1 * rv b 0| ≤ 2 ^ 126 → Spec.F32.Finite (fl (Neon.vecCross3D a b 2)) ∧
      |rv (Neon.vecCross3D a b) 2 - (rv a 0 * rv b 1 - rv a 1 * rv b 0)| ≤
        5 / 2 / 2 ^ 24 * (|rv a 0 * rv b 1| + |rv a 1 * rv b 0|) + 3 / 2 ^ 150) ∧
    Neon.vecCross3D a b 3 = Neon.vecCross3D a b 1 := by
  have key : ∀ {x1 y1 x2 y2 : Flt}, Spec.F32.Finite x1 → Spec.F32.Finite y1 → Spec.F32.Finite x2 → Spec.F32.Finite y2 →
      |real x1 * real y1| + |real x2 * real y2| ≤ 2 ^ 126 →
      Spec.F32.Finite (Neon.fma (neg x2) y2 (mul x1 y1)) ∧
      |real (Neon.fma (neg x2) y2 (mul x1 y1)) - (real x1 * real y1 - real x2 * real y2)| ≤
        5 / 2 / 2 ^ 24 * (|real x1 * real y1| + |real x2 * real y2|) + 3 / 2 ^ 150 := by
    intro x1 y1 x2 y2 hx1 hy1 hx2 hy2 h
    have n1 := abs_nonneg (real x1 * real y1)
    have n2 := abs_nonneg (real x2 * real y2)
    have p1 := approx_product hx1 hy1 (by norm_num [-abs_mul] at h ⊢; linarith)
    have e : |real (neg x2) * real y2| = |real x2 * real y2| := by rw [real_neg, neg_mul, abs_neg]
    have s := approx_fma (finite_neg hx2) hy2 p1 (by rw [e]; unfold eps tiny; norm_num [-abs_mul] at h ⊢; linarith)
    rw [e, show real (neg x2) * real y2 + real x1 * real y1 = real x1 * real y1 - real x2 * real y2 by rw [real_neg]; ring] at s
    refine ⟨s.1, s.2.trans ?_⟩
    unfold eps tiny
    norm_num [-abs_mul]
    linarith
  obtain ⟨e0, e1, e2, e3⟩ := fl_neon_cross a b
  unfold rv
  rw [e0, e1, e2]
  exact ⟨key (ha 1) (hb 2) (ha 2) (hb 1), key (ha 2) (hb 0) (ha 0) (hb 2), key (ha 0) (hb 1) (ha 1) (hb 0), e3⟩

/-- (−4, 8, −4), as on SSE. -/
example : List.map (Neon.vecCross3D vecLow vecHigh) [0, 1, 2, 3] = [0xC0800000, 0x41000000, 0xC0800000, 0x41000000] := by decide +kernel

end Verif.Props
