import Verif.Model.Basic

/-!
# Properties of the integer functions (C87 to C90)
-/

namespace Verif.Props

open Verif Verif.Basic

namespace BasicInt

theorem fit_ok {w : Nat} (hw : 0 < w) {n : Int} (h1 : -(2 ^ (w - 1) : Int) ≤ n) (h2 : n < 2 ^ (w - 1)) :
    ∃ r : BitVec w, fit w n = .ok r ∧ r.toInt = n := by
  refine ⟨BitVec.ofInt w n, by unfold fit; rw [if_pos ⟨h1, h2⟩], ?_⟩
  rw [BitVec.toInt_ofInt]
  have e : (2 ^ w : Int) = 2 * 2 ^ (w - 1) := by
    obtain ⟨v, rfl⟩ : ∃ v, w = v + 1 := ⟨w - 1, by omega⟩
    rw [Nat.add_sub_cancel, Int.pow_succ]; omega
  have e' : ((2 ^ w : Nat) : Int) = 2 * 2 ^ (w - 1) := by rw [← e]; simp
  refine Int.bmod_eq_of_le ?_ ?_ <;> rw [e'] <;> omega

theorem fit_ub {w : Nat} {n : Int} (h : n < -(2 ^ (w - 1) : Int) ∨ 2 ^ (w - 1) ≤ n) : fit w n = .ub := by
  unfold fit; rw [if_neg (by omega)]

theorem toInt_bounds {w : Nat} (hw : 0 < w) (x : BitVec w) : -(2 ^ (w - 1) : Int) ≤ x.toInt ∧ x.toInt < 2 ^ (w - 1) :=
  ⟨BitVec.le_toInt x, BitVec.toInt_lt⟩

theorem signMask_neg {w : Nat} (hw : 0 < w) {x : BitVec w} (h : x.toInt < 0) : signMask x = BitVec.allOnes w := by
  have hm : x.msb = true := by rw [BitVec.msb_eq_toInt]; simpa using h
  unfold signMask
  ext i hi
  rw [BitVec.getElem_sshiftRight]
  simp only [BitVec.getElem_allOnes]
  split
  · rw [← BitVec.getLsbD_eq_getElem]
    have : w - 1 + i = w - 1 := by omega
    rw [this]; rw [BitVec.msb_eq_getLsbD_last] at hm; exact hm
  · exact hm

theorem signMask_nonneg {w : Nat} (hw : 0 < w) {x : BitVec w} (h : 0 ≤ x.toInt) : signMask x = 0 := by
  have hm : x.msb = false := by rw [BitVec.msb_eq_toInt]; simpa using h
  unfold signMask
  ext i hi
  rw [BitVec.getElem_sshiftRight]
  simp only [BitVec.ofNat_eq_ofNat, BitVec.getElem_zero]
  split
  · rw [← BitVec.getLsbD_eq_getElem]
    have : w - 1 + i = w - 1 := by omega
    rw [this]; rw [BitVec.msb_eq_getLsbD_last] at hm; exact hm
  · exact hm

theorem toInt_not {w : Nat} (hw : 0 < w) (x : BitVec w) : (x ^^^ BitVec.allOnes w).toInt = -x.toInt - 1 := by
  rw [BitVec.xor_allOnes]
  have h := BitVec.toNat_not (x := x)
  have hl := x.isLt
  have e : 2 ^ w = 2 * 2 ^ (w - 1) := by
    obtain ⟨v, rfl⟩ : ∃ v, w = v + 1 := ⟨w - 1, by omega⟩
    rw [Nat.add_sub_cancel, Nat.pow_succ]; omega
  rw [BitVec.toInt_eq_toNat_cond, BitVec.toInt_eq_toNat_cond, h]
  split <;> split <;> omega

theorem abs_nonneg {w : Nat} (hw : 0 < w) {x : BitVec w} (h : 0 ≤ x.toInt) : Basic.abs x = .ok x := by
  have hb := toInt_bounds hw x
  obtain ⟨r, h1, h2⟩ := fit_ok hw hb.1 hb.2
  unfold Basic.abs subS
  simp only [signMask_nonneg hw h]
  have e1 : x ^^^ (0 : BitVec w) = x := BitVec.xor_zero
  have e2 : (0 : BitVec w).toInt = 0 := BitVec.toInt_zero
  rw [e1, e2, Int.sub_zero, h1, BitVec.eq_of_toInt_eq h2]

theorem allOnes_toInt {w : Nat} (hw : 0 < w) : (BitVec.allOnes w).toInt = -1 := by
  rw [BitVec.toInt_allOnes, if_pos hw]

theorem abs_neg {w : Nat} (hw : 0 < w) {x : BitVec w} (h : x.toInt < 0) : Basic.abs x = fit w (-x.toInt) := by
  unfold Basic.abs subS
  simp only [signMask_neg hw h]
  rw [toInt_not hw, allOnes_toInt hw, Int.sub_neg, Int.sub_add_cancel]

end BasicInt

open BasicInt


/-! ## C87 -/

/-- **C87**: absolute value, sign, minimum and maximum of signed integers of any width `w` (32 and 64 in the library); `Abs` and
`Sgn` are undefined exactly at the least integer. -/
theorem C87_select {w : Nat} (hw : 1 < w) (x y : BitVec w) :
    (x.toInt ≠ -(2 ^ (w - 1) : Int) → (∃ r, Basic.abs x = .ok r ∧ r.toInt = x.toInt.natAbs) ∧
      ∃ r, Basic.sgn x = .ok r ∧ r.toInt = x.toInt.sign) ∧
    (x.toInt = -(2 ^ (w - 1) : Int) → Basic.abs x = .ub ∧ Basic.sgn x = .ub) ∧
    (Basic.min x y).toInt = Min.min x.toInt y.toInt ∧ (Basic.max x y).toInt = Max.max x.toInt y.toInt ∧
    (Basic.minZero x).toInt = Min.min x.toInt 0 ∧ (Basic.maxZero x).toInt = Max.max x.toInt 0 := by
  have hw0 : 0 < w := by omega
  have hb := toInt_bounds hw0 x
  have hp : (2 : Int) ≤ 2 ^ (w - 1) := by
    have : 2 ^ 1 ≤ 2 ^ (w - 1) := Nat.pow_le_pow_right (by decide) (by omega)
    exact_mod_cast this
  have z : (0 : BitVec w).toInt = 0 := BitVec.toInt_zero
  refine ⟨fun hx => ⟨?_, ?_⟩, fun hx => ⟨?_, ?_⟩, ?_, ?_, ?_, ?_⟩
  · by_cases h : x.toInt < 0
    · obtain ⟨r, h1, h2⟩ := fit_ok hw0 (n := -x.toInt) (by omega) (by omega)
      exact ⟨r, by rw [abs_neg hw0 h, h1], by omega⟩
    · exact ⟨x, abs_nonneg hw0 (by omega), by omega⟩
  · obtain ⟨m, h1, h2⟩ := fit_ok hw0 (n := -x.toInt) (by omega) (by omega)
    unfold Basic.sgn negS
    rw [h1, Out.ok_bind]
    rcases Int.lt_trichotomy x.toInt 0 with h | h | h
    · obtain ⟨r, h3, h4⟩ := fit_ok hw0 (n := -1) (by omega) (by omega)
      refine ⟨r, ?_, by rw [h4, Int.sign_eq_neg_one_of_neg h]⟩
      rw [signMask_neg hw0 h, signMask_nonneg hw0 (by omega), subS, allOnes_toInt hw0, z]; exact h3
    · obtain ⟨r, h3, h4⟩ := fit_ok hw0 (n := 0) (by omega) (by omega)
      refine ⟨r, ?_, by rw [h4, h]; rfl⟩
      rw [signMask_nonneg hw0 (by omega), signMask_nonneg hw0 (by omega), subS, z]; exact h3
    · obtain ⟨r, h3, h4⟩ := fit_ok hw0 (n := 1) (by omega) (by omega)
      refine ⟨r, ?_, by rw [h4, Int.sign_eq_one_of_pos h]⟩
      rw [signMask_nonneg hw0 (by omega), signMask_neg hw0 (by omega), subS, allOnes_toInt hw0, z]; exact h3
  · rw [abs_neg hw0 (by omega)]; exact fit_ub (by omega)
  · unfold Basic.sgn negS
    rw [fit_ub (by omega)]; rfl
  · unfold Basic.min ltS; simp only [decide_eq_true_eq]; split <;> omega
  · unfold Basic.max ltS; simp only [decide_eq_true_eq]; split <;> omega
  · unfold Basic.minZero
    by_cases h : x.toInt < 0
    · rw [signMask_neg hw0 h, BitVec.and_allOnes]; omega
    · rw [signMask_nonneg hw0 (by omega)]
      have e : x &&& (0 : BitVec w) = 0 := BitVec.and_zero
      rw [e, z]; omega
  · unfold Basic.maxZero
    by_cases h : x.toInt < 0
    · rw [signMask_neg hw0 h]
      have e : x &&& ~~~(BitVec.allOnes w) = 0 := by simp
      rw [e, z]; omega
    · rw [signMask_nonneg hw0 (by omega)]
      have e : x &&& ~~~(0 : BitVec w) = x := by simp
      rw [e]; omega

example : Basic.abs (-7 : BitVec 32) = .ok 7 ∧ Basic.sgn (-7 : BitVec 32) = .ok (-1) ∧ Basic.sgn (9 : BitVec 64) = .ok 1 ∧
    Basic.min (-7 : BitVec 32) 3 = -7 ∧ Basic.max (-7 : BitVec 32) 3 = 3 ∧ Basic.minZero (5 : BitVec 32) = 0 ∧
    Basic.maxZero (-5 : BitVec 64) = 0 ∧ Basic.abs (BitVec.ofInt 32 (-2147483648)) = .ub := by decide

/-! ## C88 -/

/-- **C88**: `IncMod` and `DecMod` step through the numbers less than `mod` in a circle, and `OverflowZero(x, y)` is `x` if it is
less than `y` and zero otherwise. The last one subtracts, which is undefined if and only if the difference does not fit. -/
theorem C88_cyclic (mod x y : BitVec 32) :
    (0 ≤ x.toInt → x.toInt < mod.toInt →
      (∃ r, incMod mod x = .ok r ∧ r.toInt = (x.toInt + 1) % mod.toInt) ∧
      (∃ r, decMod mod x = .ok r ∧ r.toInt = (x.toInt - 1) % mod.toInt)) ∧
    (-2147483648 ≤ x.toInt - y.toInt → x.toInt - y.toInt ≤ 2147483647 →
      ∃ r, overflowZero x y = .ok r ∧ r.toInt = if x.toInt < y.toInt then x.toInt else 0) ∧
    (x.toInt - y.toInt < -2147483648 ∨ 2147483647 < x.toInt - y.toInt → overflowZero x y = .ub) := by
  have hx := toInt_bounds (by decide) x
  have hm := toInt_bounds (by decide) mod
  simp only [show (2 : Int) ^ (32 - 1) = 2147483648 from rfl] at hx hm
  have o : (1 : BitVec 32).toInt = 1 := rfl
  have z : (0 : BitVec 32).toInt = 0 := rfl
  refine ⟨fun h0 h1 => ⟨?_, ?_⟩, fun h0 h1 => ?_, fun h => ?_⟩
  · obtain ⟨r, h3, h4⟩ := fit_ok (w := 32) (by decide) (n := x.toInt + 1) (by omega) (by omega)
    unfold incMod addS
    rw [o, h3, Out.ok_bind]
    refine ⟨_, rfl, ?_⟩
    unfold ltS
    simp only [decide_eq_true_eq, h4]
    split
    · rw [h4, Int.emod_eq_of_lt (by omega) (by omega)]
    · rw [show x.toInt + 1 = mod.toInt by omega, Int.emod_self, z]
  · obtain ⟨r, h3, h4⟩ := fit_ok (w := 32) (by decide) (n := x.toInt - 1) (by omega) (by omega)
    unfold decMod subS
    rw [o, h3, Out.ok_bind]
    unfold ltS
    simp only [decide_eq_true_eq, h4, z]
    split
    · obtain ⟨s, h5, h6⟩ := fit_ok (w := 32) (by decide) (n := mod.toInt - 1) (by omega) (by omega)
      refine ⟨s, h5, ?_⟩
      rw [h6, show x.toInt - 1 = mod.toInt - 1 + mod.toInt * (-1) by omega, Int.add_mul_emod_self_left,
        Int.emod_eq_of_lt (by omega) (by omega)]
    · exact ⟨r, rfl, by rw [h4, Int.emod_eq_of_lt (by omega) (by omega)]⟩
  · obtain ⟨r, h3, h4⟩ := fit_ok (w := 32) (by decide) (n := x.toInt - y.toInt) (by omega) (by omega)
    unfold overflowZero subS
    rw [h3, Out.ok_bind]
    refine ⟨_, rfl, ?_⟩
    split
    · rw [signMask_neg (by decide) (by omega), BitVec.and_allOnes]
    · rw [signMask_nonneg (by decide) (by omega)]
      have e : x &&& (0 : BitVec 32) = 0 := BitVec.and_zero
      rw [e, z]
  · unfold overflowZero subS
    rw [fit_ub (by simp only [show (2 : Int) ^ (32 - 1) = 2147483648 from rfl]; omega)]; rfl

example : incMod 10 9 = .ok 0 ∧ incMod 10 3 = .ok 4 ∧ decMod 10 0 = .ok 9 ∧ decMod 10 3 = .ok 2 ∧ overflowZero 9 10 = .ok 9 ∧
    overflowZero 10 10 = .ok 0 ∧ overflowZero (-2147483648) 1 = .ub := by decide

/-! ## C89 -/

/-- **C89**: `Exchange` exchanges the values of two variables and leaves all others. -/
def C89_statement : Prop :=
  ∀ (w i j : Nat) (m : Vars w) (k : Nat), exchange i j m k = if k = i then m j else if k = j then m i else m k

/-- **C89** for two different variables; missing is `Exchange(x, x)`. -/
theorem C89_exchange_partial {w : Nat} {i j : Nat} (h : i ≠ j) (m : Vars w) (k : Nat) :
    exchange i j m k = if k = i then m j else if k = j then m i else m k := by
  unfold exchange xorInto
  simp only [if_neg h, if_neg (Ne.symm h), if_true]
  by_cases h1 : k = i
  · simp only [h1, if_true]
    have e (a b : BitVec w) : a ^^^ b ^^^ (b ^^^ (a ^^^ b)) = b := by
      ext t ht
      simp only [BitVec.getElem_xor]
      cases a[t] <;> cases b[t] <;> rfl
    exact e _ _
  · simp only [if_neg h1]
    by_cases h2 : k = j
    · simp only [h2, if_true]
      rw [BitVec.xor_comm (m i), ← BitVec.xor_assoc, BitVec.xor_self, BitVec.zero_xor]
    · simp only [if_neg h2]

/-- **C89 is violated**: `Exchange(x, x)` sets the variable to zero. -/
theorem C89_violated : ¬ C89_statement := by
  intro h
  have := h 32 0 0 (fun _ => 5) 0
  revert this
  decide

/-- What `Exchange(x, x)` does. -/
theorem C89_same {w : Nat} (i : Nat) (m : Vars w) (k : Nat) : exchange i i m k = if k = i then 0 else m k := by
  unfold exchange xorInto
  by_cases h : k = i
  · simp [h]
  · simp [h]

example : exchange 1 2 (fun k => BitVec.ofNat 16 (k * 100)) 1 = 200 ∧ exchange 1 2 (fun k => BitVec.ofNat 16 (k * 100)) 2 = 100 := by
  decide

/-! ## C90 -/

namespace BasicInt

theorem leading_spec (n : BitVec 32) : ∀ k, k ≤ 32 → leading n k ≤ k ∧
    (leading n k < k → 2 ^ (k - 1 - leading n k) ≤ n.toNat % 2 ^ k ∧ n.toNat % 2 ^ k < 2 ^ (k - leading n k)) ∧
    (leading n k = k → n.toNat % 2 ^ k = 0)
  | 0, _ => ⟨Nat.le_refl _, by simp [leading], fun _ => Nat.mod_one _⟩
  | k + 1, hk => by
    obtain ⟨h1, h2, h3⟩ := leading_spec n k (by omega)
    have hm : n.toNat % 2 ^ (k + 1) = n.toNat % 2 ^ k + 2 ^ k * (n.toNat / 2 ^ k % 2) := Nat.mod_pow_succ
    have hb : n.getLsbD k = decide (n.toNat / 2 ^ k % 2 = 1) := by
      rw [BitVec.getLsbD, Nat.testBit_eq_decide_div_mod_eq]
    have hlt : n.toNat % 2 ^ k < 2 ^ k := Nat.mod_lt _ (Nat.two_pow_pos _)
    rw [leading]
    split
    · rename_i hg
      rw [hb, decide_eq_true_eq] at hg
      rw [hg] at hm
      refine ⟨Nat.zero_le _, fun _ => ⟨?_, ?_⟩, fun h => by omega⟩
      · rw [hm]; simp
      · rw [hm, Nat.sub_zero, Nat.pow_succ]; omega
    · rename_i hg
      rw [hb, decide_eq_true_eq] at hg
      have hz : n.toNat / 2 ^ k % 2 = 0 := by omega
      rw [hz, Nat.mul_zero, Nat.add_zero] at hm
      rw [hm]
      refine ⟨by omega, fun h => ?_, fun h => h3 (by omega)⟩
      have := h2 (by omega)
      rw [show k + 1 - 1 - (leading n k + 1) = k - 1 - leading n k by omega, show k + 1 - (leading n k + 1) = k - leading n k by omega]
      exact this

/-- `Cntlz` of a nonzero number. -/
theorem cntlz_spec {n : BitVec 32} (h : n ≠ 0) :
    cntlz n < 32 ∧ 2 ^ (31 - cntlz n) ≤ n.toNat ∧ n.toNat < 2 ^ (32 - cntlz n) := by
  obtain ⟨h1, h2, h3⟩ := leading_spec n 32 (by decide)
  rw [Nat.mod_eq_of_lt n.isLt] at h2 h3
  unfold cntlz
  rw [if_pos h]
  have : leading n 32 < 32 := by
    refine Nat.lt_of_le_of_ne h1 fun e => h ?_
    exact BitVec.eq_of_toNat_eq (by rw [h3 e]; rfl)
  exact ⟨this, h2 this⟩

end BasicInt

/-- **C90**: `IntLog2` is the exponent of the greatest power of two in `n`, `Pow2Floor` is that power and `Pow2Ceil` is the
least power of two that is not less than `n`. Outside of the stated ranges the results do not exist, and both functions shift by
32 bits, which is undefined. -/
theorem C90_powers (n : BitVec 32) :
    (n ≠ 0 → ∃ k : Nat, k < 32 ∧ 2 ^ k ≤ n.toNat ∧ n.toNat < 2 ^ (k + 1) ∧ intLog2 n = k ∧
      ∃ r, pow2Floor n = .ok r ∧ r.toNat = 2 ^ k) ∧
    (1 ≤ n.toNat → n.toNat ≤ 2 ^ 31 → ∃ k : Nat, k < 32 ∧ n.toNat ≤ 2 ^ k ∧ (0 < k → 2 ^ (k - 1) < n.toNat) ∧
      ∃ r, pow2Ceil n = .ok r ∧ r.toNat = 2 ^ k) ∧
    intLog2 0 = -1 ∧ pow2Floor 0 = .ub ∧ (n = 0 ∨ 2 ^ 31 < n.toNat → pow2Ceil n = .ub) := by
  refine ⟨fun h => ?_, fun h1 h2 => ?_, by decide, by decide, fun h => ?_⟩
  · obtain ⟨h1, h2, h3⟩ := cntlz_spec h
    refine ⟨31 - cntlz n, by omega, h2, by rwa [show 31 - cntlz n + 1 = 32 - cntlz n by omega], by unfold intLog2; omega,
      0x80000000#32 >>> cntlz n, by unfold pow2Floor; rw [if_pos h1], ?_⟩
    rw [BitVec.toNat_ushiftRight, Nat.shiftRight_eq_div_pow]
    show 2 ^ 31 / 2 ^ cntlz n = _
    exact Nat.pow_div (by omega) (by decide)
  · have e : (n - 1).toNat = n.toNat - 1 := by
      rw [BitVec.toNat_sub]
      have hl := n.isLt
      show (2 ^ 32 - 1 + n.toNat) % 2 ^ 32 = _
      omega
    by_cases h0 : n - 1 = 0
    · have hc : cntlz (n - 1) = 32 := by rw [h0]; rfl
      have h3 : n.toNat - 1 = 0 := by rw [← e, h0]; rfl
      refine ⟨0, by decide, by omega, by omega, 1#32 <<< (32 - cntlz (n - 1)), by unfold pow2Ceil; rw [if_pos (by omega)], ?_⟩
      rw [hc]; rfl
    · obtain ⟨g1, g2, g3⟩ := cntlz_spec h0
      rw [e] at g2 g3
      have g4 : cntlz (n - 1) ≠ 0 := by
        intro hc
        rw [hc] at g2
        omega
      refine ⟨32 - cntlz (n - 1), by omega, by omega, fun _ => ?_, 1#32 <<< (32 - cntlz (n - 1)),
        by unfold pow2Ceil; rw [if_pos (by omega)], ?_⟩
      · rw [show 32 - cntlz (n - 1) - 1 = 31 - cntlz (n - 1) by omega]; omega
      · rw [BitVec.toNat_shiftLeft, Nat.shiftLeft_eq]
        show 1 * _ % _ = _
        rw [Nat.one_mul]
        exact Nat.mod_eq_of_lt (Nat.pow_lt_pow_right (by decide) (by omega))
  · have e : 2 ^ 31 ≤ (n - 1).toNat := by
      rcases h with rfl | h
      · decide
      · rw [BitVec.toNat_sub]
        have hl := n.isLt
        show _ ≤ (2 ^ 32 - 1 + n.toNat) % 2 ^ 32
        omega
    have h0 : n - 1 ≠ 0 := by intro h0; rw [h0] at e; revert e; decide
    obtain ⟨g1, g2, g3⟩ := cntlz_spec h0
    have g4 : cntlz (n - 1) = 0 := by
      refine Nat.eq_zero_of_not_pos fun hc => ?_
      have : 2 ^ (32 - cntlz (n - 1)) ≤ 2 ^ 31 := Nat.pow_le_pow_right (by decide) (by omega)
      omega
    unfold pow2Ceil
    rw [if_neg (by omega)]

example : intLog2 1000 = 9 ∧ pow2Floor 1000 = .ok 512 ∧ pow2Ceil 1000 = .ok 1024 ∧ pow2Ceil 1024 = .ok 1024 ∧
    pow2Ceil 0x80000000 = .ok 0x80000000 ∧ pow2Ceil 0x80000001 = .ub := by decide

end Verif.Props
