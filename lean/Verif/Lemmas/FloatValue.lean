import Verif.Lemmas.FloatText
import Verif.Spec.Binary32

/-!
# The value of a printed float
-/

namespace Verif.FloatText

open Verif Verif.Text Verif.Str Verif.Texts Verif.Spec

theorem dist_triangle (a b c : Nat) : dist a c ≤ dist a b + dist b c := by
  unfold dist; omega

theorem dist_mul (a b c : Nat) : dist (a * c) (b * c) = dist a b * c := by
  unfold dist
  rw [Nat.add_mul, Nat.sub_mul, Nat.sub_mul]

/-- The number before the decimal point and the rest make up the float, rounded down to a multiple of `2^(-23)`. -/
theorem units_split (a : Nat) (h1 : 0 < a / 2 ^ 23 % 256) (h2 : a / 2 ^ 23 % 256 ≤ 150) :
    (whole a * 2 ^ 23 + rest a) * 2 ^ 126 ≤ units a ∧ units a < (whole a * 2 ^ 23 + rest a + 1) * 2 ^ 126 ∧
      (127 ≤ a / 2 ^ 23 % 256 → units a = (whole a * 2 ^ 23 + rest a) * 2 ^ 126) := by
  have hu : units a = (a % 2 ^ 23 + 2 ^ 23) * 2 ^ (a / 2 ^ 23 % 256 - 1) := by
    rw [units, if_neg (by omega), Nat.add_comm]
  rw [hu, whole, rest]
  generalize a % 2 ^ 23 + 2 ^ 23 = M
  generalize a / 2 ^ 23 % 256 = E at *
  by_cases hE : 127 ≤ E
  · rw [if_pos hE, if_pos hE]
    have e1 : M / 2 ^ (150 - E) = M * 2 ^ (E - 127) / 2 ^ 23 := by
      rw [show 23 = (150 - E) + (E - 127) by omega, Nat.pow_add, Nat.mul_div_mul_right _ _ (Nat.two_pow_pos _)]
    have e2 : M * 2 ^ (E - 127) / 2 ^ 23 * 2 ^ 23 + M * 2 ^ (E - 127) % 2 ^ 23 = M * 2 ^ (E - 127) := by
      rw [Nat.mul_comm]; exact Nat.div_add_mod _ _
    have e3 : M * 2 ^ (E - 1) = M * 2 ^ (E - 127) * 2 ^ 126 := by
      rw [Nat.mul_assoc, ← Nat.pow_add, show E - 127 + 126 = E - 1 by omega]
    rw [e1, e2, e3]
    refine ⟨Nat.le_refl _, ?_, fun _ => rfl⟩
    exact Nat.mul_lt_mul_of_pos_right (Nat.lt_succ_self _) (Nat.two_pow_pos _)
  · rw [if_neg hE, if_neg hE, Nat.zero_mul, Nat.zero_add]
    have e1 : 2 ^ 126 = 2 ^ (127 - E) * 2 ^ (E - 1) := by
      rw [← Nat.pow_add, show 127 - E + (E - 1) = 126 by omega]
    have e2 := Nat.div_mul_le_self M (2 ^ (127 - E))
    have e3 := Nat.lt_div_mul_add (a := M) (Nat.two_pow_pos (127 - E))
    refine ⟨?_, ?_, fun h => absurd h hE⟩
    · rw [e1, ← Nat.mul_assoc]
      exact Nat.mul_le_mul_right _ e2
    · rw [e1, ← Nat.mul_assoc]
      refine Nat.mul_lt_mul_of_pos_right ?_ (Nat.two_pow_pos _)
      rw [Nat.add_mul, Nat.one_mul]; exact e3

/-- The error of the digits. -/
theorem near_of {W N A k r P U : Nat} (hN : N * 10 ^ k = W * 2 ^ 23 + r) (hr : r < 2 ^ 23) (hk : r = 0 ∧ A = W ∨ 5 ≤ k)
    (hA : A = W ∨ A = W + 1) (hP : 0 < P) (hl : N * P ≤ U) (hu : U < (N + 1) * P) :
    dist (A * (2 ^ 23 * P)) (U * 10 ^ k) * (10 ^ 5 * 2 ^ 23) < (10 ^ 5 + 2 ^ 23) * (10 ^ k * (2 ^ 23 * P)) := by
  have d1 : dist (A * 2 ^ 23) (N * 10 ^ k) * 10 ^ 5 ≤ 10 ^ k * 2 ^ 23 := by
    rcases hk with ⟨h0, rfl⟩ | h5
    · rw [hN, h0]; simp [dist]
    · have : dist (A * 2 ^ 23) (N * 10 ^ k) ≤ 2 ^ 23 := by
        rw [hN]; unfold dist; omega
      have h10 : 10 ^ 5 ≤ 10 ^ k := Nat.pow_le_pow_right (by decide) h5
      calc _ ≤ 2 ^ 23 * 10 ^ 5 := Nat.mul_le_mul_right _ this
        _ ≤ 2 ^ 23 * 10 ^ k := Nat.mul_le_mul_left _ h10
        _ = _ := Nat.mul_comm _ _
  have d2 : dist (N * P) U < P := by
    rw [Nat.add_mul, Nat.one_mul] at hu
    unfold dist; omega
  have d3 := dist_triangle (A * (2 ^ 23 * P)) (N * P * 10 ^ k) (U * 10 ^ k)
  rw [dist_mul (N * P) U, show A * (2 ^ 23 * P) = A * 2 ^ 23 * P by rw [Nat.mul_assoc],
    show N * P * 10 ^ k = N * 10 ^ k * P by simp only [Nat.mul_comm, Nat.mul_left_comm, Nat.mul_assoc], dist_mul] at d3
  have hT : 0 < 10 ^ k := Nat.pow_pos (by decide)
  have d4 : dist (N * P) U * 10 ^ k < P * 10 ^ k := Nat.mul_lt_mul_of_pos_right d2 hT
  rw [← Nat.mul_assoc A]
  generalize dist (A * 2 ^ 23 * P) (U * 10 ^ k) = X at *
  generalize dist (A * 2 ^ 23) (N * 10 ^ k) = Y at *
  generalize dist (N * P) U * 10 ^ k = Z at *
  generalize 10 ^ k = T at *
  have d5 : Y * 10 ^ 5 * P ≤ T * 2 ^ 23 * P := Nat.mul_le_mul_right _ d1
  have d6 : Y * P * 10 ^ 5 = Y * 10 ^ 5 * P := by simp only [Nat.mul_comm, Nat.mul_left_comm, Nat.mul_assoc]
  have d7 : T * 2 ^ 23 * P = P * T * 2 ^ 23 := by simp only [Nat.mul_comm, Nat.mul_left_comm, Nat.mul_assoc]
  have d8 : T * (2 ^ 23 * P) = P * T * 2 ^ 23 := by simp only [Nat.mul_comm, Nat.mul_left_comm, Nat.mul_assoc]
  rw [d8]
  generalize P * T = V at *
  generalize Y * P = Q at *
  omega

theorem remainder_even {m D r k : Nat} (hk : 0 < k) (h : m * 10 ^ k = D * 2 ^ 23 + r) (hr : r < 2) : r = 0 := by
  cases k with
  | zero => exact absurd hk (Nat.lt_irrefl 0)
  | succ k =>
    rw [Nat.pow_succ, ← Nat.mul_assoc] at h
    generalize m * 10 ^ k = x at h
    rw [show x * 10 = 2 * (x * 5) by omega, show D * 2 ^ 23 = 2 * (D * 2 ^ 22) by omega] at h
    generalize x * 5 = y at h
    generalize D * 2 ^ 22 = z at h
    omega

theorem remainder_nines {m D r k : Nat} (hk : 0 < k) (h : m * 10 ^ k = D * 2 ^ 23 + r) (hr : r = 0) : D % 100 ≠ 99 := by
  cases k with
  | zero => exact absurd hk (Nat.lt_irrefl 0)
  | succ k =>
    rw [Nat.pow_succ, ← Nat.mul_assoc] at h
    generalize m * 10 ^ k = x at h
    omega

/-- The decimal of the digits that are printed. -/
theorem trimmed_near {a : Nat} {ts : Bytes} (h1 : 0 < a / 2 ^ 23 % 256) (h2 : a / 2 ^ 23 % 256 ≤ 150)
    (ht : Trimmed (fracDigits 7 0 0 (rest a)) ts) :
    Near (whole a * 10 ^ ts.length + decimal ts) ts.length a ∧
      (2 ^ 145 ∣ units a → (whole a * 10 ^ ts.length + decimal ts) * 2 ^ 149 = units a * 10 ^ ts.length) := by
  obtain ⟨u1, u2, u3⟩ := units_split a h1 h2
  obtain ⟨-, d2, d3, r, d4, d5, d6⟩ := fracDigits_value 7 0 0 (rest a) (rest_lt a) (by decide) (by decide)
  have dx := fracDigits_exact 4 7 0 0 (rest a) (rest_lt a) (by decide) (by decide)
  obtain ⟨-, -, j, t1, t2⟩ := ht
  generalize fracDigits 7 0 0 (rest a) = ds at *
  -- the decimal, extended to the length of `ds`
  obtain ⟨A, hA⟩ : ∃ A, A = (whole a * 10 ^ ts.length + decimal ts) * 10 ^ j := ⟨_, rfl⟩
  have hA' : A = whole a * 10 ^ ds.length + decimal ts * 10 ^ j := by
    rw [hA, Nat.add_mul, Nat.mul_assoc, ← Nat.pow_add, t1]
  have hN : (whole a * 2 ^ 23 + rest a) * 10 ^ ds.length = (whole a * 10 ^ ds.length + decimal ds) * 2 ^ 23 + r := by
    rw [Nat.add_mul, d4, Nat.add_mul, Nat.mul_right_comm]; omega
  have hj : 0 < 10 ^ j := Nat.pow_pos (by decide)
  -- no trailing nines without a remainder
  have hr0 : r < 2 → r = 0 := remainder_even d2 d4
  have hr9 : r = 0 → decimal ds % 100 ≠ 99 := remainder_nines d2 d4
  have cA : A = whole a * 10 ^ ds.length + decimal ds ∨ A = whole a * 10 ^ ds.length + decimal ds + 1 := by
    rcases t2 with h | ⟨h, -, -⟩
    · left; rw [hA', ← h]
    · right; rw [hA', ← h, Nat.add_assoc]
  have kA : r = 0 ∧ A = whole a * 10 ^ ds.length + decimal ds ∨ 5 ≤ ds.length := by
    rcases d6 with h | h
    · refine .inl ⟨hr0 h, ?_⟩
      rcases t2 with h' | ⟨-, -, h'⟩
      · rw [hA', ← h']
      · exact absurd h' (hr9 (hr0 h))
    · right; omega
  constructor
  · have key := near_of (P := 2 ^ 126) hN d5 kA cA (Nat.two_pow_pos _) u1 u2
    rw [show 2 ^ 23 * 2 ^ 126 = 2 ^ 149 by rw [← Nat.pow_add]] at key
    rw [Near]
    refine Nat.lt_of_mul_lt_mul_right (a := 10 ^ j) ?_
    have e1 : dist ((whole a * 10 ^ ts.length + decimal ts) * 2 ^ 149) (units a * 10 ^ ts.length) * (10 ^ 5 * 2 ^ 23) * 10 ^ j =
        dist (A * 2 ^ 149) (units a * 10 ^ ds.length) * (10 ^ 5 * 2 ^ 23) := by
      rw [Nat.mul_right_comm, ← dist_mul, hA, Nat.mul_right_comm _ (2 ^ 149), Nat.mul_assoc (units a), ← Nat.pow_add, t1]
    have e2 : (10 ^ 5 + 2 ^ 23) * (10 ^ ts.length * 2 ^ 149) * 10 ^ j = (10 ^ 5 + 2 ^ 23) * (10 ^ ds.length * 2 ^ 149) := by
      rw [Nat.mul_assoc, Nat.mul_right_comm (10 ^ ts.length), ← Nat.pow_add, t1]
    rw [e1, e2]
    exact key
  · intro hd
    -- the rest is a multiple of 1/16, and nothing was lost
    have hx : units a = (whole a * 2 ^ 23 + rest a) * 2 ^ 126 ∧ 2 ^ 19 ∣ rest a := by
      obtain ⟨c, hc⟩ := hd
      have e : 2 ^ 145 = 2 ^ 19 * 2 ^ 126 := by rw [← Nat.pow_add]
      rw [e, Nat.mul_right_comm] at hc
      rw [hc] at u1 u2
      have v1 := Nat.le_of_mul_le_mul_right u1 (Nat.two_pow_pos 126)
      have v2 := Nat.lt_of_mul_lt_mul_right u2
      have v3 : 2 ^ 19 * c = whole a * 2 ^ 23 + rest a := by omega
      refine ⟨by rw [hc, v3], ?_⟩
      have : 2 ^ 19 ∣ whole a * 2 ^ 23 + rest a := ⟨c, v3.symm⟩
      omega
    have hxx := dx hx.2
    have hr : r = 0 := by omega
    have hAW : A = whole a * 10 ^ ds.length + decimal ds := by
      rcases t2 with h' | ⟨-, -, h'⟩
      · rw [hA', ← h']
      · exact absurd h' (hr9 hr)
    refine Nat.eq_of_mul_eq_mul_right hj ?_
    rw [Nat.mul_right_comm _ (2 ^ 149), ← hA, Nat.mul_assoc (units a), ← Nat.pow_add, t1, hx.1, hAW,
      Nat.mul_right_comm _ (2 ^ 126), hN, hr, Nat.add_zero, Nat.mul_assoc, ← Nat.pow_add]

theorem expText_rfc {power : Int} {u : Bytes} (h : ExpText power u) : RfcExp u power := by
  cases h with
  | none h => rw [h]; exact .none
  | some _ h =>
    rcases h with ⟨h0, h⟩ | ⟨h0, v, rfl, h⟩
    · have hd := natText_digits h
      have := RfcExp.unsigned (c := 101) (.inl rfl) hd.2.2.1 hd.1
      rw [hd.2.1] at this
      rwa [Int.toNat_of_nonneg h0] at this
    · have hd := natText_digits h
      have := RfcExp.minus (c := 101) (.inl rfl) hd.2.2.1 hd.1
      rw [hd.2.1] at this
      rwa [show (-(power.natAbs : Int)) = power by omega] at this

/-- The printed text is a number. -/
theorem printed_rfc {n : Nat} {neg : Bool} {power : Int} {w ts u : Bytes} (hw : NatText n w) (ht : ts ≠ [])
    (hd : ∀ c ∈ ts, Digit c) (hu : ExpText power u) :
    RfcNum (sign neg ++ (w ++ 46 :: (ts ++ u))) ⟨neg, n * 10 ^ ts.length + decimal ts, power - ts.length⟩ := by
  have hwd := natText_digits hw
  have hv : decimal (w ++ ts) = n * 10 ^ ts.length + decimal ts := by rw [B64.decimal_append, hwd.2.1]
  rw [← hv]
  cases neg
  · exact RfcNum.pos hwd.2.2.2 (.some ht hd) (expText_rfc hu)
  · exact RfcNum.neg hwd.2.2.2 (.some ht hd) (expText_rfc hu)

end Verif.FloatText
