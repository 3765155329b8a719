import Verif.Model.FloatText
import Verif.Lemmas.TextScan
import Verif.Lemmas.DynString
import Verif.Lemmas.Binary64

/-!
# Lemmas about the printing of floats
-/

namespace Verif.FloatText

open Verif Verif.Text Verif.Str Verif.Texts Verif.Spec
open Verif.Tools (rd_append put_append)

/-! ## The digits after the decimal point -/

/-- The digits `fracLoop` writes when there is room. -/
def fracDigits : Nat → Nat → Nat → Nat → Bytes
  | 0, _, _, _ => []
  | s + 1, z, n, m =>
    let q := m * 10 / 2 ^ 23 + 48
    let z' := if q = 48 then z + 1 else z
    let n' := if q = 57 then n + 1 else n
    let r := m * 10 % 2 ^ 23
    UInt8.ofNat q ::
      if (q = 48 ∧ 4 ≤ z' ∧ s ≤ 2) ∨ (q = 57 ∧ 4 ≤ n' ∧ s ≤ 2) ∨ r < 2 then [] else fracDigits s z' n' r

theorem fracLoop_spec (max : Nat) : ∀ (s z n m len : Nat) (b : Bytes), len ≤ max → max < b.length →
    fracLoop max s z n m len b = .ok (put b len ((fracDigits s z n m).take (max - len)),
      len + ((fracDigits s z n m).take (max - len)).length)
  | 0, z, n, m, len, b, _, _ => by simp [fracLoop, fracDigits, put]
  | s + 1, z, n, m, len, b, h1, h2 => by
    rw [fracLoop]
    by_cases hl : len < max
    · rw [if_pos hl]
      simp only [wr_ok (show len < b.length by omega), Out.ok_bind]
      have l1 : (put b len [UInt8.ofNat (m * 10 / 2 ^ 23 + 48)]).length = b.length := length_put (by simp; omega)
      have ih := fracLoop_spec max s (if m * 10 / 2 ^ 23 + 48 = 48 then z + 1 else z)
        (if m * 10 / 2 ^ 23 + 48 = 57 then n + 1 else n) (m * 10 % 2 ^ 23) (len + 1)
        (put b len [UInt8.ofNat (m * 10 / 2 ^ 23 + 48)]) (by omega) (by omega)
      obtain ⟨k, hk⟩ : ∃ k, max - len = k + 1 := ⟨max - len - 1, by omega⟩
      have hk' : max - (len + 1) = k := by omega
      rw [fracDigits, hk]
      simp only [List.take_succ_cons]
      generalize (if m * 10 / 2 ^ 23 + 48 = 48 then z + 1 else z) = z' at ih ⊢
      generalize (if m * 10 / 2 ^ 23 + 48 = 57 then n + 1 else n) = n' at ih ⊢
      split
      · rename_i h
        rw [if_pos (.inl h)]; simp
      · rename_i h
        split
        · rename_i h'
          rw [if_pos (.inr (.inl h'))]; simp
        · rename_i h'
          split
          · rename_i h''
            rw [if_pos (.inr (.inr h''))]; simp
          · rename_i h''
            rw [if_neg (by simp only [not_or]; exact ⟨h, h', h''⟩), ih, hk', put_put (by omega)]
            simp; omega
    · rw [if_neg hl]
      obtain rfl : len = max := by omega
      simp [put]

theorem digit_ofNat {q : Nat} (h : q < 10) : Digit (UInt8.ofNat (q + 48)) ∧ (UInt8.ofNat (q + 48)).toNat = q + 48 := by
  have : (UInt8.ofNat (q + 48)).toNat = q + 48 := by simp [UInt8.toNat_ofNat']; omega
  exact ⟨by unfold Digit; omega, this⟩

/-- The digits are those of `m / 2^23`, cut after at least five unless there is nothing left. -/
theorem fracDigits_value : ∀ (s z n m : Nat), m < 2 ^ 23 → 0 < s → s ≤ 7 →
    (∀ c ∈ fracDigits s z n m, Digit c) ∧ 0 < (fracDigits s z n m).length ∧ (fracDigits s z n m).length ≤ s ∧
    ∃ r, m * 10 ^ (fracDigits s z n m).length = decimal (fracDigits s z n m) * 2 ^ 23 + r ∧ r < 2 ^ 23 ∧
      (r < 2 ∨ 5 ≤ (7 - s) + (fracDigits s z n m).length)
  | 0, _, _, _, _, h, _ => by omega
  | s + 1, z, n, m, hm, _, hs => by
    have hq : m * 10 / 2 ^ 23 < 10 := by omega
    have hdm : m * 10 = 2 ^ 23 * (m * 10 / 2 ^ 23) + m * 10 % 2 ^ 23 := (Nat.div_add_mod _ _).symm
    have hr : m * 10 % 2 ^ 23 < 2 ^ 23 := Nat.mod_lt _ (by decide)
    rw [fracDigits]
    generalize m * 10 / 2 ^ 23 = q at *
    generalize m * 10 % 2 ^ 23 = r at *
    obtain ⟨hd, hv⟩ := digit_ofNat hq
    generalize (if q + 48 = 48 then z + 1 else z) = z'
    generalize (if q + 48 = 57 then n + 1 else n) = n'
    split
    · rename_i h
      refine ⟨by simpa using hd, by simp, by simp, r, ?_, hr, ?_⟩
      · simp only [List.length_singleton, decimal, hv, List.length_nil]
        omega
      · rcases h with h | h | h
        · exact .inr (by simp; omega)
        · exact .inr (by simp; omega)
        · exact .inl h
    · rename_i h
      have h2 : ¬ r < 2 := fun h' => h (.inr (.inr h'))
      by_cases h0 : s = 0
      · subst h0
        rw [fracDigits]
        refine ⟨by simpa using hd, by simp, by simp, r, ?_, hr, .inr (by simp)⟩
        simp only [List.length_singleton, decimal, hv, List.length_nil]
        omega
      · obtain ⟨i1, i2, i3, r', i4, i5, i6⟩ := fracDigits_value s z' n' r hr (by omega) (by omega)
        generalize fracDigits s z' n' r = ds at *
        refine ⟨?_, by simp, by simp; omega, r', ?_, i5, ?_⟩
        · intro c hc
          rcases List.mem_cons.mp hc with rfl | hc
          · exact hd
          · exact i1 c hc
        · simp only [List.length_cons, decimal, hv, Nat.add_sub_cancel]
          rw [Nat.pow_succ, Nat.mul_comm (10 ^ ds.length) 10, ← Nat.mul_assoc, hdm, Nat.add_mul, i4, Nat.add_mul]
          simp only [Nat.mul_comm, Nat.mul_left_comm, Nat.mul_assoc, Nat.add_assoc]
        · rcases i6 with i6 | i6
          · exact .inl i6
          · exact .inr (by simp; omega)

theorem fracDigits_step {m q r : Nat} {ds : Bytes} (hq : q < 10) (hdm : m * 10 = 2 ^ 23 * q + r)
    (hds : r * 10 ^ ds.length = decimal ds * 2 ^ 23) :
    m * 10 ^ (UInt8.ofNat (q + 48) :: ds).length = decimal (UInt8.ofNat (q + 48) :: ds) * 2 ^ 23 := by
  obtain ⟨-, hv⟩ := digit_ofNat hq
  simp only [List.length_cons, decimal, hv, Nat.add_sub_cancel]
  rw [Nat.pow_succ, Nat.mul_comm (10 ^ ds.length) 10, ← Nat.mul_assoc, hdm, Nat.add_mul, hds, Nat.add_mul]
  simp only [Nat.mul_comm, Nat.mul_left_comm, Nat.mul_assoc]

/-- Multiples of `1/2^t` have at most `t` digits, which the loop writes all if `t` is small. -/
theorem fracDigits_exact (t : Nat) : ∀ (s z n m : Nat), m < 2 ^ 23 → t + 3 ≤ s → t ≤ 23 → 2 ^ (23 - t) ∣ m →
    m * 10 ^ (fracDigits s z n m).length = decimal (fracDigits s z n m) * 2 ^ 23 := by
  induction t with
  | zero =>
    intro s z n m hm hs _ hd
    obtain rfl : m = 0 := by
      rcases Nat.eq_zero_or_pos m with h | h
      · exact h
      · exact absurd (Nat.le_of_dvd h hd) (by simpa using hm)
    obtain ⟨s, rfl⟩ : ∃ k, s = k + 1 := ⟨s - 1, by omega⟩
    simp [fracDigits, decimal]
  | succ t ih =>
    intro s z n m hm hs ht hd
    obtain ⟨s, rfl⟩ : ∃ k, s = k + 1 := ⟨s - 1, by omega⟩
    have hq : m * 10 / 2 ^ 23 < 10 := by clear hd; omega
    have hdm : m * 10 = 2 ^ 23 * (m * 10 / 2 ^ 23) + m * 10 % 2 ^ 23 := (Nat.div_add_mod _ _).symm
    have hr : m * 10 % 2 ^ 23 < 2 ^ 23 := Nat.mod_lt _ (by decide)
    have hdr : 2 ^ (23 - t) ∣ m * 10 % 2 ^ 23 := by
      rw [Nat.dvd_mod_iff (Nat.pow_dvd_pow 2 (by omega))]
      have : 2 ^ (23 - t) = 2 ^ (23 - (t + 1)) * 2 := by rw [← Nat.pow_succ]; congr 1; omega
      rw [this]
      exact Nat.mul_dvd_mul hd (by decide)
    rw [fracDigits]
    generalize m * 10 / 2 ^ 23 = q at *
    generalize m * 10 % 2 ^ 23 = r at *
    generalize (if q + 48 = 48 then z + 1 else z) = z'
    generalize (if q + 48 = 57 then n + 1 else n) = n'
    refine fracDigits_step hq hdm ?_
    split
    · rename_i h
      have h2 : 2 ∣ r := Nat.dvd_trans (by simpa using Nat.pow_dvd_pow 2 (show 1 ≤ 23 - t by omega)) hdr
      have h0 : r = 0 := by
        clear hdr hd hdm hr hm hq
        rcases h with ⟨-, -, h⟩ | ⟨-, -, h⟩ | h <;> omega
      simp [h0, decimal]
    · exact ih s z' n' r hr (by omega) (by omega) hdr

/-! ## Trailing nines and zeros -/

theorem wr_append (p r : Bytes) (c d : Byte) : wr (p ++ c :: r) p.length d = .ok (p ++ d :: r) := by
  rw [wr, if_pos (by simp)]
  simp

theorem digit_not_point {c : Byte} (h : Digit c) : c ≠ 46 := by
  rintro rfl; revert h; unfold Digit; decide

theorem nineLoop_spec (p : Bytes) (len : Nat) : ∀ (n : Nat) (us r : Bytes), us.length = n → (∀ c ∈ us, Digit c) →
    ((∀ c ∈ us, c = 57) ∧ nineLoop len (p ++ 46 :: (us ++ r)) (p ++ 46 :: us).length = .ok (p ++ 46 :: (us ++ r), len)) ∨
    ∃ vs c i, us = vs ++ c :: List.replicate i 57 ∧ c ≠ 57 ∧
      nineLoop len (p ++ 46 :: (us ++ r)) (p ++ 46 :: us).length =
        .ok (p ++ 46 :: (vs ++ (c + 1) :: (List.replicate i 57 ++ r)), (p ++ 46 :: vs).length + 1) := by
  intro n
  induction n with
  | zero =>
    intro us r hn _
    obtain rfl := List.length_eq_zero_iff.mp hn
    refine .inl ⟨by simp, ?_⟩
    rw [show List.length (p ++ ([46] : Bytes)) = p.length + 1 by simp, nineLoop, List.nil_append, rd_append, Out.ok_bind,
      if_pos (by decide), if_neg (by simp)]
  | succ n ih =>
    intro us r hn hd
    rcases List.eq_nil_or_concat us with rfl | ⟨us, c, rfl⟩
    · simp at hn
    · simp only [List.concat_eq_append] at *
      have hl : (p ++ 46 :: (us ++ [c])).length = (p ++ 46 :: us).length + 1 := by simp; omega
      have e : p ++ 46 :: ((us ++ [c]) ++ r) = (p ++ 46 :: us) ++ c :: r := by simp
      rw [hl, nineLoop, e, rd_append, Out.ok_bind]
      by_cases hc : c = 57
      · subst hc
        rw [if_neg (by simp)]
        have e' : (p ++ 46 :: us) ++ 57 :: r = p ++ 46 :: (us ++ 57 :: r) := by simp
        rw [e']
        rcases ih us (57 :: r) (by simpa using hn) (fun c h => hd c (by simp [h])) with ⟨h1, h2⟩ | ⟨vs, c, i, h1, h2, h3⟩
        · refine .inl ⟨?_, h2⟩
          intro c hc
          rcases List.mem_append.mp hc with hc | hc
          · exact h1 c hc
          · simpa using hc
        · refine .inr ⟨vs, c, i + 1, ?_, h2, ?_⟩
          · rw [h1, List.replicate_succ']; simp
          · rw [h3, List.replicate_succ']; simp
      · rw [if_pos hc, if_pos (digit_not_point (hd c (by simp))), wr_append, Out.ok_bind]
        exact .inr ⟨us, c, 0, by simp, hc, by simp⟩

theorem zeroLoop_spec (p : Bytes) : ∀ (n : Nat) (ds r : Bytes), ds.length = n →
    ∃ vs i, ds = vs ++ List.replicate i 48 ∧ vs.getLast? ≠ some 48 ∧
      zeroLoop (p ++ 46 :: (ds ++ r)) (p ++ 46 :: ds).length = .ok (p ++ 46 :: vs).length := by
  intro n
  induction n with
  | zero =>
    intro ds r hn
    obtain rfl := List.length_eq_zero_iff.mp hn
    refine ⟨[], 0, rfl, by simp, ?_⟩
    rw [show List.length (p ++ ([46] : Bytes)) = p.length + 1 by simp, zeroLoop, List.nil_append, rd_append, Out.ok_bind,
      if_neg (by decide)]
  | succ n ih =>
    intro ds r hn
    rcases List.eq_nil_or_concat ds with rfl | ⟨ds, c, rfl⟩
    · simp at hn
    · simp only [List.concat_eq_append] at *
      have hl : (p ++ 46 :: (ds ++ [c])).length = (p ++ 46 :: ds).length + 1 := by simp; omega
      have e : p ++ 46 :: ((ds ++ [c]) ++ r) = (p ++ 46 :: ds) ++ c :: r := by simp
      rw [hl, zeroLoop, e, rd_append, Out.ok_bind]
      by_cases hc : c = 48
      · subst hc
        rw [if_pos rfl]
        have e' : (p ++ 46 :: ds) ++ 48 :: r = p ++ 46 :: (ds ++ 48 :: r) := by simp
        rw [e']
        obtain ⟨vs, i, h1, h2, h3⟩ := ih ds (48 :: r) (by simpa using hn)
        exact ⟨vs, i + 1, by rw [h1, List.replicate_succ']; simp, h2, h3⟩
      · rw [if_neg hc]
        exact ⟨ds ++ [c], 0, by simp, by simpa using hc, by simp; omega⟩

/-- What is left of the digits `ds` after removal of trailing nines and zeros. -/
def Trimmed (ds ts : Bytes) : Prop :=
  ts ≠ [] ∧ (∀ c ∈ ts, Digit c) ∧ ∃ j, ts.length + j = ds.length ∧
    (decimal ds = decimal ts * 10 ^ j ∨ decimal ds + 1 = decimal ts * 10 ^ j ∧ 2 ≤ ds.length ∧ decimal ds % 100 = 99)

theorem decimal_nines : ∀ j : Nat, decimal (List.replicate j 57) + 1 = 10 ^ j
  | 0 => rfl
  | j + 1 => by
    rw [List.replicate_succ, decimal, Nat.add_assoc, decimal_nines j, List.length_replicate, Nat.pow_succ]
    have : (57 : Byte).toNat - 48 = 9 := by decide
    rw [this]; omega

theorem decimal_snoc (a : Bytes) (c : Byte) : decimal (a ++ [c]) = decimal a * 10 + (c.toNat - 48) := by
  rw [B64.decimal_append]; simp [decimal]

theorem trim_spec (p ds r : Bytes) (hn : ds ≠ []) (hd : ∀ c ∈ ds, Digit c) (hp : 0 < p.length) :
    ∃ ts mid, trim (p ++ 46 :: ds).length (p ++ 46 :: (ds ++ r)) =
      .ok (p ++ 46 :: (ts ++ (mid ++ r)), (p ++ 46 :: ts).length) ∧ ts.length + mid.length = ds.length ∧ Trimmed ds ts := by
  rcases List.eq_nil_or_concat ds with rfl | ⟨es, c, rfl⟩
  · exact absurd rfl hn
  simp only [List.concat_eq_append] at *
  have hc := hd c (by simp)
  have hl : (p ++ 46 :: (es ++ [c])).length = (p ++ 46 :: es).length + 1 := by simp; omega
  have e : p ++ 46 :: ((es ++ [c]) ++ r) = (p ++ 46 :: es) ++ c :: r := by simp
  have r1 : rd (p ++ 46 :: ((es ++ [c]) ++ r)) ((p ++ 46 :: (es ++ [c])).length - 1) = .ok c := by
    rw [hl, Nat.add_sub_cancel, e, rd_append]
  have r2 : ∃ c2, rd (p ++ 46 :: ((es ++ [c]) ++ r)) ((p ++ 46 :: (es ++ [c])).length - 2) = .ok c2 ∧
      (c2 = 57 → ∃ us, es = us ++ [57]) := by
    rcases List.eq_nil_or_concat es with rfl | ⟨us, c2, rfl⟩
    · refine ⟨46, ?_, fun h => absurd h (by decide)⟩
      rw [show List.length (p ++ 46 :: (([] : Bytes) ++ [c])) - 2 = p.length by simp]
      exact rd_append _ _ _
    · simp only [List.concat_eq_append] at *
      refine ⟨c2, ?_, fun h => ⟨us, by rw [h]⟩⟩
      rw [show (p ++ 46 :: (us ++ [c2] ++ [c])).length - 2 = (p ++ 46 :: us).length by simp; omega,
        show p ++ 46 :: (us ++ [c2] ++ [c] ++ r) = (p ++ 46 :: us) ++ c2 :: (c :: r) by simp]
      exact rd_append _ _ _
  obtain ⟨c2, r2, hc2⟩ := r2
  rw [trim, if_neg (by simp; omega), r1, Out.ok_bind, r2, Out.ok_bind]
  by_cases h9 : c = 57 ∧ c2 = 57
  · obtain ⟨rfl, h9⟩ := h9
    obtain ⟨us, rfl⟩ := hc2 h9
    rw [if_pos ⟨rfl, h9⟩]
    have e2 : p ++ 46 :: (us ++ [57] ++ [57] ++ r) = p ++ 46 :: (us ++ (57 :: 57 :: r)) := by simp
    have l2 : (p ++ 46 :: (us ++ [57] ++ [57])).length - 2 = (p ++ 46 :: us).length := by simp; omega
    rw [e2, l2]
    rcases nineLoop_spec p (p ++ 46 :: (us ++ [57] ++ [57])).length us.length us (57 :: 57 :: r) rfl
      (fun c h => hd c (by simp [h])) with ⟨_, h⟩ | ⟨vs, c, i, h1, h2, h⟩
    · refine ⟨us ++ [57] ++ [57], [], by rw [h]; simp, by simp, by simp, hd, 0, by simp, .inl (by simp)⟩
    · have hcd : Digit c := hd c (by rw [h1]; simp)
      have hcv : (c + 1).toNat = c.toNat + 1 := by
        unfold Digit at hcd
        rw [UInt8.toNat_add]; simp; omega
      have hne : c.toNat ≠ 57 := fun h' => h2 (UInt8.toNat_inj.mp (by simpa using h'))
      refine ⟨vs ++ [c + 1], List.replicate (i + 2) 57, ?_, ?_, by simp, ?_, i + 2, ?_, .inr ⟨?_, by simp, ?_⟩⟩
      · rw [h, List.replicate_succ', List.replicate_succ']; simp; omega
      · rw [h1]; simp; omega
      · intro d hm
        rcases List.mem_append.mp hm with hm | hm
        · exact hd d (by rw [h1]; simp [hm])
        · obtain rfl : d = c + 1 := by simpa using hm
          unfold Digit at hcd ⊢; omega
      · rw [h1]; simp; omega
      · have e3 : us ++ [57] ++ [57] = (vs ++ [c]) ++ List.replicate (i + 2) 57 := by
          rw [h1, List.replicate_succ', List.replicate_succ']; simp
        rw [e3, B64.decimal_append, List.length_replicate, decimal_snoc, decimal_snoc, Nat.add_assoc, decimal_nines, hcv]
        unfold Digit at hcd
        rw [show c.toNat + 1 - 48 = c.toNat - 48 + 1 by omega, ← Nat.add_assoc, Nat.add_mul _ 1]
        omega
      · rw [decimal_snoc, decimal_snoc]
        have : (57 : Byte).toNat - 48 = 9 := by decide
        rw [this]; omega
  · rw [if_neg h9]
    obtain ⟨vs, i, h1, h2, h3⟩ := zeroLoop_spec p (es ++ [c]).length (es ++ [c]) r rfl
    rw [h3, Out.ok_bind]
    rcases List.eq_nil_or_concat vs with rfl | ⟨vs, d, rfl⟩
    · obtain ⟨i, rfl⟩ : ∃ k, i = k + 1 := by
        cases i with
        | zero => simp at h1
        | succ k => exact ⟨k, rfl⟩
      rw [show List.length (p ++ ([46] : Bytes)) - 1 = p.length by simp, rd_append, Out.ok_bind, if_pos rfl, h1]
      rw [show p ++ 46 :: ([] ++ List.replicate (i + 1) 48 ++ r) = (p ++ [46]) ++ 48 :: (List.replicate i 48 ++ r) by
        simp [List.replicate_succ], wr_append, Out.ok_bind]
      refine ⟨[48], List.replicate i 48, by simp, by simp; omega, by simp, ?_, i, by rw [List.nil_append]; simp [Nat.add_comm], .inl ?_⟩
      · intro c hc
        obtain rfl : c = 48 := by simpa using hc
        unfold Digit; decide
      · rw [List.nil_append, B64.decimal_zeros]; simp [decimal]
    · simp only [List.concat_eq_append] at *
      have hd' : Digit d := hd d (by rw [h1]; simp)
      rw [show (p ++ 46 :: (vs ++ [d])).length - 1 = (p ++ 46 :: vs).length by simp,
        show p ++ 46 :: (es ++ [c] ++ r) = (p ++ 46 :: vs) ++ d :: (List.replicate i 48 ++ r) by rw [h1]; simp,
        rd_append, Out.ok_bind, if_neg (digit_not_point hd')]
      refine ⟨vs ++ [d], List.replicate i 48, by simp, by rw [h1]; simp; omega, by simp, ?_, i, by rw [h1]; simp; omega,
        .inl ?_⟩
      · intro x hx
        exact hd x (by rw [h1]; exact List.mem_append_left _ hx)
      · rw [h1, B64.decimal_append, B64.decimal_zeros, List.length_replicate, Nat.add_zero]

/-! ## The whole text -/

/-- Nothing after the first `max + 1` bytes of a block is changed. -/
def Frame (max : Nat) (b b' : Bytes) : Prop := b'.length = b.length ∧ b'.drop (max + 1) = b.drop (max + 1)

theorem Frame.refl (max : Nat) (b : Bytes) : Frame max b b := ⟨rfl, rfl⟩

theorem Frame.trans {max : Nat} {b c d : Bytes} (h : Frame max b c) (h' : Frame max c d) : Frame max b d :=
  ⟨h'.1.trans h.1, h'.2.trans h.2⟩

theorem frame_put {max d : Nat} {b l : Bytes} (h : d + l.length ≤ max + 1) (hb : max < b.length) :
    Frame max b (put b d l) := by
  refine ⟨length_put (by omega), ?_⟩
  have e : (b.take d ++ l).length = d + l.length := by simp; omega
  rw [put, List.drop_append, List.drop_of_length_le (by omega), e, List.nil_append, List.drop_drop]
  congr 1; omega

theorem frame_mid {max : Nat} {p ds ts mid r : Bytes} (h : (p ++ ds).length ≤ max + 1)
    (hl : ts.length + mid.length = ds.length) : Frame max (p ++ (ds ++ r)) (p ++ (ts ++ (mid ++ r))) := by
  simp only [List.length_append] at h
  refine ⟨by simp; omega, ?_⟩
  rw [show p ++ (ts ++ (mid ++ r)) = (p ++ (ts ++ mid)) ++ r by simp, show p ++ (ds ++ r) = (p ++ ds) ++ r by simp,
    List.drop_append, List.drop_of_length_le (show (p ++ (ts ++ mid)).length ≤ max + 1 by simp; omega), List.drop_append,
    List.drop_of_length_le (show (p ++ ds).length ≤ max + 1 by simp; omega)]
  simp [hl]

/-- A block that begins with a text, after more was put behind it. -/
theorem put_behind {p r l : Bytes} (h : l.length ≤ r.length) : put (p ++ r) p.length l = p ++ (l ++ r.drop l.length) := by
  rw [put, List.take_left, List.drop_append]
  simp

theorem natText_digits {n : Nat} {t : Bytes} (h : NatText n t) : (∀ c ∈ t, Digit c) ∧ decimal t = n ∧ t ≠ [] ∧ RfcInt t := by
  obtain ⟨⟨h1, h2, h3⟩, h4⟩ := h
  have hv : ∀ (t : Bytes) (m : Nat), t.foldl (fun n k => 10 * n + (k.toNat - 48)) m = m * 10 ^ t.length + decimal t := by
    intro t
    induction t with
    | nil => intro m; simp [decimal]
    | cons c t ih =>
      intro m
      rw [List.foldl_cons, ih, decimal, List.length_cons, Nat.pow_succ, Nat.add_mul, Nat.mul_comm 10 m]
      simp only [Nat.mul_assoc, Nat.mul_comm 10, Nat.add_assoc]
  have hd : ∀ c ∈ t, Digit c := h2
  refine ⟨hd, ?_, h1, ?_⟩
  · rw [← h4, decValue, hv]; omega
  · cases t with
    | nil => exact absurd rfl h1
    | cons c t =>
      by_cases hc : c = 48
      · subst hc
        rw [h3 rfl]; exact .zero
      · exact .pos (hd c (by simp)) hc (fun d h => hd d (by simp [h]))

theorem digits_noNul {t : Bytes} (h : ∀ c ∈ t, Digit c) : 0 ∉ t := by
  intro h0
  have := h 0 h0
  revert this; unfold Digit; decide

theorem intText_noNul {n : Int} {t : Bytes} (h : IntText n t) : 0 ∉ t := by
  rcases h with ⟨_, h⟩ | ⟨_, u, rfl, h⟩
  · exact digits_noNul (natText_digits h).1
  · have := digits_noNul (natText_digits h).1
    simp [this]

/-- The exponent that is printed. -/
inductive ExpText (power : Int) : Bytes → Prop
  | none : power = 0 → ExpText power []
  | some {t} : power ≠ 0 → IntText power t → ExpText power (101 :: t)

theorem expText_noNul {n : Int} {t : Bytes} (h : ExpText n t) : 0 ∉ t := by
  cases h with
  | none => simp
  | some _ h => simp [intText_noNul h]

theorem fraction_spec (wrapv : Bool) (m : Nat) (power : Int) (max : Nat) (p r : Bytes) (hm : m < 2 ^ 23) (hp : p ≠ [])
    (hl : p.length + 1 < max) (hb : max < (p ++ 46 :: r).length) (h1 : -2147483648 < power) (h2 : power < 2147483648) :
    ∃ ts et r' n, fraction wrapv m power max (p.length + 1) (p ++ 46 :: r) = .ok (p ++ 46 :: (ts ++ (et ++ 0 :: r')), n) ∧
      Frame max (p ++ 46 :: r) (p ++ 46 :: (ts ++ (et ++ 0 :: r'))) ∧ (p ++ 46 :: (ts ++ et)).length ≤ max ∧
      (∃ dt, dt <+: fracDigits 7 0 0 m ∧ Trimmed dt ts ∧ (p.length + 8 ≤ max → dt = fracDigits 7 0 0 m)) ∧
      (∃ u, ExpText power u ∧ et <+: u ∧ (p.length + 8 + u.length ≤ max → et = u ∧ (power ≠ 0 → n + 1 = u.length))) ∧
      (power = 0 → n = (p ++ 46 :: (ts ++ et)).length) := by
  obtain ⟨d1, d2, d3, -⟩ := fracDigits_value 7 0 0 m hm (by decide) (by decide)
  generalize hds : fracDigits 7 0 0 m = ds at *
  have hdt : ∃ dt, dt = ds.take (max - (p.length + 1)) := ⟨_, rfl⟩
  obtain ⟨dt, hdt⟩ := hdt
  have t1 : dt <+: ds := hdt ▸ List.take_prefix _ _
  have t2 : dt ≠ [] := by
    intro h
    rw [h] at hdt
    rcases List.take_eq_nil_iff.mp hdt.symm with h' | h'
    · omega
    · rw [h'] at d2; exact absurd d2 (by simp)
  have t3 : ∀ c ∈ dt, Digit c := fun c hc => d1 c (t1.subset hc)
  have t4 : dt.length ≤ max - (p.length + 1) := by rw [hdt]; simp; omega
  have t6 : dt.length ≤ 7 := Nat.le_trans t1.length_le d3
  have t5 : p.length + 8 ≤ max → dt = ds := by
    intro h
    rw [hdt, List.take_of_length_le (by omega)]
  simp only [List.length_append, List.length_cons] at hb
  have e0 : p ++ 46 :: r = (p ++ [46]) ++ r := by simp
  have l0 : p.length + 1 = (p ++ [46] : Bytes).length := by simp
  have e1 : put (p ++ 46 :: r) (p.length + 1) dt = p ++ 46 :: (dt ++ r.drop dt.length) := by
    rw [e0, l0, put_behind (by omega)]; simp
  obtain ⟨ts, mid, h3, h4, h5⟩ := trim_spec p dt (r.drop dt.length) t2 t3 (by
    cases p with
    | nil => exact absurd rfl hp
    | cons => simp)
  have e2 : fracLoop max 7 0 0 m (p.length + 1) (p ++ 46 :: r) = .ok (p ++ 46 :: (dt ++ r.drop dt.length), (p ++ 46 :: dt).length) := by
    rw [fracLoop_spec max 7 0 0 m _ _ (by omega) (by simp; omega), hds, ← hdt, e1]
    simp; omega
  have f1 : Frame max (p ++ 46 :: r) (p ++ 46 :: (dt ++ r.drop dt.length)) := by
    rw [← e1]; exact frame_put (by omega) (by simp; omega)
  have f2 : Frame max (p ++ 46 :: (dt ++ r.drop dt.length)) (p ++ 46 :: (ts ++ (mid ++ r.drop dt.length))) := by
    have := frame_mid (max := max) (p := p ++ [46]) (ds := dt) (ts := ts) (mid := mid) (r := r.drop dt.length)
      (by simp; omega) h4
    simpa using this
  have f3 := f1.trans f2
  obtain ⟨w, hw⟩ : ∃ w, w = mid ++ r.drop dt.length := ⟨_, rfl⟩
  have hwl : max < p.length + 1 + ts.length + w.length := by
    rw [hw]; simp; omega
  rw [fraction, e2, Out.ok_bind]
  simp only [h3, Out.ok_bind, ← hw]
  have hT : (p ++ 46 :: ts).length = p.length + 1 + ts.length := by simp; omega
  obtain ⟨x, w', hxw⟩ : ∃ x w', w = x :: w' := by
    cases w with
    | nil => simp at hwl; omega
    | cons x w' => exact ⟨x, w', rfl⟩
  by_cases hpw : power ≠ 0 ∧ (p ++ 46 :: ts).length < max
  · rw [if_pos hpw]
    obtain ⟨hp0, hlt⟩ := hpw
    rw [hT] at hlt
    have e3 : p ++ 46 :: (ts ++ w) = (p ++ 46 :: ts) ++ x :: w' := by rw [hxw]; simp
    have l2 : ((p ++ 46 :: ts) ++ 101 :: w').length = p.length + 1 + ts.length + w.length := by
      rw [hxw]; simp; omega
    rw [e3, wr_append, Out.ok_bind]
    obtain ⟨t, ht, e4⟩ := printInt_spec wrapv 32 16 power ((p ++ 46 :: ts).length + 1) ((max : Int) - ((p ++ 46 :: ts).length + 1 : Nat))
      ((p ++ 46 :: ts) ++ 101 :: w') (by simpa using h1) (by simpa using h2) (by decide) (by decide) (by rw [l2, hT]; omega)
    have em : ((max : Int) - ((p ++ 46 :: ts).length + 1 : Nat)).toNat = max - (p.length + 1 + ts.length + 1) := by rw [hT]; omega
    rw [em] at e4
    obtain ⟨tt, htt⟩ : ∃ tt, tt = t.take (max - (p.length + 1 + ts.length + 1)) := ⟨_, rfl⟩
    rw [← htt] at e4
    have ltt : tt.length ≤ max - (p.length + 1 + ts.length + 1) := by rw [htt]; simp; omega
    have e5 : put ((p ++ 46 :: ts) ++ 101 :: w') ((p ++ 46 :: ts).length + 1) (tt ++ [0]) =
        p ++ 46 :: (ts ++ ((101 :: tt) ++ 0 :: w'.drop (tt.length + 1))) := by
      have : (p ++ 46 :: ts) ++ 101 :: w' = ((p ++ 46 :: ts) ++ [101]) ++ w' := by simp
      have l : (p ++ 46 :: ts).length + 1 = ((p ++ 46 :: ts) ++ [101]).length := by simp; omega
      rw [this, l, put_behind (by simp at l2 ⊢; omega)]
      simp
    refine ⟨ts, 101 :: tt, w'.drop (tt.length + 1), min (max - (p.length + 1 + ts.length + 1)) t.length, ?_, ?_, ?_,
      ⟨dt, t1, h5, t5⟩, ⟨101 :: t, .some hp0 ht, ?_, ?_⟩, fun h => absurd h hp0⟩
    · rw [integerToString, e4, e5]
    · refine f3.trans ?_
      rw [← hw, hxw, ← e5]
      have : p ++ 46 :: (ts ++ x :: w') = (p ++ 46 :: ts) ++ x :: w' := by simp
      rw [this]
      have fa : Frame max ((p ++ 46 :: ts) ++ x :: w') ((p ++ 46 :: ts) ++ 101 :: w') := by
        have := frame_mid (max := max) (p := p ++ 46 :: ts) (ds := [x]) (ts := [101]) (mid := []) (r := w') (by simp; omega) rfl
        simpa using this
      refine fa.trans (frame_put ?_ (by rw [l2]; omega))
      rw [hT]; simp; omega
    · simp; omega
    · rw [htt]; simpa using List.take_prefix _ _
    · intro h
      simp only [List.length_cons] at h
      have := h4
      refine ⟨by rw [htt, List.take_of_length_le (by omega)], fun _ => ?_⟩
      simp only [List.length_cons]; omega
  · rw [if_neg hpw, finish]
    have e3 : p ++ 46 :: (ts ++ w) = (p ++ 46 :: ts) ++ x :: w' := by rw [hxw]; simp
    rw [e3, wr_append, Out.ok_bind]
    have hu : ∃ u, ExpText power u := by
      by_cases h0 : power = 0
      · exact ⟨[], .none h0⟩
      · obtain ⟨t, ht, -⟩ := printInt_spec wrapv 32 16 power 0 0 [0] (by simpa using h1) (by simpa using h2) (by decide)
          (by decide) (by simp)
        exact ⟨_, .some h0 ht⟩
    obtain ⟨u, hu⟩ := hu
    refine ⟨ts, [], w', _, by simp; rfl, ?_, ?_, ⟨dt, t1, h5, t5⟩, ⟨u, hu, by simp, ?_⟩, fun _ => by simp⟩
    · refine f3.trans ?_
      rw [← hw, hxw]
      have := frame_mid (max := max) (p := p ++ 46 :: ts) (ds := [x]) (ts := [0]) (mid := []) (r := w') (by simp; omega) rfl
      simpa using this
    · simp; omega
    · intro h
      cases hu with
      | none h0 => exact ⟨rfl, fun h => absurd h0 h⟩
      | some h0 _ =>
        simp only [List.length_cons] at h
        have : ¬ (p ++ 46 :: ts).length < max := fun h' => hpw ⟨h0, h'⟩
        rw [hT] at this
        omega

theorem finish_at (p r : Bytes) (x : Byte) : finish p.length (p ++ x :: r) = .ok (p ++ 0 :: r, p.length) := by
  rw [finish, wr_append]; rfl

theorem frame_at {max : Nat} (p r : Bytes) (x y : Byte) (h : p.length ≤ max) : Frame max (p ++ x :: r) (p ++ y :: r) := by
  have := frame_mid (max := max) (p := p) (ds := [x]) (ts := [y]) (mid := []) (r := r) (by simp; omega) rfl
  simpa using this

theorem exists_cons {l : Bytes} (h : 0 < l.length) : ∃ x r, l = x :: r := by
  cases l with
  | nil => simp at h
  | cons x r => exact ⟨x, r, rfl⟩

/-- The number before the decimal point. -/
def whole (absolute : Nat) : Nat :=
  if 127 ≤ absolute / 2 ^ 23 % 256 then (absolute % 2 ^ 23 + 2 ^ 23) / 2 ^ (150 - absolute / 2 ^ 23 % 256) else 0

/-- The rest, multiplied by `2^23` and rounded down. -/
def rest (absolute : Nat) : Nat :=
  if 127 ≤ absolute / 2 ^ 23 % 256 then (absolute % 2 ^ 23 + 2 ^ 23) * 2 ^ (absolute / 2 ^ 23 % 256 - 127) % 2 ^ 23
  else (absolute % 2 ^ 23 + 2 ^ 23) / 2 ^ (127 - absolute / 2 ^ 23 % 256)

/-- The shifts in `FloatToString` are defined for this number. -/
def Shifts (wrapv : Bool) (absolute : Nat) : Prop :=
  95 < absolute / 2 ^ 23 % 256 ∧ absolute / 2 ^ 23 % 256 ≤ 150 ∧
    (wrapv = true ∨ (absolute % 2 ^ 23 + 2 ^ 23) * 2 ^ (absolute / 2 ^ 23 % 256 - 127) < 2 ^ 32)

theorem rest_lt (absolute : Nat) : rest absolute < 2 ^ 23 := by
  rw [rest]
  split
  · exact Nat.mod_lt _ (by decide)
  · rename_i h
    have h1 : absolute % 2 ^ 23 < 2 ^ 23 := Nat.mod_lt _ (by decide)
    rw [Nat.div_lt_iff_lt_mul (Nat.two_pow_pos _)]
    have h2 : 2 ≤ 2 ^ (127 - absolute / 2 ^ 23 % 256) := by
      have := Nat.pow_le_pow_right (n := 2) (by decide) (show 1 ≤ 127 - absolute / 2 ^ 23 % 256 by omega)
      simpa using this
    have := Nat.mul_le_mul_left (2 ^ 23) h2
    omega

theorem whole_lt (absolute : Nat) (h : absolute / 2 ^ 23 % 256 ≤ 150) : whole absolute < 2 ^ 24 := by
  rw [whole]
  split
  · have h1 : absolute % 2 ^ 23 < 2 ^ 23 := Nat.mod_lt _ (by decide)
    exact Nat.lt_of_le_of_lt (Nat.div_le_self _ _) (by omega)
  · decide

/-- The sign that is printed. -/
def sign (neg : Bool) : Bytes := if neg then [45] else []

theorem digits_spec (wrapv neg : Bool) (absolute : Nat) (power : Int) (max : Nat) (b : Bytes) (hs : Shifts wrapv absolute)
    (hmax : 0 < max) (hb : max < b.length) (h1 : -2147483648 < power) (h2 : power < 2147483648) :
    ∃ T r' n w, digits wrapv neg absolute power max b = .ok (T ++ 0 :: r', n) ∧ Frame max b (T ++ 0 :: r') ∧ T.length ≤ max ∧
      0 ∉ T ∧ (power = 0 → n = T.length) ∧ NatText (whole absolute) w ∧ ∃ u, ExpText power u ∧
      ((sign neg).length + w.length + 8 + u.length ≤ max →
        (∃ ts, Trimmed (fracDigits 7 0 0 (rest absolute)) ts ∧ T = sign neg ++ (w ++ 46 :: (ts ++ u))) ∧ (power ≠ 0 → n + 1 = u.length)) := by
  obtain ⟨s1, s2, s3⟩ := hs
  have hu : ∃ u, ExpText power u := by
    by_cases h0 : power = 0
    · exact ⟨[], .none h0⟩
    · obtain ⟨t, ht, -⟩ := printInt_spec wrapv 32 16 power 0 0 [0] (by simpa using h1) (by simpa using h2) (by decide)
        (by decide) (by simp)
      exact ⟨_, .some h0 ht⟩
  have hrest := rest_lt absolute
  have hwl := whole_lt absolute s2
  -- the sign
  obtain ⟨r1, e1, f1, l1⟩ : ∃ r1, (if neg = true then wr b 0 45 >>= fun b => Out.ok (b, 1) else .ok (b, 0)) =
      .ok (sign neg ++ r1, (sign neg).length) ∧ Frame max b (sign neg ++ r1) ∧ (sign neg).length ≤ max := by
    cases neg
    · exact ⟨b, rfl, .refl _ _, by simp [sign]⟩
    · obtain ⟨x, r, rfl⟩ := exists_cons (l := b) (by omega)
      exact ⟨r, rfl, frame_at [] r x 45 (by simp), by simp [sign]; omega⟩
  have n1 : 0 ∉ sign neg := by cases neg <;> simp [sign]
  have hb1 : max < (sign neg).length + r1.length := by
    have := f1.1
    simp at this; omega
  rw [digits]
  simp only [e1, Out.ok_bind]
  generalize sign neg = sg at *
  clear e1
  have part : ∀ (w r : Bytes), NatText (whole absolute) w → (sg ++ w).length + 1 < max → Frame max b ((sg ++ w) ++ 46 :: r) →
      ∃ T r' n w', fraction wrapv (rest absolute) power max ((sg ++ w).length + 1) ((sg ++ w) ++ 46 :: r) = .ok (T ++ 0 :: r', n) ∧
        Frame max b (T ++ 0 :: r') ∧ T.length ≤ max ∧
      0 ∉ T ∧ (power = 0 → n = T.length) ∧ NatText (whole absolute) w' ∧ ∃ u, ExpText power u ∧
      (sg.length + w'.length + 8 + u.length ≤ max →
        (∃ ts, Trimmed (fracDigits 7 0 0 (rest absolute)) ts ∧ T = sg ++ (w' ++ 46 :: (ts ++ u))) ∧ (power ≠ 0 → n + 1 = u.length)) := by
    intro w r hw hl hf
    have hwd := natText_digits hw
    obtain ⟨ts, et, r', n, g1, g2, g3, ⟨dt, g4, g5, g6⟩, ⟨u, g7, g8, g9⟩, g10⟩ := fraction_spec wrapv (rest absolute) power max
      (sg ++ w) r hrest (by
        intro h
        exact hwd.2.2.1 (List.append_eq_nil_iff.mp h).2) hl (by rw [hf.1]; exact hb) h1 h2
    have e : (sg ++ w) ++ 46 :: (ts ++ (et ++ 0 :: r')) = ((sg ++ w) ++ 46 :: (ts ++ et)) ++ 0 :: r' := by simp
    rw [e] at g1 g2
    refine ⟨(sg ++ w) ++ 46 :: (ts ++ et), r', n, w, g1, hf.trans g2, g3, ?_, g10, hw, u, g7, ?_⟩
    · have z1 := digits_noNul hwd.1
      have z2 := digits_noNul g5.2.1
      have z3 : 0 ∉ et := fun h => expText_noNul g7 (g8.subset h)
      simp [n1, z1, z2, z3]
    · intro hroom
      have g9' := g9 (by simp; omega)
      refine ⟨⟨ts, ?_, ?_⟩, g9'.2⟩
      · rw [← g6 (by simp; omega)]; exact g5
      · rw [g9'.1]; simp
  have short : ∀ (w T r' : Bytes), NatText (whole absolute) w → Frame max b (T ++ 0 :: r') → T.length ≤ max → 0 ∉ T →
      max < sg.length + w.length + 8 →
      ∃ T' r'' n w, (Out.ok (T ++ 0 :: r', T.length) : Out (Bytes × Nat)) = .ok (T' ++ 0 :: r'', n) ∧
        Frame max b (T' ++ 0 :: r'') ∧ T'.length ≤ max ∧
      0 ∉ T' ∧ (power = 0 → n = T'.length) ∧ NatText (whole absolute) w ∧ ∃ u, ExpText power u ∧
      (sg.length + w.length + 8 + u.length ≤ max →
        (∃ ts, Trimmed (fracDigits 7 0 0 (rest absolute)) ts ∧ T' = sg ++ (w ++ 46 :: (ts ++ u))) ∧ (power ≠ 0 → n + 1 = u.length)) := by
    intro w T r' hw hf hl hz hm
    obtain ⟨u, hu⟩ := hu
    exact ⟨T, r', _, w, rfl, hf, hl, hz, fun _ => rfl, hw, u, hu, fun h => by omega⟩
  by_cases hE : 127 ≤ absolute / 2 ^ 23 % 256
  · rw [if_pos hE, if_neg (by omega), if_neg (by
      rintro ⟨hv, hx⟩
      rcases s3 with h | h
      · rw [hv] at h; cases h
      · omega)]
    have hw : (absolute % 2 ^ 23 + 2 ^ 23) / 2 ^ (150 - absolute / 2 ^ 23 % 256) = whole absolute := by rw [whole, if_pos hE]
    have hr : (absolute % 2 ^ 23 + 2 ^ 23) * 2 ^ (absolute / 2 ^ 23 % 256 - 127) % 2 ^ 23 = rest absolute := by
      rw [rest, if_pos hE]
    rw [hw, hr]
    obtain ⟨t, ht, e4⟩ := printInt_spec wrapv 32 16 (whole absolute : Nat) sg.length ((max : Int) - sg.length)
      (sg ++ r1) (by simp; omega) (by simp; omega) (by decide) (by decide) (by simp; omega)
    have hnt : NatText (whole absolute) t := by
      rcases ht with ⟨_, h⟩ | ⟨h, _⟩
      · simpa using h
      · omega
    have em : ((max : Int) - sg.length).toNat = max - sg.length := by omega
    obtain ⟨tt, htt⟩ : ∃ tt, tt = t.take (max - sg.length) := ⟨_, rfl⟩
    have ltt : tt.length = min (max - sg.length) t.length := by rw [htt]; simp
    rw [em, ← htt, ← ltt] at e4
    have e5 : put (sg ++ r1) sg.length (tt ++ [0]) = (sg ++ tt) ++ 0 :: r1.drop (tt.length + 1) := by
      rw [put_behind (by simp; omega)]; simp
    have f2 : Frame max b ((sg ++ tt) ++ 0 :: r1.drop (tt.length + 1)) := by
      rw [← e5]; exact f1.trans (frame_put (by simp; omega) (by simp; omega))
    rw [integerToString, e4, e5]
    simp only [Out.ok_bind]
    have lst : sg.length + tt.length = (sg ++ tt).length := by simp
    have z1 := digits_noNul (natText_digits hnt).1
    have z2 : 0 ∉ tt := fun h => z1 (by rw [htt] at h; exact List.mem_of_mem_take h)
    by_cases hlt : sg.length + tt.length < max
    · have : tt = t := by rw [htt, List.take_of_length_le (by omega)]
      subst this
      rw [if_pos hlt, lst, wr_append, Out.ok_bind, Out.ok_bind]
      dsimp only
      have f3 : Frame max b ((sg ++ tt) ++ 46 :: r1.drop (tt.length + 1)) := f2.trans (frame_at _ _ _ _ (by omega))
      by_cases hmx : (sg ++ tt).length + 1 = max
      · rw [if_pos hmx]
        obtain ⟨x, r3, h3⟩ := exists_cons (l := r1.drop (tt.length + 1)) (by simp; omega)
        rw [h3] at f3 ⊢
        have e6 : (sg ++ tt) ++ 46 :: x :: r3 = ((sg ++ tt) ++ [46]) ++ x :: r3 := by simp
        have l6 : (sg ++ tt).length + 1 = ((sg ++ tt) ++ [46] : Bytes).length := by simp; omega
        rw [e6] at f3 ⊢
        rw [l6, finish_at]
        exact short tt _ _ hnt (f3.trans (frame_at _ _ _ _ (by omega))) (by omega) (by simp [n1, z1]) (by omega)
      · rw [if_neg hmx]
        exact part tt _ hnt (by omega) f3
    · rw [if_neg hlt, Out.ok_bind]
      simp only []
      rw [if_pos (by omega), lst, finish_at]
      exact short t _ _ hnt f2 (by omega) (by simp [n1, z2]) (by omega)
  · rw [if_neg hE]
    have hw : whole absolute = 0 := by rw [whole, if_neg hE]
    have hr : (absolute % 2 ^ 23 + 2 ^ 23) / 2 ^ (127 - absolute / 2 ^ 23 % 256) = rest absolute := by
      rw [rest, if_neg hE]
    have hnt : NatText (whole absolute) [48] := by rw [hw]; exact ⟨⟨by decide, by decide, by decide⟩, by decide⟩
    rw [hr]
    by_cases hl2 : sg.length + 2 ≤ max
    · rw [if_pos hl2]
      obtain ⟨x, r2, rfl⟩ := exists_cons (l := r1) (by omega)
      obtain ⟨y, r3, rfl⟩ := exists_cons (l := r2) (by simp at hb1; omega)
      have f2 : Frame max b ((sg ++ [48]) ++ y :: r3) := by
        have := f1.trans (frame_at sg (y :: r3) x 48 (by omega))
        simpa using this
      have f3 : Frame max b ((sg ++ [48]) ++ 46 :: r3) := f2.trans (frame_at _ _ _ _ (by simp; omega))
      have l3 : sg.length + 1 = (sg ++ [48] : Bytes).length := by simp
      rw [wr_append, Out.ok_bind, show sg ++ 48 :: y :: r3 = (sg ++ [48]) ++ y :: r3 by simp, l3, wr_append, Out.ok_bind]
      by_cases hmx : sg.length + 2 = max
      · rw [if_pos hmx]
        obtain ⟨z, r4, rfl⟩ := exists_cons (l := r3) (by simp at hb1; omega)
        have e6 : (sg ++ [48]) ++ 46 :: z :: r4 = (sg ++ [48, 46]) ++ z :: r4 := by simp
        have l6 : sg.length + 2 = (sg ++ [48, 46] : Bytes).length := by simp
        rw [e6] at f3 ⊢
        rw [l6, finish_at]
        exact short [48] _ _ hnt (f3.trans (frame_at _ _ _ _ (by omega))) (by omega) (by simp [n1]) (by simp; omega)
      · rw [if_neg hmx, if_neg (by omega)]
        have := part [48] r3 hnt (by omega) f3
        rw [show sg.length + 2 = (sg ++ [48] : Bytes).length + 1 by simp]
        exact this
    · rw [if_neg hl2]
      by_cases hl1 : sg.length < max
      · rw [if_pos hl1]
        obtain ⟨x, r2, rfl⟩ := exists_cons (l := r1) (by omega)
        obtain ⟨y, r3, rfl⟩ := exists_cons (l := r2) (by simp at hb1; omega)
        have f2 : Frame max b ((sg ++ [48]) ++ y :: r3) := by
          have := f1.trans (frame_at sg (y :: r3) x 48 (by omega))
          simpa using this
        have l3 : sg.length + 1 = (sg ++ [48] : Bytes).length := by simp
        rw [wr_append, Out.ok_bind, show sg ++ 48 :: y :: r3 = (sg ++ [48]) ++ y :: r3 by simp, l3, finish_at]
        exact short [48] _ _ hnt (f2.trans (frame_at _ _ _ _ (by omega))) (by omega) (by simp [n1]) (by simp; omega)
      · rw [if_neg hl1]
        obtain ⟨x, r2, rfl⟩ := exists_cons (l := r1) (by omega)
        rw [finish_at]
        exact short [48] _ _ hnt (f1.trans (frame_at _ _ _ _ (by omega))) (by omega) n1 (by simp; omega)

end Verif.FloatText
