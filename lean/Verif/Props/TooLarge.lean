import Verif.Lemmas.TooLarge
import Verif.Props.NotFinite

/-!
# Numbers that are too large for `float` in files (C180)
-/

namespace Verif.Props

open Verif Verif.Text Verif.Number Verif.Map Verif.Parser Verif.Doc Verif.Write Verif.Texts Verif.Str Verif.B32 Verif.MathFns Verif.FloatText
open Verif.Spec.F32 Verif.NumTrip Verif.Watch
open Verif.B64 (Dbl)
open Verif.Spec (units FiniteFloat RfcNum RfcInt RfcFrac Dec decReal value Ws SignedNum SignedLit decimal Digit DialStr)

/-- Not a number, infinite, or at least half a unit above the greatest float. -/
def TooLarge (x : Dbl) : Prop := ∀ v, value x = some v → 2 ^ 128 - 2 ^ 103 ≤ |v|

theorem narrow_large {x : Dbl} (h : TooLarge x) : (∃ s, narrow x = .inf s) ∨ narrow x = .nan := by
  cases x with
  | inf s => exact .inl ⟨s, rfl⟩
  | nan => exact .inr rfl
  | fin s m q =>
    refine .inl ⟨s, (round_overflow s (by positivity)).1 ?_⟩
    have h1 := h _ rfl
    have h2 : |(if s then (-1 : Rat) else 1) * ((m : Rat) * 2 ^ q / 2 ^ 1074)| = (m : Rat) * 2 ^ q / 2 ^ 1074 := by
      have : (0 : Rat) ≤ (m : Rat) * 2 ^ q / 2 ^ 1074 := by positivity
      cases s <;> simp only [if_true, if_false, Bool.false_eq_true, one_mul, neg_one_mul, abs_neg, abs_of_nonneg this]
    rw [h2, le_div_iff₀ (by positivity)] at h1
    have h3 : ((2 ^ 128 - 2 ^ 103 : Rat)) * 2 ^ 1074 = ((33554431 * 2 ^ 103 * 2 ^ 1074 : Nat) : Rat) := by
      rw [Nat.cast_mul, Nat.cast_pow, Nat.cast_ofNat]
      congr 1
      norm_num
    have h4 : (m : Rat) * 2 ^ q = ((m * 2 ^ q : Nat) : Rat) := by rw [Nat.cast_mul, Nat.cast_pow, Nat.cast_ofNat]
    rw [h3, h4, Nat.cast_le] at h1
    refine Nat.le_trans (Nat.le_of_eq ?_) h1
    rw [← Nat.pow_add, Nat.mul_assoc, ← Nat.pow_add]

/-- The words. -/
theorem prints_large {wrapv : Bool} {x : Dbl} (h : TooLarge x) :
    ∃ t, PrintsAs elem wrapv narrowBits x t ∧ (t = [73, 78, 70] ∨ t = [45, 73, 78, 70] ∨ t = [78, 65, 78]) := by
  unfold PrintsAs
  have e1 (k : Nat) (h0 : k / 2 ^ 23 % 256 = 255) (c : Bytes) : fixedSetFloat elem wrapv 15 k c =
      ((if 2 ^ 31 ≤ k then wr c 0 45 >>= fun b => .ok (b, 1) else .ok (c, 0)) >>= fun (b, k') =>
      Dyn.wrAll (if k % 2 ^ 23 = 0 then [73, 78, 70, 0] else [78, 65, 78, 0]) k' b >>= fun b => .ok (b, 3 + k')) >>= fun r => .ok r.1 := by
    rw [fixedSetFloat, floatToString, if_neg (by omega), if_neg (by omega), if_pos h0, if_pos (by omega)]
  rcases narrow_large h with ⟨s, e⟩ | e
  · cases s with
    | false =>
      refine ⟨[73, 78, 70], ⟨[73, 78, 70] ++ 0 :: List.replicate 12 0, ?_, by decide, _, rfl⟩, .inl rfl⟩
      rw [narrowBits, e, e1 _ (by decide)]
      rfl
    | true =>
      refine ⟨[45, 73, 78, 70], ⟨[45, 73, 78, 70] ++ 0 :: List.replicate 11 0, ?_, by decide, _, rfl⟩, .inr (.inl rfl)⟩
      rw [narrowBits, e, e1 _ (by decide)]
      rfl
  · refine ⟨[78, 65, 78], ⟨[78, 65, 78] ++ 0 :: List.replicate 12 0, ?_, by decide, _, rfl⟩, .inr (.inr rfl)⟩
    rw [narrowBits, e, e1 _ (by decide)]
    rfl

/-- **C180.** Without the C library, a document with harmless strings and a number that is too large for `float` is written with success, and
`Parse` refuses the text, however the other numbers are. -/
theorem C180_lost (wrapv : Bool) (d : Value Dbl) (il : Nat) (ic : Byte) (hic : il = 0 ∨ Ws [ic]) (hs : HarmlessStrings d)
    (hn : ∀ path x, walk d path = some (.num x) → TooLarge x ∨ ∃ v, value x = some v ∧ Writable wrapv v)
    (h1 : ∃ path x, walk d path = some (.num x) ∧ TooLarge x) :
    ∃ out, Saves wrapv il ic d out ∧ ∀ d', ¬ Loads out d' := by
  have hp : ∀ x, (TooLarge x ∨ ∃ v, value x = some v ∧ Writable wrapv v) →
      PrintsAs elem wrapv narrowBits x (builtinFmt wrapv x) ∧ (0 : Byte) ∉ builtinFmt wrapv x ∧
        Noticed (builtinFmt wrapv x) (TooLarge x) := by
    intro x hx
    by_cases hl : TooLarge x
    · obtain ⟨t, h2, h3⟩ := prints_large (wrapv := wrapv) hl
      rw [fmt_prints h2]
      refine ⟨h2, ?_, fun _ => ?_, fun e => absurd hl e⟩ <;> rcases h3 with rfl | rfl | rfl <;> decide
    · obtain ⟨v, h2, h3⟩ := hx.resolve_left hl
      obtain ⟨t, e, h4, h5, -⟩ := number_trip h2 h3
      rw [fmt_prints h4]
      obtain ⟨s, h6, -⟩ := rfc_signed h5
      exact ⟨h4, rfcNum_nul_free h5, (quiet_signed h6).iff (by simp [hl])⟩
  have hg : ParserB.Good (id : Dbl → Dbl) Eq (builtinOps wrapv)
      (fun t x => t = builtinFmt wrapv x ∧ (TooLarge x ∨ ∃ v, value x = some v ∧ Writable wrapv v)) DialStr d := by
    intro path x hx
    obtain ⟨h3, h4⟩ := hs path x hx
    cases x with
    | num y => exact ⟨y, ⟨cText_nul_free (hp y (hn path y hx)).2.1, hn path y hx⟩, rfl⟩
    | str s => exact readable_token (h3 s rfl)
    | obj t o => exact ⟨(h4 t o rfl).1, fun k hk => readable_token ((h4 t o rfl).2 k hk)⟩
    | null => trivial
    | bool b => trivial
    | arr l => trivial
  obtain ⟨chunks, j, e1, e2, e3⟩ := ParserB.writeValue_good (val := (id : Dbl → Dbl)) (rel := Eq) (builtinOps wrapv) il ic hic _ d
    (Nat.le_refl _) hg [] Ws.nil
  refine ⟨_, ⟨fun path x hx => (hp x (hn path x hx)).1, _, _, e1, rfl, rfl⟩, fun d' hd => ?_⟩
  have hhas : Has TooLarge j := by
    obtain ⟨path, x, hx, hf⟩ := h1
    rcases e3 path with ⟨h, -⟩ | ⟨y, y', h, h', ha⟩
    · rw [hx] at h; cases h
    · rw [hx] at h
      simp only [Option.some.injEq] at h
      subst h
      cases y' <;> simp only [ParserB.Alike] at ha
      subst ha
      exact has_of_walk path j _ h' hf
  have hw := (noticed_val TooLarge (fun t x h => by rw [h.1]; exact (hp x h.2).2.2) e2).1 hhas
  have h0 := sval_nul_free (fun t x h => by rw [h.1]; exact (hp x h.2).2.1) e2
  have hd := hd _ (Nat.le_refl _)
  by_cases h3 : 3 ≤ (chunks.flatten ++ [0]).length
  · rcases ParserB.root_total (ParserB.readerOk B64.arith B64.negate) _ _ h3 (by simp) (Nat.le_refl _) with ⟨j', hj, -⟩ | ⟨res, hr, hf⟩
    · have hq := quiet_synText hj
      rw [cstr_append h0, hw] at hq
      cases hq
    · rw [hr] at hd
      injection hd with hd
      exact hf.status (by rw [hd])
  · rw [ParserB.parseRoot, if_pos (Nat.lt_of_not_le h3)] at hd
    cases hd

theorem two128_large : TooLarge (.fin false (2 ^ 52) 1150) := by
  intro v h
  simp only [value, Option.some.injEq] at h
  subst h
  rw [show (1150 : Nat) = 76 + 1074 from rfl, pow_add, ← mul_assoc, mul_div_assoc, div_self (by positivity)]
  norm_num [abs_of_pos]

/-- `[2^128, 1]`: 2^128 is finite, too large for `float`, and lost together with 1. -/
example : ∃ out, Saves true 0 0x20 (.arr ([.fin false (2 ^ 52) 1150, .fin false (2 ^ 52) 1022].map .num)) out ∧ ∀ d', ¬ Loads out d' := by
  refine C180_lost true _ 0 0x20 (.inl rfl) (nums_readable _) ?_ ⟨[.index 0], _, rfl, ?_⟩
  · intro path x hx
    rcases walk_nums hx with e | ⟨y, hy, e⟩
    · cases e
    · injection e with e
      subst e
      simp only [List.mem_cons, List.not_mem_nil, or_false] at hy
      rcases hy with rfl | rfl
      · exact .inl two128_large
      · refine .inr ⟨1, ?_, .inr ?_⟩
        · simp only [value]
          rw [show (1074 : Nat) = 52 + 1022 from rfl, pow_add]
          norm_num
        · norm_num
  · exact two128_large

end Verif.Props
