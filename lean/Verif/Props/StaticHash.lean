import Verif.Model.StaticHash
import Verif.Lemmas.TextTools
import Verif.Spec.Texts

/-!
# Hashes computed by the compiler (C146)
-/

namespace Verif.Props

open Verif Verif.Text Verif.Texts Verif.Tools Verif.Str

/-- **C146**: the hash of a literal of at most 17 characters computed by the compiler (`StaticHash`) is the hash computed by
`Text::Hash` for the string with these characters. -/
def C146_statement (sc : Bool) : Prop :=
  ∀ s t, s.length ≤ 17 → Holds t s → hashText t = .ok (staticHash sc s)

theorem static_pad (sc : Bool) (n : Nat) (h : UInt32) : (List.replicate n 0).foldl (staticStep sc) h = h := by
  induction n with
  | zero => rfl
  | succ n ih => rw [List.replicate_succ, List.foldl_cons, staticStep, if_pos rfl, ih]

theorem staticHash_fold (sc : Bool) (s : Bytes) : staticHash sc s = s.foldl (staticStep sc) 0 := by
  rw [staticHash, List.foldl_append, static_pad]

/-- The step with 64 bits, cut to 32. -/
theorem static_mix (sc : Bool) (h : UInt32) {c : Byte} (hc : c ≠ 0) :
    staticStep sc h c = (h ^^^ charWord sc c) * 0x6B84DF47 + 1 := by
  rw [staticStep, if_neg hc]
  generalize h ^^^ charWord sc c = x
  apply UInt32.toNat_inj.mp
  simp only [UInt64.toNat_toUInt32, UInt64.toNat_add, UInt64.toNat_mul, UInt32.toNat_toUInt64, UInt32.toNat_add, UInt32.toNat_mul]
  have e1 : (1803870023 : UInt64).toNat = 1803870023 := rfl
  have e2 : (1803870023 : UInt32).toNat = 1803870023 := rfl
  have e3 : (1 : UInt64).toNat = 1 := rfl
  have e4 : (1 : UInt32).toNat = 1 := rfl
  simp only [e1, e2, e3, e4]
  have := x.toNat_lt
  omega

theorem static_ascii (sc : Bool) (h : UInt32) {c : Byte} (hc : c ≠ 0) (ha : sc = false ∨ c.toNat < 128) :
    staticStep sc h c = hashStep h c := by
  have e : charWord sc c = c.toUInt32 := by
    unfold charWord
    rw [if_neg]
    rcases ha with rfl | ha
    · simp
    · simp only [Bool.and_eq_true, decide_eq_true_eq, not_and]; intro; omega
  rw [static_mix sc h hc, e, hashStep]

theorem static_fold (sc : Bool) : ∀ (s : Bytes) (h : UInt32), 0 ∉ s → (sc = false ∨ ∀ c ∈ s, c.toNat < 128) →
    s.foldl (staticStep sc) h = s.foldl hashStep h := by
  intro s
  induction s with
  | nil => intros; simp only [List.foldl_nil]
  | cons c s ih =>
    intro h h0 ha
    have e : staticStep sc h c = hashStep h c := static_ascii sc h (fun e => h0 (by simp [e])) (ha.imp id fun h => h c (by simp))
    have e2 := ih (hashStep h c) (fun h => h0 (by simp [h])) (ha.imp id fun h d hd => h d (by simp [hd]))
    simp only [List.foldl_cons, e, e2]

/-- **C146, the part that holds**: if `char` is unsigned, or all characters are ASCII characters. Missing: other characters on
platforms with signed characters. -/
theorem C146_static_hash_partial (sc : Bool) (s t : Bytes) (ht : Holds t s)
    (ha : sc = false ∨ ∀ c ∈ s, c.toNat < 128) : hashText t = .ok (staticHash sc s) := by
  obtain ⟨h0, r, rfl⟩ := ht
  rw [hashText, hashLoop_spec r s 0 h0, staticHash_fold, static_fold sc s 0 h0 ha]

/-- With signed characters the two hashes differ for every text with exactly one byte that is not an ASCII character. -/
theorem C146_violated_each (p q t : Bytes) (c : Byte) (hp : ∀ d ∈ p, d.toNat < 128) (hq : ∀ d ∈ q, d.toNat < 128)
    (hc : 128 ≤ c.toNat) (ht : Holds t (p ++ c :: q)) : hashText t ≠ .ok (staticHash true (p ++ c :: q)) := by
  obtain ⟨h0, r, rfl⟩ := ht
  have hc0 : c ≠ 0 := fun e => h0 (by simp [e])
  rw [hashText, hashLoop_spec r _ 0 h0, staticHash_fold]
  intro e
  injection e with e
  rw [List.foldl_append, List.foldl_append, List.foldl_cons, List.foldl_cons,
    static_fold true p 0 (fun h => h0 (by simp [h])) (.inr hp),
    static_fold true q _ (fun h => h0 (by simp [h])) (.inr hq)] at e
  have e := foldl_hash_inj q e
  rw [static_mix true _ hc0, hashStep] at e
  have e := xor_cancel_left (mix_inj e)
  rw [charWord, if_pos (by simpa using hc)] at e
  have h1 := congrArg UInt32.toNat e
  rw [UInt32.toNat_or, UInt8.toNat_toUInt32] at h1
  have h2 : (4294967040 : UInt32).toNat ≤ c.toNat ||| (4294967040 : UInt32).toNat := Nat.right_le_or
  have h3 : (4294967040 : UInt32).toNat = 4294967040 := rfl
  have := c.toNat_lt
  omega

/-- **C146 fails** where `char` is signed: for the character 0x80, for example. -/
theorem C146_violated : ¬ C146_statement true := fun H =>
  C146_violated_each [] [] [0x80, 0] 0x80 (by simp) (by simp) (by decide) ⟨by decide, [], rfl⟩ (H _ _ (by decide) ⟨by decide, [], rfl⟩)

/-- A NUL among the characters is skipped, whereas `Text::Hash` stops there. -/
theorem C146_nul (sc : Bool) (p q : Bytes) : staticHash sc (p ++ 0 :: q) = staticHash sc (p ++ q) := by
  rw [staticHash_fold, staticHash_fold, List.foldl_append, List.foldl_append, List.foldl_cons, staticStep, if_pos rfl]

/-- `StaticHash<'f', 'o', 'o'>::value` and `Hash("foo")`. -/
example : hashText (ascii "foo" ++ [0]) = .ok (staticHash true (ascii "foo")) ∧ staticHash true (ascii "foo") = 860843903 := by
  decide +kernel
/-- The letter é in UTF-8. -/
example : hashText [0xC3, 0xA9, 0] ≠ .ok (staticHash true [0xC3, 0xA9]) ∧
    hashText [0xC3, 0xA9, 0] = .ok (staticHash false [0xC3, 0xA9]) := by decide +kernel

end Verif.Props
