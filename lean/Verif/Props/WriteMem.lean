import Verif.Model.WriteMem
import Verif.Props.Write
import Verif.Props.Document

/-!
# C109: writing when memory runs out
-/

namespace Verif.Props

open Verif Verif.Map Verif.Text Verif.Number Verif.Parser Verif.Write Verif.WriteMem

variable {D : Type}

/-- The full statement of C109: whatever requests for memory fail, `Write` returns a status, for every document. -/
def C109_statement (N : NumOps D) : Prop :=
  ∀ (mem : Nat → Bool) il ic v, ∃ n status chunks s, WriteMem.writeValue mem N il ic n .new v = .ok (.done status chunks s)

theorem expand_cases (mem : Nat → Bool) (c : Byte) (n : Nat) (s : Ind) :
    (∃ s', expand mem c n s = some s' ∧ s'.text = s.text ++ List.replicate n c) ∨
    (expand mem c n s = none ∧ 0 < n ∧ ∃ k, mem k = false) := by
  induction n generalizing s with
  | zero => exact .inl ⟨s, rfl, by simp⟩
  | succ n ih =>
    have key : (∃ s', append mem c s = some s' ∧ s'.text = s.text ++ [c]) ∨ (append mem c s = none ∧ mem s.calls = false) := by
      unfold append
      split
      · by_cases h : mem s.calls = true
        · rw [if_pos h]; exact .inl ⟨_, rfl, rfl⟩
        · rw [if_neg h]; exact .inr ⟨rfl, by simpa using h⟩
      · exact .inl ⟨_, rfl, rfl⟩
    rcases key with ⟨s1, h1, e1⟩ | ⟨h1, e1⟩
    · rw [expand, h1, Option.bind_some]
      rcases ih s1 with ⟨s', h2, e2⟩ | ⟨h2, h3, h4⟩
      · exact .inl ⟨s', h2, by rw [e2, e1, List.append_assoc]; rfl⟩
      · exact .inr ⟨h2, by omega, h4⟩
    · exact .inr ⟨by rw [expand, h1]; rfl, by omega, _, e1⟩

/-- The two models agree, or a request failed and what has been written is a beginning of what is to be written. -/
def Agree (bad : Prop) (m : Out MRes) (w : Out WRes) : Prop :=
  ∀ r, w = .ok r → (∃ s, m = .ok (.done r.status r.chunks s) ∧ s.text = r.indent) ∨
    (∃ ch, m = .ok (.thrown ch) ∧ ch <+: r.chunks ∧ bad)

theorem agree_elems {bad : Prop} {m : Ind → Value D → Out MRes} {w : Bytes → Value D → Out WRes}
    (h : ∀ s v, Agree bad (m s v) (w s.text v)) (l : List (Value D)) (s : Ind) :
    Agree bad (WriteMem.writeElems m l s) (Write.writeElems w l s.text) := by
  induction l generalizing s with
  | nil => intro r e; injection e with e; subst e; exact .inl ⟨s, rfl, rfl⟩
  | cons v l ih =>
    intro r e
    rw [Write.writeElems, Out.bind_eq_ok] at e
    obtain ⟨r1, h1, e⟩ := e
    rw [WriteMem.writeElems]
    rcases h s v r1 h1 with ⟨s1, hm, es⟩ | ⟨ch, hm, hp, hb⟩
    · rw [hm]
      simp only [Out.ok_bind]
      split at e
      · rename_i hst
        injection e with e
        subst e
        rw [if_pos hst]
        exact .inl ⟨s1, rfl, es⟩
      · rename_i hst
        rw [if_neg hst]
        rw [Out.bind_eq_ok] at e
        obtain ⟨r2, h2, e⟩ := e
        injection e with e
        subst e
        rw [← es] at h2
        rcases ih s1 r2 h2 with ⟨s2, hm2, es2⟩ | ⟨ch, hm2, hp, hb⟩
        · rw [hm2]
          exact .inl ⟨s2, by simp [Out.ok_bind], es2⟩
        · rw [hm2]
          refine .inr ⟨_, rfl, ?_, hb⟩
          obtain ⟨t, ht⟩ := hp
          exact ⟨t, by simp [← ht]⟩
    · rw [hm]
      refine .inr ⟨_, rfl, ?_, hb⟩
      obtain ⟨t, ht⟩ := hp
      split at e
      · injection e with e; subst e; exact ⟨t, by simp [← ht]⟩
      · rw [Out.bind_eq_ok] at e
        obtain ⟨r2, h2, e⟩ := e
        injection e with e
        subst e
        refine ⟨t ++ (if l.isEmpty then [] else [0x2C]) :: [0x0A] :: r2.chunks, ?_⟩
        simp [← ht]

theorem agree_members {bad : Prop} {m : Ind → Value D → Out MRes} {w : Bytes → Value D → Out WRes}
    (h : ∀ s v, Agree bad (m s v) (w s.text v)) (map : Tree Bytes (Value D)) (l : List Bytes) (s : Ind) :
    Agree bad (WriteMem.writeMembers m map l s) (Write.writeMembers w map l s.text) := by
  induction l generalizing s with
  | nil => intro r e; injection e with e; subst e; exact .inl ⟨s, rfl, rfl⟩
  | cons name l ih =>
    intro r e
    rw [Write.writeMembers] at e
    rw [WriteMem.writeMembers]
    cases hf : findMapElement nameLt name map with
    | none =>
      rw [hf] at e
      injection e with e; subst e
      exact .inl ⟨s, rfl, rfl⟩
    | some x =>
    obtain ⟨key, v⟩ := x
    rw [hf] at e
    simp only at e ⊢
    rw [Out.bind_eq_ok] at e
    obtain ⟨r1, h1, e⟩ := e
    rcases h s v r1 h1 with ⟨s1, hm, es⟩ | ⟨ch, hm, hp, hb⟩
    · rw [hm]
      simp only [Out.ok_bind]
      split at e
      · rename_i hst
        injection e with e
        subst e
        rw [if_pos hst]
        exact .inl ⟨s1, rfl, es⟩
      · rename_i hst
        rw [if_neg hst]
        rw [Out.bind_eq_ok] at e
        obtain ⟨r2, h2, e⟩ := e
        injection e with e
        subst e
        rw [← es] at h2
        rcases ih s1 r2 h2 with ⟨s2, hm2, es2⟩ | ⟨ch, hm2, hp, hb⟩
        · rw [hm2]
          exact .inl ⟨s2, by simp [Out.ok_bind], es2⟩
        · rw [hm2]
          refine .inr ⟨_, rfl, ?_, hb⟩
          obtain ⟨t, ht⟩ := hp
          exact ⟨t, by simp [← ht]⟩
    · rw [hm]
      refine .inr ⟨_, rfl, ?_, hb⟩
      obtain ⟨t, ht⟩ := hp
      split at e
      · injection e with e; subst e; exact ⟨t, by simp [← ht]⟩
      · rw [Out.bind_eq_ok] at e
        obtain ⟨r2, h2, e⟩ := e
        injection e with e
        subst e
        refine ⟨t ++ (if l.isEmpty then [] else [0x2C]) :: [0x0A] :: r2.chunks, ?_⟩
        simp [← ht]

theorem agree_finish {bad : Prop} {m : Out MRes} {w : Out WRes} (h : Agree bad m w) (il : Nat) (a b : Byte) :
    Agree bad (m >>= fun r => .ok (finish il a b r)) (w >>= fun r =>
      if r.status ≠ .kOk then .ok ⟨r.status, [a, 0x0A] :: r.chunks, r.indent⟩
      else .ok ⟨.kOk, [a, 0x0A] :: (r.chunks ++ [r.indent.take (r.indent.length - il), [b]]),
        r.indent.take (r.indent.length - il)⟩) := by
  intro r e
  rw [Out.bind_eq_ok] at e
  obtain ⟨r1, h1, e⟩ := e
  rcases h r1 h1 with ⟨s1, hm, es⟩ | ⟨ch, hm, ⟨t, ht⟩, hb⟩
  · rw [hm]
    simp only [Out.ok_bind, finish]
    split at e <;> rename_i hst
    · injection e with e; subst e
      rw [if_pos hst]
      exact .inl ⟨s1, rfl, es⟩
    · injection e with e; subst e
      rw [if_neg hst, es]
      exact .inl ⟨_, rfl, rfl⟩
  · rw [hm]
    refine .inr ⟨_, rfl, ?_, hb⟩
    split at e <;> injection e with e <;> subst e
    · exact ⟨t, by simp [← ht]⟩
    · exact ⟨t ++ [r1.indent.take (r1.indent.length - il), [b]], by simp [← ht]⟩

theorem agree_value (mem : Nat → Bool) (N : NumOps D) (il : Nat) (ic : Byte) (n : Nat) (s : Ind) (v : Value D) :
    Agree (0 < il ∧ ∃ k, mem k = false) (WriteMem.writeValue mem N il ic n s v) (Write.writeValue N il ic n s.text v) := by
  induction n generalizing s v with
  | zero => intro r e; exact absurd e (by simp [Write.writeValue])
  | succ n ih =>
    cases v with
    | str x => intro r e; injection e with e; subst e; exact .inl ⟨s, rfl, rfl⟩
    | num x => intro r e; injection e with e; subst e; exact .inl ⟨s, rfl, rfl⟩
    | null => intro r e; injection e with e; subst e; exact .inl ⟨s, rfl, rfl⟩
    | bool b => cases b <;> (intro r e; injection e with e; subst e; exact .inl ⟨s, rfl, rfl⟩)
    | arr l =>
      rw [WriteMem.writeValue, Write.writeValue]
      rcases expand_cases mem ic il s with ⟨s', h1, h2⟩ | ⟨h1, h2, h3⟩
      · simp only [h1]
        rw [← h2]
        exact agree_finish (agree_elems ih l s') il 0x5B 0x5D
      · intro r e
        simp only [h1]
        refine .inr ⟨_, rfl, ?_, h2, h3⟩
        rw [Out.bind_eq_ok] at e
        obtain ⟨r1, -, e⟩ := e
        split at e <;> injection e with e <;> subst e <;> simp
    | obj t o =>
      rw [WriteMem.writeValue, Write.writeValue]
      rcases expand_cases mem ic il s with ⟨s', h1, h2⟩ | ⟨h1, h2, h3⟩
      · simp only [h1]
        rw [← h2]
        exact agree_finish (agree_members ih t o s') il 0x7B 0x7D
      · intro r e
        simp only [h1]
        refine .inr ⟨_, rfl, ?_, h2, h3⟩
        rw [Out.bind_eq_ok] at e
        obtain ⟨r1, -, e⟩ := e
        split at e <;> injection e with e <;> subst e <;> simp

/-- **C109, as far as it holds**: writing gives what it gives with unlimited memory, unless there is an indentation, the document
is an array or object, and a request failed. In this case a beginning of the text has been written when the program is
terminated. Missing: exactly this case. -/
theorem C109_write_partial (mem : Nat → Bool) (N : NumOps D) (il : Nat) (ic : Byte) (n : Nat) (v : Value D) (r : WRes)
    (h : Write.writeValue N il ic n [] v = .ok r) :
    (∃ s, WriteMem.writeValue mem N il ic n .new v = .ok (.done r.status r.chunks s)) ∨
    ((∃ ch, WriteMem.writeValue mem N il ic n .new v = .ok (.thrown ch) ∧ ch <+: r.chunks ∧ ch ≠ []) ∧
      0 < il ∧ (∃ k, mem k = false) ∧ IsContainer v) := by
  rcases agree_value mem N il ic n .new v r h with ⟨s, h1, -⟩ | ⟨ch, h1, h2, h3, h4⟩
  · exact .inl ⟨s, h1⟩
  · refine .inr ⟨⟨ch, h1, h2, ?_⟩, h3, h4, ?_⟩
    · rintro rfl
      cases n with
      | zero => exact absurd h1 (by simp [WriteMem.writeValue])
      | succ n =>
      cases v with
      | str x => exact absurd h1 (by simp [WriteMem.writeValue])
      | num x => exact absurd h1 (by simp [WriteMem.writeValue])
      | null => exact absurd h1 (by simp [WriteMem.writeValue])
      | bool b => cases b <;> exact absurd h1 (by simp [WriteMem.writeValue])
      | arr l =>
        simp only [WriteMem.writeValue] at h1
        split at h1
        · exact absurd h1 (by simp)
        · rw [Out.bind_eq_ok] at h1
          obtain ⟨r1, -, h1⟩ := h1
          cases r1 with
          | thrown ch => simp [finish] at h1
          | done st ch s => simp only [finish] at h1; split at h1 <;> simp at h1
      | obj t o =>
        simp only [WriteMem.writeValue] at h1
        split at h1
        · exact absurd h1 (by simp)
        · rw [Out.bind_eq_ok] at h1
          obtain ⟨r1, -, h1⟩ := h1
          cases r1 with
          | thrown ch => simp [finish] at h1
          | done st ch s => simp only [finish] at h1; split at h1 <;> simp at h1
    · cases n with
      | zero => exact absurd h1 (by simp [WriteMem.writeValue])
      | succ n =>
      cases v with
      | str x => exact absurd h1 (by simp [WriteMem.writeValue])
      | num x => exact absurd h1 (by simp [WriteMem.writeValue])
      | null => exact absurd h1 (by simp [WriteMem.writeValue])
      | bool b => cases b <;> exact absurd h1 (by simp [WriteMem.writeValue])
      | arr l => exact .inl ⟨l, rfl⟩
      | obj t o => exact .inr ⟨t, o, rfl⟩

/-- **C109 is violated**: an empty array, indented by one character, when no memory is left. -/
theorem C109_violated (N : NumOps D) : ¬ C109_statement N := by
  intro H
  obtain ⟨n, status, chunks, s, h⟩ := H (fun _ => false) 1 0x20 (.arr [])
  cases n with
  | zero => exact absurd h (by simp [WriteMem.writeValue])
  | succ n => simp [WriteMem.writeValue, expand, append, Ind.new] at h

/-- More generally no array or object survives when the indentation is not empty and the first request fails; the file then
holds the opening bracket and a line feed. -/
theorem C109_violated_first (N : NumOps D) (mem : Nat → Bool) (hm : mem 0 = false) (il : Nat) (ic : Byte) (hil : 0 < il) (n : Nat)
    (l : List (Value D)) (t : Tree Bytes (Value D)) (o : List Bytes) :
    WriteMem.writeValue mem N il ic (n + 1) .new (.arr l) = .ok (.thrown [[0x5B, 0x0A]]) ∧
    WriteMem.writeValue mem N il ic (n + 1) .new (.obj t o) = .ok (.thrown [[0x7B, 0x0A]]) := by
  obtain ⟨k, rfl⟩ : ∃ k, il = k + 1 := ⟨il - 1, by omega⟩
  have : expand mem ic (k + 1) .new = none := by simp [expand, append, Ind.new, hm]
  constructor <;> simp only [WriteMem.writeValue, this]

/-- `[[1]]` with two characters of indentation: four characters fit into the first block. With three arrays inside one another a
second block is needed in the middle of the text. -/
example : (∃ s, WriteMem.writeValue (fun k => k == 0) natOps 2 0x20 4 .new (.arr [.arr [.num ⟨false, 1, 0⟩]]) =
      .ok (.done .kOk [[91, 10], [32, 32], [91, 10], [32, 32, 32, 32], [49], [], [10], [32, 32], [93], [], [10], [], [93]] s)) ∧
    WriteMem.writeValue (fun k => k == 0) natOps 2 0x20 4 .new (.arr [.null, .arr [.arr []]]) =
      .ok (.thrown [[91, 10], [32, 32], [110, 117, 108, 108], [44], [10], [32, 32], [91, 10], [32, 32, 32, 32], [91, 10]]) :=
  ⟨⟨_, rfl⟩, rfl⟩

end Verif.Props
