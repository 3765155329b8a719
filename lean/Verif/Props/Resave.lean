import Verif.Props.Elements

/-!
# Loading and saving a file again and again (C187)
-/

namespace Verif.Props

open Verif Verif.Map Verif.Text Verif.Number Verif.Parser Verif.File Verif.Doc Verif.Write Verif.Serial Verif.Spec

variable {D : Type}

/-- The document `v` is saved, and loading the file gives `v'`. -/
def Resaved (N : NumOps D) (il : Nat) (ic : Byte) (v v' : Value D) : Prop := ∃ out, Emits N il ic v out ∧ Accepts N (out ++ [0]) v'

/-- The document `v` is saved and loaded `n` times, which gives `v'`. -/
inductive Trips (N : NumOps D) (il : Nat) (ic : Byte) : Nat → Value D → Value D → Prop
  | none (v) : Trips N il ic 0 v v
  | more {n v w v'} : Resaved N il ic v w → Trips N il ic n w v' → Trips N il ic (n + 1) v v'

/-- **C187**: a document that was saved and loaded with success can be saved and loaded again. -/
def C187_statement : Prop :=
  ∀ (D : Type) (N : NumOps D), NegLaw N → ∀ (il : Nat) (ic : Byte), (il = 0 ∨ Ws [ic]) → ∀ v v' : Value D,
    Resaved N il ic v v' → ∃ v'', Resaved N il ic v' v''

theorem readable_same {N : NumOps D} {v v' : Value D} (h : ReadableDoc N v) (hs : SameDoc v v') : ReadableDoc N v' := by
  intro path x' hx'
  rcases hs path with ⟨-, h2⟩ | ⟨x, y, h1, h2, ha⟩
  · rw [hx'] at h2; cases h2
  · rw [hx'] at h2
    cases h2
    have hr := h path x h1
    cases x <;> cases x' <;> simp only [Alike] at ha <;> try trivial
    · subst ha; exact hr
    · subst ha; exact hr
    · obtain ⟨hk, rfl⟩ := ha
      exact ⟨fun k => (hk k).trans (hr.1 k), hr.2⟩

theorem same_trans {v w x : Value D} (h1 : SameDoc v w) (h2 : SameDoc w x) : SameDoc v x := by
  intro path
  rcases h1 path with ⟨a, b⟩ | ⟨p, q, a, b, c⟩
  · rcases h2 path with ⟨d, e⟩ | ⟨p, q, d, -, -⟩
    · exact .inl ⟨a, e⟩
    · rw [b] at d; cases d
  · rcases h2 path with ⟨d, -⟩ | ⟨q', r, d, e, f⟩
    · rw [b] at d; cases d
    · rw [b] at d
      cases d
      refine .inr ⟨p, r, a, e, ?_⟩
      cases p <;> cases q <;> simp only [Alike] at c <;> cases r <;> simp only [Alike] at f <;> simp_all [Alike]

theorem same_refl (v : Value D) : SameDoc v v := by
  intro path
  cases h : walk v path with
  | none => exact .inl ⟨rfl, rfl⟩
  | some x => exact .inr ⟨x, x, rfl, rfl, by cases x <;> simp [Alike]⟩

/-- **C187 for readable documents** (texts and names without quotation marks, backslashes, control characters and DEL; numbers that are read as
they were printed) other than a single number: they can be saved and loaded any number of times, and stay the same. Missing: all other documents. -/
theorem C187_partial (N : NumOps D) (hN : NegLaw N) (il : Nat) (ic : Byte) (hic : il = 0 ∨ Ws [ic]) (n : Nat) :
    ∀ v : Value D, ReadableDoc N v → (∀ x, v ≠ .num x) → ∃ v', Trips N il ic n v v' ∧ SameDoc v v' := by
  induction n with
  | zero => exact fun v _ _ => ⟨v, .none v, same_refl v⟩
  | succ n ih =>
    intro v h hv
    obtain ⟨out, j, he, hd, hs⟩ := written_dial il ic h hic
    have ha := sameDoc_alike hs
    have hl : 2 ≤ out.length := by
      apply Nat.le_of_not_lt
      intro hl
      obtain ⟨d, rfl⟩ := val_short hd hl
      cases v with
      | num x => exact hv x rfl
      | _ => exact ha.elim
    obtain ⟨v', ht, hs'⟩ := ih (interp N j) (readable_same h hs) (by
      intro x e
      rw [e] at ha
      cases v with
      | num x => exact hv x rfl
      | _ => exact ha.elim)
    exact ⟨v', .more ⟨out, he, accepts_of_dial N hN ⟨[], out, [], Ws.nil, hd, Ws.nil, by simp⟩ hl⟩ ht, same_trans hs hs'⟩

/-- C187 for binary64: documents of finite numbers and readable texts, other than a single number. -/
theorem C187_doubles_partial (il : Nat) (ic : Byte) (hic : il = 0 ∨ Ws [ic]) (n : Nat) (v : Value B64.Dbl) (h1 : FiniteNums v) (h2 : ReadableTexts v)
    (hv : ∀ x, v ≠ .num x) : ∃ v', Trips B64.ops il ic n v v' ∧ SameDoc v v' :=
  C187_partial B64.ops b64_neg il ic hic n v (readable_of_finite h1 h2) hv

/-- A text of backslashes only. -/
def slashes (k : Nat) : Bytes := List.replicate k 0x5C

theorem slashes_token (k : Nat) : DialStr (0x22 :: (slashes (2 * k) ++ [0x22])) (slashes k) := by
  refine ⟨List.replicate k (.esc 0x5C), ?_, ?_, ?_⟩
  · intro i hi
    rw [(List.mem_replicate.1 hi).2]
    exact ⟨0x5C, rfl⟩
  · congr 2
    induction k with
    | zero => rfl
    | succ k ih => simp only [slashes, Nat.mul_add, List.replicate_succ, List.map_cons, List.flatten_cons, SItem.raw] at ih ⊢; rw [← ih]; rfl
  · induction k with
    | zero => rfl
    | succ k ih =>
      simp only [slashes, List.replicate_succ, plainCodes, List.map_cons, utf8s, List.flatten_cons] at ih ⊢
      rw [← ih]; rfl

theorem slash_token (s : Bytes) : ¬ DialStr (0x22 :: (slashes 1 ++ [0x22])) s := by
  intro h
  have h1 := parseString_complete _ _ [0] h (by simp [Term])
  have h2 : ∃ st p, parseString (0x22 :: (slashes 1 ++ [0x22]) ++ [0]) = .ok (.err st p) := ⟨_, _, rfl⟩
  obtain ⟨st, p, h2⟩ := h2
  rw [h1] at h2
  cases h2

theorem rejects_of_not {N : NumOps D} (hN : NegLaw N) {buf : Bytes} (h : ∀ v, ¬ Accepts N buf v) : Rejects N buf := by
  rcases parseBuffer_cases N hN buf with h' | h' | ⟨_, _, j, _, h'⟩ | ⟨_, _, _, res, hr, h'⟩
  · exact fun root => ⟨_, _, (h' root).2, by simp⟩
  · exact fun root => ⟨_, _, (h' root).2.2, by simp⟩
  · exact absurd h' (h _)
  · exact fun root => ⟨_, _, h' root, hr.status⟩

/-- What becomes of an array of one text of backslashes. -/
theorem slashes_accepts (N : NumOps D) (hN : NegLaw N) (il : Nat) (ic : Byte) (hic : il = 0 ∨ Ws [ic]) (k : Nat) :
    ∃ out, Emits N il ic (.arr [.str (slashes k)]) out ∧
      ∀ v, Accepts N (out ++ [0]) v ↔ ∃ s, DialStr (0x22 :: (slashes k ++ [0x22])) s ∧ v = .arr [.str s] := by
  have z : ∀ p ∈ [slashes k], (0 : Byte) ∉ p := by simp [slashes]
  have q : ∀ p ∈ [slashes k], (0x22 : Byte) ∉ p := by simp [slashes]
  have he : Emits N il ic (.arr [.str (slashes k)]) _ := emits_strs N il ic [slashes k] z
  have e : serializeFrom (N.conv false 0 0) (.arr .str) [slashes k] = .ok (.kOk, .arr [.str (slashes k)]) := rfl
  refine ⟨_, he, fun v => (C185_tokens_partial N hN _ [slashes k] z q il ic hic _ _ e he v).trans ⟨?_, ?_⟩⟩
  · rintro ⟨l', hr, rfl⟩
    cases hr with
    | cons h hr => cases hr; exact ⟨_, h, rfl⟩
  · rintro ⟨s, h, rfl⟩
    exact ⟨[s], .cons h .nil, rfl⟩

/-- **C187, the code does otherwise.** For every `n` there is a document, read from a text, that can be saved and loaded `n` times, and whose file is
rejected after it was saved once more. -/
theorem C187_breaks (N : NumOps D) (hN : NegLaw N) (il : Nat) (ic : Byte) (hic : il = 0 ∨ Ws [ic]) (n : Nat) :
    ∃ buf v v' out, Accepts N buf v ∧ Trips N il ic n v v' ∧ Emits N il ic v' out ∧ Rejects N (out ++ [0]) := by
  obtain ⟨out, he, ha⟩ := slashes_accepts N hN il ic hic 1
  have hr : Rejects N (out ++ [0]) := rejects_of_not hN fun v hv => by
    obtain ⟨s, hs, -⟩ := (ha v).1 hv
    exact slash_token s hs
  have trips : ∀ n, Trips N il ic n (.arr [.str (slashes (2 ^ n))]) (.arr [.str (slashes 1)]) := by
    intro n
    induction n with
    | zero => exact .none _
    | succ n ih =>
      obtain ⟨out, he, ha⟩ := slashes_accepts N hN il ic hic (2 ^ (n + 1))
      refine .more ⟨out, he, (ha _).2 ⟨_, ?_, rfl⟩⟩ ih
      rw [Nat.pow_succ, Nat.mul_comm]
      exact slashes_token _
  obtain ⟨out', -, ha'⟩ := slashes_accepts N hN il ic hic (2 * 2 ^ n)
  exact ⟨out' ++ [0], _, _, out, (ha' _).2 ⟨_, slashes_token _, rfl⟩, trips n, he, hr⟩

/-- A character of a token stands for fewer bytes than it has, unless it stands for itself. -/
theorem item_shrinks {i : SItem} (h : DialItem i) : utf8 (i.code.getD 0) = i.raw ∨ (utf8 (i.code.getD 0)).length < i.raw.length := by
  cases i with
  | lit cp => exact .inl rfl
  | esc c =>
    right
    obtain ⟨x, hx⟩ := h
    have : x < 0x80 := by
      unfold escVal at hx
      repeat' split at hx
      all_goals first | (cases hx; decide) | cases hx
    simp [SItem.code, SItem.raw, hx, utf8, utf8Nat, this]
  | uni a b c d =>
    right
    have := utf8_length_le ((SItem.uni a b c d).code.getD 0)
    simp only [SItem.raw, List.length_cons, List.length_nil]
    omega

theorem items_shrink : ∀ {items : List SItem}, (∀ i ∈ items, DialItem i) →
    utf8s (plainCodes items) = (items.map SItem.raw).flatten ∨ (utf8s (plainCodes items)).length < (items.map SItem.raw).flatten.length
  | [], _ => .inl rfl
  | i :: items, h => by
    have h1 := item_shrinks (h i (by simp))
    have h2 := items_shrink fun j hj => h j (List.mem_cons_of_mem _ hj)
    simp only [plainCodes, utf8s, List.map_cons, List.flatten_cons, List.length_append] at h2 ⊢
    rcases h1 with h1 | h1 <;> rcases h2 with h2 | h2
    · left; rw [h1, h2]
    · right; rw [h1]; omega
    · right; rw [h2]; omega
    · right; omega

theorem readAs_shrinks {l l' : List Bytes} (h : ReadAs l l') : l' = l ∨ (l'.map List.length).sum < (l.map List.length).sum := by
  induction h with
  | nil => exact .inl rfl
  | @cons p s l l' h _ ih =>
    obtain ⟨items, hi, e, rfl⟩ := h
    simp only [List.cons.injEq, true_and, List.append_cancel_right_eq] at e
    have h1 := items_shrink hi
    rw [← e] at h1
    simp only [List.map_cons, List.sum_cons]
    rcases h1 with h1 | h1 <;> rcases ih with h2 | h2
    · left; rw [h1, h2]
    · right; rw [h1]; omega
    · right; rw [h2]; omega
    · right; omega

/-- **C187, what gets lost**: if an array of texts without quotation marks is saved and loaded, either it stays the same, and will do so
for ever, or its texts have fewer bytes together than before. -/
theorem C187_shrinks (N : NumOps D) (hN : NegLaw N) (il : Nat) (ic : Byte) (hic : il = 0 ∨ Ws [ic]) (l : List Bytes)
    (hl : ∀ p ∈ l, (0 : Byte) ∉ p ∧ (0x22 : Byte) ∉ p) (v' : Value D) (h : Resaved N il ic (.arr (l.map .str)) v') :
    (v' = .arr (l.map .str) ∧ ∀ n, Trips N il ic n v' v') ∨
      ∃ l' : List Bytes, v' = .arr (l'.map .str) ∧ l'.length = l.length ∧ (l'.map List.length).sum < (l.map List.length).sum := by
  obtain ⟨out, he, ha⟩ := h
  have e : serializeFrom (N.conv false 0 0) (.arr .str) l = .ok (.kOk, .arr (l.map .str)) := by
    have := serElems_strs (N.conv false 0 0) l []
    simpa [serializeFrom, serialize, createValueFor] using this
  obtain ⟨l', hr, rfl⟩ := (C185_tokens_partial N hN _ l (fun p hp => (hl p hp).1) (fun p hp => (hl p hp).2) il ic hic _ _ e he v').1 ha
  rcases readAs_shrinks hr with rfl | hs
  · refine .inl ⟨rfl, fun n => ?_⟩
    induction n with
    | zero => exact .none _
    | succ n ih => exact .more ⟨out, he, ha⟩ ih
  · refine .inr ⟨l', rfl, ?_, hs⟩
    clear ha he hs e hl
    induction hr with
    | nil => rfl
    | cons _ _ ih => simp [ih]

/-- The negation. -/
theorem C187_violated : ¬ C187_statement := by
  intro h
  obtain ⟨-, v, v', out, -, ht, he, hr⟩ := C187_breaks natOps natOps_neg 0 0x20 (.inl rfl) 1
  cases ht with
  | more h1 h2 =>
    cases h2
    obtain ⟨v'', out', he', ha⟩ := h Dec natOps natOps_neg 0 0x20 (.inl rfl) _ _ h1
    rw [emits_det he' he] at ha
    obtain ⟨res, root', h3, h4⟩ := hr none
    rw [ha none] at h3
    cases h3
    exact h4 rfl

/-- The text of four backslashes: after two times it is one backslash, and the next file is rejected. -/
example : ∃ out out' out'', Emits natOps 0 0x20 (.str [0x5C, 0x5C, 0x5C, 0x5C]) out ∧ Accepts natOps (out ++ [0]) (.str [0x5C, 0x5C]) ∧
    Emits natOps 0 0x20 (.str [0x5C, 0x5C]) out' ∧ Accepts natOps (out' ++ [0]) (.str [0x5C]) ∧
    Emits natOps 0 0x20 (.str [0x5C]) out'' ∧ Rejects natOps (out'' ++ [0]) :=
  ⟨_, _, _, ⟨1, _, rfl, rfl, rfl⟩, fun _ => rfl, ⟨1, _, rfl, rfl, rfl⟩, fun _ => rfl, ⟨1, _, rfl, rfl, rfl⟩, fun _ => ⟨_, _, rfl, by decide⟩⟩

/-- The texts `\\n` (three bytes, with two backslashes) and `b` are loaded as `\n` and `b`, with one byte less. -/
example : Resaved natOps 1 0x09 (.arr ([[0x5C, 0x5C, 0x6E], [0x62]].map .str)) (.arr ([[0x5C, 0x6E], [0x62]].map .str)) ∧
    ([[0x5C, 0x6E], [0x62]].map (List.length (α := Byte))).sum < ([[0x5C, 0x5C, 0x6E], [0x62]].map (List.length (α := Byte))).sum :=
  ⟨⟨_, ⟨3, _, rfl, rfl, rfl⟩, fun _ => rfl⟩, by decide⟩

/-- `["a", 7]` can be saved and loaded a hundred times. -/
example : ∃ v', Trips natOps 1 0x09 100 plainExample v' ∧ SameDoc plainExample v' := by
  have step : Resaved natOps 1 0x09 plainExample plainExample := ⟨_, ⟨3, _, rfl, rfl, rfl⟩, fun _ => rfl⟩
  have all : ∀ n, Trips natOps 1 0x09 n plainExample plainExample := by
    intro n
    induction n with
    | zero => exact .none _
    | succ n ih => exact .more step ih
  exact ⟨_, all 100, same_refl _⟩

end Verif.Props
