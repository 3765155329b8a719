import Verif.Props.Binary64
import Verif.Props.Document

/-!
# C107: formatting is stable

`Write` is used to format documents: a text is parsed and written again. Formatting what has been formatted should change
nothing.
-/

namespace Verif.Props

open Verif Verif.Text Verif.Number Verif.Map Verif.Spec Verif.Parser Verif.Doc Verif.Write Verif.File Verif.B64

variable {D : Type}

theorem writeElems_congr (w : Bytes → Value D → Out WRes) (h : ∀ ind x x', SameDoc x x' → w ind x = w ind x')
    (l l' : List (Value D)) (hl : l'.length = l.length)
    (hs : ∀ (i : Nat) x x', l[i]? = some x → l'[i]? = some x' → SameDoc x x') (ind : Bytes) :
    writeElems w l ind = writeElems w l' ind := by
  induction l generalizing l' ind with
  | nil => cases l' with
    | nil => rfl
    | cons _ _ => simp at hl
  | cons v l ih => cases l' with
    | nil => simp at hl
    | cons v' l' =>
      have hl' : l'.length = l.length := by simpa using hl
      have hi := fun ind => ih l' hl' (fun i x x' h1 h2 => hs (i + 1) x x' (by simpa using h1) (by simpa using h2)) ind
      have he : l.isEmpty = l'.isEmpty := by cases l <;> cases l' <;> simp_all
      simp only [writeElems, h ind v v' (hs 0 v v' rfl rfl), hi, he]

theorem writeMembers_congr (w : Bytes → Value D → Out WRes) (h : ∀ ind x x', SameDoc x x' → w ind x = w ind x')
    (t t' : Tree Bytes (Value D))
    (hs : ∀ k, (findMapElement nameLt k t = none ∧ findMapElement nameLt k t' = none) ∨
      ∃ x x', findMapElement nameLt k t = some (k, x) ∧ findMapElement nameLt k t' = some (k, x') ∧ SameDoc x x')
    (names : List Bytes) (ind : Bytes) : writeMembers w t names ind = writeMembers w t' names ind := by
  induction names generalizing ind with
  | nil => rfl
  | cons k names ih =>
    rcases hs k with ⟨h1, h2⟩ | ⟨x, x', h1, h2, h3⟩
    · simp only [writeMembers, h1, h2]
    · simp only [writeMembers, h1, h2, h ind x x' h3, ih]

/-- `Write` cannot tell equal documents apart. -/
theorem writeValue_same (N : NumOps D) (il : Nat) (ic : Byte) (n : Nat) :
    ∀ (ind : Bytes) (v v' : Value D), SameDoc v v' → writeValue N il ic n ind v = writeValue N il ic n ind v' := by
  induction n with
  | zero => intro ind v v' _; rfl
  | succ n ih =>
    intro ind v v' hs
    have ha := Serial.sameDoc_alike hs
    cases v with
    | null => cases v' <;> first | rfl | exact ha.elim
    | bool b => cases v' <;> first | (rw [show _ = b from ha]) | exact ha.elim
    | num x => cases v' <;> first | (rw [show _ = x from ha]) | exact ha.elim
    | str x => cases v' <;> first | (rw [show _ = x from ha]) | exact ha.elim
    | arr l =>
      cases v' with
      | arr l' =>
        simp only [writeValue]
        rw [writeElems_congr (writeValue N il ic n) ih l l' ha]
        intro i x x' h1 h2
        exact Serial.sameDoc_child hs (.index i) (by simpa [step] using h1) (by simpa [step] using h2)
      | _ => exact ha.elim
    | obj t o =>
      cases v' with
      | obj t' o' =>
        have hoo : o' = o := ha.2
        simp only [writeValue, hoo]
        rw [writeMembers_congr (writeValue N il ic n) ih t t']
        intro k
        rcases Serial.sameDoc_step hs (.member k) with ⟨h1, h2⟩ | ⟨x, x', h1, h2, h3⟩
        · simp only [step, Option.map_eq_none_iff] at h1 h2
          exact .inl ⟨h1, h2⟩
        · simp only [step, Option.map_eq_some_iff] at h1 h2
          obtain ⟨⟨k1, y⟩, e1, rfl⟩ := h1
          obtain ⟨⟨k2, y'⟩, e2, rfl⟩ := h2
          have hk1 : k1 = k := find_key e1
          have hk2 : k2 = k := find_key e2
          subst hk1
          subst hk2
          exact .inr ⟨y, y', e1, e2, h3⟩
      | _ => exact ha.elim

theorem emits_same {N : NumOps D} {il : Nat} {ic : Byte} {v v' : Value D} {out : Bytes} (h : SameDoc v v')
    (he : Emits N il ic v out) : Emits N il ic v' out := by
  obtain ⟨n, r, h1, h2, h3⟩ := he
  exact ⟨n, r, by rw [← writeValue_same N il ic n [] v v' h]; exact h1, h2, h3⟩

/-- The full statement of C107: what is written for a parsed text is accepted, and parsing and writing it again with the same
indentation gives the same bytes. -/
def C107_statement (N : NumOps D) : Prop :=
  ∀ text v il ic out, Accepts N text v → Emits N il ic v out →
    ∃ v', Accepts N (out ++ [0]) v' ∧ Emits N il ic v' out

/-- **C107 is violated**: `["\",1,\""]` is an array of one string; formatted once it is an array of three elements on one line,
formatted twice it has three lines. -/
theorem C107_violated_changes : ∃ text v out v' out', Accepts natOps text v ∧ Emits natOps 0 0x20 v out ∧
    Accepts natOps (out ++ [0]) v' ∧ Emits natOps 0 0x20 v' out' ∧ out ≠ out' ∧
    text = "[\"\\\",1,\\\"\"]".toUTF8.data.toList ++ [0] ∧ out = "[\n\"\",1,\"\"\n]".toUTF8.data.toList ∧
    out' = "[\n\"\",\n1,\n\"\"\n]".toUTF8.data.toList :=
  ⟨[0x5B, 0x22, 0x5C, 0x22, 0x2C, 0x31, 0x2C, 0x5C, 0x22, 0x22, 0x5D, 0], .arr [.str [0x22, 0x2C, 0x31, 0x2C, 0x22]],
    [0x5B, 0x0A, 0x22, 0x22, 0x2C, 0x31, 0x2C, 0x22, 0x22, 0x0A, 0x5D], .arr [.str [], .num ⟨false, 1, 0⟩, .str []],
    [0x5B, 0x0A, 0x22, 0x22, 0x2C, 0x0A, 0x31, 0x2C, 0x0A, 0x22, 0x22, 0x0A, 0x5D],
    fun _ => rfl, ⟨3, _, rfl, rfl, rfl⟩, fun _ => rfl, ⟨3, _, rfl, rfl, rfl⟩, by decide, by decide +kernel, by decide +kernel,
    by decide +kernel⟩

/-- A digit with a space after it is accepted, the digit written for it is not: the buffer has two bytes. -/
theorem C107_violated_digit (N : NumOps D) (h : N.fmt (N.conv false 7 0) = [0x37]) : ¬ C107_statement N := by
  intro H
  obtain ⟨v', h1, -⟩ := H [0x37, 0x20, 0] (.num (N.conv false 7 0)) 0 0x20 [0x37] (fun _ => rfl)
    ⟨1, _, rfl, rfl, by simp only [h]; rfl⟩
  have := h1 none
  simp [parseBuffer] at this

theorem C107_violated (N : NumOps D) : ¬ C107_statement N := by
  intro H
  obtain ⟨v', h1, -⟩ := H [0x22, 0x5C, 0x22, 0x22, 0] (.str [0x22]) 0 0x20 [0x22, 0x22, 0x22] (fun _ => rfl)
    ⟨1, _, rfl, rfl, rfl⟩
  have h2 : parseBuffer N none ([0x22, 0x22, 0x22] ++ [0]) =
    .ok (⟨.kExpectedEndOfFile, 1, 3⟩, some (.str [])) := rfl
  have := h2.symm.trans (h1 none)
  simp at this

/-- String tokens that are part of a given text. -/
theorem val_within {n : Bytes → Dec → Prop} {s : Bytes → Bytes → Prop} {t : Bytes} {j : J} (h : Val n s t j) (T : Bytes)
    (hT : t ⊆ T) : Val n (fun tok x => s tok x ∧ tok ⊆ T) t j := by
  revert hT
  refine Val.rec (motive_1 := fun t j _ => t ⊆ T → Val n (fun tok x => s tok x ∧ tok ⊆ T) t j)
    (motive_2 := fun t l _ => t ⊆ T → Elems n (fun tok x => s tok x ∧ tok ⊆ T) t l)
    (motive_3 := fun t m _ => t ⊆ T → Members n (fun tok x => s tok x ∧ tok ⊆ T) t m)
    ?_ ?_ ?_ ?_ ?_ ?_ ?_ ?_ ?_ ?_ ?_ ?_ ?_ h
  · intro _; exact .null
  · intro _; exact .true
  · intro _; exact .false
  · intro t d h _; exact .num h
  · intro t x h hT; exact .str ⟨h, hT⟩
  · intro w h _; exact .arrEmpty h
  · intro t l _ h hT; exact .arr (h fun c hc => hT (by simp [hc]))
  · intro w h _; exact .objEmpty h
  · intro t m _ h hT; exact .obj (h fun c hc => hT (by simp [hc]))
  · intro w1 t w2 j h1 _ h2 h hT; exact .one h1 (h fun c hc => hT (by simp [hc])) h2
  · intro w1 t w2 j ts l h1 _ h2 _ h h' hT
    exact .cons h1 (h fun c hc => hT (by simp [hc])) h2 (h' fun c hc => hT (by simp [hc]))
  · intro w1 n w2 w3 t w4 s j h1 hx h2 h3 _ h4 h hT
    exact .one h1 ⟨hx, fun c hc => hT (by simp [hc])⟩ h2 h3 (h fun c hc => hT (by simp [hc])) h4
  · intro w1 n w2 w3 t w4 s j ts m h1 hx h2 h3 _ h4 _ h h' hT
    exact .cons h1 ⟨hx, fun c hc => hT (by simp [hc])⟩ h2 h3 (h fun c hc => hT (by simp [hc])) h4
      (h' fun c hc => hT (by simp [hc]))

theorem dialStr_readable {tok s : Bytes} (h : DialStr tok s) (hb : (0x5C : Byte) ∉ tok) : Serial.ReadableText s := by
  obtain ⟨items, hi, rfl, rfl⟩ := h
  refine ⟨plainCodes items, ?_, rfl⟩
  intro cp hcp
  simp only [plainCodes, List.mem_map] at hcp
  obtain ⟨i, hx, rfl⟩ := hcp
  have hraw : (0x5C : Byte) ∉ i.raw := fun hm => hb (by
    simp only [List.mem_cons, List.mem_append, List.mem_flatten, List.mem_map]
    exact .inr (.inl ⟨_, ⟨i, hx, rfl⟩, hm⟩))
  cases i with
  | lit cp => exact hi _ hx
  | esc c => exact absurd (by simp [SItem.raw]) hraw
  | uni a b c d => exact absurd (by simp [SItem.raw]) hraw

/-- A text without backslashes yields texts that can be written as they are. -/
theorem accepts_readable (N : NumOps D) (hN : NegLaw N) (buf : Bytes) (v : Value D) (h : Accepts N buf v)
    (hb : (0x5C : Byte) ∉ cstr buf) : ∀ path x, walk v path = some x →
    (∀ s, x = .str s → Serial.ReadableText s) ∧
    ∀ t o, x = .obj t o → (∀ k, (findMapElement nameLt k t).isSome ↔ k ∈ o) ∧ ∀ k ∈ o, Serial.ReadableText k := by
  obtain ⟨h3, hl, j, ⟨w1, t, w2, -, hv, -, ht⟩, rfl⟩ := (accepts_iff N hN buf v).1 h
  have hv' := val_within hv (cstr buf) (fun c hc => by rw [ht]; simp [hc])
  have hstr : ∀ s, Occurs (interp N j) s → Serial.ReadableText s := by
    intro s hs
    obtain ⟨tok, h1, h2⟩ := val_strs hv' s (occurs_strs hs)
    exact dialStr_readable h1 fun hm => hb (h2 hm)
  intro path x hx
  constructor
  · rintro s rfl
    exact hstr s ⟨path, .inl hx⟩
  · rintro t o rfl
    have hx' := hx
    rw [walk_interp] at hx
    cases hw : j.walk path with
    | none => simp [hw] at hx
    | some j' =>
      rw [hw] at hx
      cases j' with
      | obj m =>
        simp only [Option.map_some, interp, Option.some.injEq, Value.obj.injEq] at hx
        obtain ⟨rfl, rfl⟩ := hx
        have hk : ∀ k, (findMapElement nameLt k (interpM N m .nil)).isSome ↔ k ∈ m.names := by
          intro k
          rw [find_interpM, ← first_isSome]
          cases m.first k <;> simp
        refine ⟨hk, fun k hm => hstr k ⟨path, .inr ?_⟩⟩
        obtain ⟨x, hf⟩ := Option.isSome_iff_exists.1 ((hk k).2 hm)
        exact ⟨_, _, x, hx', hf⟩
      | _ => simp [interp] at hx

/-- **C107, the part that holds**: a readable document is written as a text that is parsed as a document which is written, with
every indentation, as the original is. Missing: texts that need escapes, numbers that are not printed exactly, one-byte
texts, indentation by other characters than whitespace. -/
theorem C107_documents_partial (N : NumOps D) (hN : NegLaw N) (v : Value D) (il : Nat) (ic : Byte)
    (h : ReadableDoc N v) (hic : il = 0 ∨ Ws [ic]) :
    ∃ out, Emits N il ic v out ∧ (2 ≤ out.length → ∃ v', Accepts N (out ++ [0]) v' ∧
      ∀ il' ic' out', Emits N il' ic' v' out' ↔ Emits N il' ic' v out') := by
  obtain ⟨out, he, hout⟩ := C18_round_trip_partial N hN v il ic h hic
  refine ⟨out, he, fun hl => ?_⟩
  obtain ⟨v', h1, h2⟩ := hout hl
  refine ⟨v', h1, fun il' ic' out' => ⟨?_, emits_same h2⟩⟩
  rintro ⟨n, r, e1, e2, e3⟩
  exact ⟨n, r, by rw [writeValue_same N il' ic' n [] v v' h2]; exact e1, e2, e3⟩

/-- **C107 for doubles**: a text without backslashes, in which no number overflows and which is more than a single digit, is
formatted to a text that formatting does not change. Missing: backslashes, overflow, single digits, indentation by other
characters than whitespace. -/
theorem C107_texts_partial (text : Bytes) (v : Value Dbl) (il : Nat) (ic : Byte) (h : Accepts ops text v)
    (hb : (0x5C : Byte) ∉ text) (hf : FiniteNums v) (hv : ∀ k, k ≤ 9 → v ≠ .num (B64.conv false k 0))
    (hic : il = 0 ∨ Ws [ic]) :
    ∃ out v', Emits ops il ic v out ∧ Accepts ops (out ++ [0]) v' ∧ Emits ops il ic v' out := by
  have hr := accepts_readable ops b64_neg text v h (fun hm => hb (List.takeWhile_subset _ hm))
  obtain ⟨out, v', h1, h2, h3⟩ := C18_finite_partial v il ic hf hr hic hv
  exact ⟨out, v', h1, h2, emits_same h3 h1⟩

/-- `{"a":1,"a":2}` with its repeated name, formatted with tabs and formatted again with tabs. -/
example : ∃ v out v', Accepts natOps ("{\"a\":1,\"a\":2}".toUTF8.data.toList ++ [0]) v ∧
    Emits natOps 1 0x09 v out ∧ Accepts natOps (out ++ [0]) v' ∧ Emits natOps 1 0x09 v' out ∧
    out = "{\n\t\"a\" : 1,\n\t\"a\" : 1\n}".toUTF8.data.toList := by
  have e1 : "{\"a\":1,\"a\":2}".toUTF8.data.toList = [123, 34, 97, 34, 58, 49, 44, 34, 97, 34, 58, 50, 125] := by decide +kernel
  have e2 : "{\n\t\"a\" : 1,\n\t\"a\" : 1\n}".toUTF8.data.toList =
      [123, 10, 9, 34, 97, 34, 32, 58, 32, 49, 44, 10, 9, 34, 97, 34, 32, 58, 32, 49, 10, 125] := by
    decide +kernel
  rw [e1, e2]
  exact ⟨.obj (.node 0 .nil [97] (.num ⟨false, 1, 0⟩) .nil) [[97], [97]], _,
    .obj (.node 0 .nil [97] (.num ⟨false, 1, 0⟩) .nil) [[97], [97]],
    fun _ => rfl, ⟨4, _, rfl, rfl, rfl⟩, fun _ => rfl, ⟨4, _, rfl, rfl, rfl⟩, rfl⟩

end Verif.Props
