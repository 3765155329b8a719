import Verif.Lemmas.File

/-!
# Properties of writing documents and of files: C17 - C24

`writeValue` gives the chunks handed to the file in order; `Emits` joins them.
-/

namespace Verif.Props

open Verif Verif.Text Verif.Number Verif.Map Verif.Spec Verif.Parser Verif.Doc Verif.Write Verif.File

variable {D : Type}

/-- Writing the document with this indentation succeeds and emits `out`. -/
def Emits (N : NumOps D) (il : Nat) (ic : Byte) (v : Value D) (out : Bytes) : Prop :=
  ∃ n r, writeValue N il ic n [] v = .ok r ∧ r.status = .kOk ∧ out = r.chunks.flatten

theorem emits_det {N : NumOps D} {il : Nat} {ic : Byte} {v : Value D} {o o' : Bytes} (h : Emits N il ic v o)
    (h' : Emits N il ic v o') : o = o' := by
  obtain ⟨n, r, h1, -, rfl⟩ := h
  obtain ⟨n', r', h1', -, rfl⟩ := h'
  have a := writeValue_mono N il ic (Nat.le_max_left n n') v [] r h1
  have b := writeValue_mono N il ic (Nat.le_max_right n n') v [] r' h1'
  rw [a] at b
  simp only [Out.ok.injEq] at b
  rw [b]

/-- Text that can stand in a JSON string as it is: well-formed UTF-8 without control characters, quotes and
backslashes. -/
def PlainText (s : Bytes) : Prop :=
  ∃ cps : List Nat, (∀ cp ∈ cps, IsScalar cp ∧ 0x20 ≤ cp ∧ cp ≠ 0x22 ∧ cp ≠ 0x5C) ∧ s = utf8s cps

/-- A node whose data can be written without escapes: plain strings and names, numbers printed as a JSON number
of the same value, and an object whose insertion order lists exactly its members. -/
def PlainNode (N : NumOps D) : Value D → Prop
  | .num x => ∃ d : Dec, RfcNum (N.fmt x) d ∧ x = N.conv d.neg d.mantissa d.exponent
  | .str s => PlainText s
  | .obj t o => (∀ k, (findMapElement nameLt k t).isSome ↔ k ∈ o) ∧ ∀ k ∈ o, PlainText k
  | _ => True

/-- Every node of the document is plain. -/
def PlainDoc (N : NumOps D) (v : Value D) : Prop := ∀ path x, walk v path = some x → PlainNode N x

theorem rfcCodes_lit (cps : List Nat) : rfcCodes (cps.map SItem.lit) = cps := by
  induction cps with
  | nil => rfl
  | cons c cps ih =>
    cases cps with
    | nil => rfl
    | cons c' cps =>
      simp only [List.map_cons, rfcCodes, SItem.uniIn, SItem.code, Option.getD_some] at ih ⊢
      rw [ih]

theorem scalar_range {cp : Nat} (h : IsScalar cp) : cp < 0x110000 := by unfold IsScalar at h; omega

theorem utf8s_nul_free {cps : List Nat} (h : ∀ cp ∈ cps, cp < 0x110000 ∧ 0x20 ≤ cp) : (0 : Byte) ∉ utf8s cps := by
  simp only [utf8s, List.mem_flatten, List.mem_map, not_exists, not_and]
  rintro l ⟨cp, hcp, rfl⟩
  exact utf8_nul_free _ (h cp hcp).1 (by have := (h cp hcp).2; omega)

theorem raw_lits (cps : List Nat) : ((cps.map SItem.lit).map SItem.raw).flatten = utf8s cps := by
  simp [utf8s, List.map_map, Function.comp_def, SItem.raw]

theorem plainText_rfc {s : Bytes} (h : PlainText s) : RfcStr (0x22 :: (cText s ++ [0x22])) s := by
  obtain ⟨cps, hc, rfl⟩ := h
  rw [cText_nul_free (utf8s_nul_free fun cp hcp => ⟨scalar_range (hc cp hcp).1, (hc cp hcp).2.1⟩)]
  refine ⟨cps.map SItem.lit, ?_, ?_, ?_⟩
  · intro i hi
    simp only [List.mem_map] at hi
    obtain ⟨cp, hcp, rfl⟩ := hi
    exact ⟨⟨cp, rfl⟩, hc cp hcp⟩
  · rw [raw_lits]
  · rw [rfcCodes_lit]

theorem rfcNum_nul_free {t : Bytes} {d : Dec} (h : RfcNum t d) : (0 : Byte) ∉ t := by
  have key : ∀ i ft fd et e, RfcInt i → RfcFrac ft fd → RfcExp et e → (0 : Byte) ∉ i ++ (ft ++ et) := by
    intro i ft fd et e hi hf he
    exact run_nul_free (rfc_run hi hf he).1
  cases h with
  | pos hi hf he => exact key _ _ _ _ _ hi hf he
  | neg hi hf he => simp [key _ _ _ _ _ hi hf he]

theorem plain_good {N : NumOps D} {v : Value D} (h : PlainDoc N v) : Good N RfcNum RfcStr v := by
  intro path x hx
  have := h path x hx
  cases x with
  | num x =>
    obtain ⟨d, h1, h2⟩ := this
    exact ⟨d, by rw [cText_nul_free (rfcNum_nul_free h1)]; exact h1, h2⟩
  | str s => exact plainText_rfc this
  | obj t o => exact ⟨this.1, fun k hk => plainText_rfc (this.2 k hk)⟩
  | _ => trivial

/-! ## C17 -/

/-- The full statement of C17. -/
def C17_statement (N : NumOps D) : Prop := ∀ v il ic out, Emits N il ic v out → ∃ j, RfcText out j

theorem not_rfc_quotes (j : J) : ¬ RfcText [0x22, 0x22, 0x22] j := by
  rintro ⟨w1, v, w2, h1, hv, h2, e⟩
  have hw1 : w1 = [] := by
    cases w1 with
    | nil => rfl
    | cons a w =>
      simp only [List.cons_append, List.cons.injEq] at e
      have := h1 a (by simp)
      rw [← e.1] at this
      simp at this
  subst hw1
  have hw2 : w2 = [] := by
    rcases List.eq_nil_or_concat w2 with h | ⟨w, a, h⟩
    · exact h
    · subst h
      have e' := congrArg List.getLast? e
      simp only [List.nil_append, List.concat_eq_append, ← List.append_assoc, List.getLast?_concat] at e'
      have := h2 a (by simp)
      simp only [List.getLast?_cons_cons, List.getLast?_singleton, Option.some.injEq] at e'
      rw [← e'] at this
      simp at this
  subst hw2
  simp only [List.nil_append, List.append_nil] at e
  cases hv with
  | null => simp at e
  | true => simp at e
  | false => simp at e
  | num h =>
    have hd : ∀ c ∈ v, NumChar c ∨ c = 0x2D := by
      cases h with
      | pos hi hf he => intro c hc; exact .inl ((rfc_run hi hf he).1 c hc)
      | neg hi hf he =>
        intro c hc
        simp only [List.mem_cons] at hc
        rcases hc with rfl | hc
        · exact .inr rfl
        · exact .inl ((rfc_run hi hf he).1 c hc)
    rw [← e] at hd
    have := hd 0x22 (by simp)
    simp [NumChar, Digit] at this
  | str h =>
    obtain ⟨is, hi, e2, -⟩ := h
    rw [← e] at e2
    simp only [List.cons.injEq, true_and] at e2
    have e3 : ([0x22] : Bytes) = (is.map SItem.raw).flatten := by
      have : ([0x22] : Bytes) ++ [0x22] = (is.map SItem.raw).flatten ++ [0x22] := e2
      exact List.append_cancel_right this
    cases is with
    | nil => simp at e3
    | cons i is =>
      simp only [List.map_cons, List.flatten_cons] at e3
      cases i with
      | lit cp =>
        have h1 := hi (.lit cp) (by simp)
        have h2 := utf8_prefix_free 0x22 cp (by omega) (scalar_range h1.2.1) [] ((is.map SItem.raw).flatten) (by
          rw [List.append_nil]
          have : utf8 0x22 = [0x22] := by decide
          rw [this, e3]; rfl)
        exact h1.2.2.2.1 h2.symm
      | esc c => simp [SItem.raw] at e3
      | uni a b c d => simp [SItem.raw] at e3
  | arrEmpty => simp at e
  | arr => simp at e
  | objEmpty => simp at e
  | obj => simp at e

/-- **C17 is violated**: the string consisting of a double quote is written as three double quotes. -/
theorem C17_violated (N : NumOps D) : ¬ C17_statement N := by
  intro H
  obtain ⟨j, hj⟩ := H (.str [0x22]) 0 0x20 [0x22, 0x22, 0x22] ⟨1, _, rfl, rfl, rfl⟩
  exact not_rfc_quotes j hj

/-- **C17, the part that holds**: plain documents written with whitespace as indentation give RFC 8259
texts of the same document. Missing: strings and names that need escapes, numbers that are not finite,
other indentation characters, objects whose insertion order does not list their members. -/
theorem C17_writes_rfc_partial (N : NumOps D) (v : Value D) (il : Nat) (ic : Byte) (h : PlainDoc N v)
    (hic : il = 0 ∨ Ws [ic]) :
    ∃ out j, Emits N il ic v out ∧ RfcText out j ∧ SameDoc v (interp N j) := by
  obtain ⟨chunks, j, h1, h2, h3⟩ := writeValue_good N il ic hic (sizeOf v) v (Nat.le_refl _) (plain_good h) [] Ws.nil
  exact ⟨_, j, ⟨_, _, h1, rfl, rfl⟩, ⟨[], chunks.flatten, [], Ws.nil, h2, Ws.nil, by simp⟩, h3⟩

/-- A number printer for the examples: non-negative integers in decimal. -/
def natOps : NumOps Dec where
  conv neg m e := ⟨neg, m, e⟩
  neg d := ⟨!d.neg, d.mantissa, d.exponent⟩
  fmt d := (Nat.toDigits 10 d.mantissa).map fun c => UInt8.ofNat c.toNat

theorem natOps_neg : NegLaw natOps := fun _ _ _ => rfl

/-- `["a", 7]` is a plain document. -/
def plainExample : Value Dec := .arr [.str [0x61], .num ⟨false, 7, 0⟩]

theorem plainExample_plain : PlainDoc natOps plainExample := by
  have hlen : ∀ s : Bytes, s = [0x61] → PlainText s := by
    rintro s rfl
    exact ⟨[0x61], by intro cp hcp; simp only [List.mem_singleton] at hcp; subst hcp; decide, by decide⟩
  intro path x hx
  rcases path with _ | ⟨s, p⟩
  · simp only [walk, Option.some.injEq] at hx; subst hx; trivial
  · rcases s with i | k
    · simp only [walk, plainExample, step, Option.bind_eq_some_iff] at hx
      obtain ⟨y, hy, hw⟩ := hx
      have hleaf : ∀ z : Value Dec, (∀ s, step z s = none) → walk z p = some x → x = z := by
        intro z hz hw
        cases p with
        | nil => simpa [walk, eq_comm] using hw
        | cons s p => simp [walk, hz] at hw
      match i, hy with
      | 0, hy =>
        simp only [List.getElem?_cons_zero, Option.some.injEq] at hy
        subst hy
        rw [hleaf _ (by intro s; cases s <;> rfl) hw]
        exact hlen _ rfl
      | 1, hy =>
        simp only [List.getElem?_cons_succ, List.getElem?_cons_zero, Option.some.injEq] at hy
        subst hy
        rw [hleaf _ (by intro s; cases s <;> rfl) hw]
        refine ⟨⟨false, 7, 0⟩, ?_, rfl⟩
        have : natOps.fmt ⟨false, 7, 0⟩ = [0x37] ++ ([] ++ []) := by decide
        rw [this]
        have := RfcNum.pos (.pos (c := 0x37) (ds := []) (by simp [Digit]) (by decide) (by simp)) .none .none
        simpa [decimal] using this
      | i + 2, hy => simp at hy
    · simp [walk, plainExample, step] at hx

example : Emits natOps 1 0x09 plainExample
    [0x5B, 0x0A, 0x09, 0x22, 0x61, 0x22, 0x2C, 0x0A, 0x09, 0x37, 0x0A, 0x5D] := ⟨3, _, rfl, rfl, by decide⟩

/-! ## C18 -/

/-- The full statement of C18. -/
def C18_statement (N : NumOps D) : Prop :=
  ∀ v il ic out, Emits N il ic v out → ∃ v', Accepts N (out ++ [0]) v' ∧ SameDoc v v'

/-- **C18 is violated**: the string consisting of a double quote is written as text that is rejected. -/
theorem C18_violated (N : NumOps D) : ¬ C18_statement N := by
  intro H
  obtain ⟨v', h, -⟩ := H (.str [0x22]) 0 0x20 [0x22, 0x22, 0x22] ⟨1, _, rfl, rfl, rfl⟩
  have h1 := h none
  have h2 : parseBuffer N none ([0x22, 0x22, 0x22] ++ [0]) =
    .ok (⟨.kExpectedEndOfFile, 1, 3⟩, some (.str [])) := rfl
  rw [h2] at h1
  simp at h1

/-- It can also come back as something else: the string `",1,"` in an array gives three elements. -/
theorem C18_violated_silently : ∃ v v' out, Emits natOps 0 0x20 v out ∧ Accepts natOps (out ++ [0]) v' ∧
    v = .arr [.str [0x22, 0x2C, 0x31, 0x2C, 0x22]] ∧ v' = .arr [.str [], .num ⟨false, 1, 0⟩, .str []] :=
  ⟨_, _, _, ⟨3, _, rfl, rfl, rfl⟩, fun _ => rfl, rfl, rfl⟩

/-- As `PlainNode`, with what the parser does not accept excluded: DEL in strings and numbers of the
form `0e...`. -/
def ReadableNode (N : NumOps D) : Value D → Prop
  | .num x => ∃ d : Dec, SafeNum (N.fmt x) d ∧ x = N.conv d.neg d.mantissa d.exponent
  | .str s => ∃ cps : List Nat, (∀ cp ∈ cps, cp < 0x110000 ∧ 0x20 ≤ cp ∧ cp ≠ 0x22 ∧ cp ≠ 0x5C ∧ cp ≠ 0x7F) ∧
      s = utf8s cps
  | .obj t o => (∀ k, (findMapElement nameLt k t).isSome ↔ k ∈ o) ∧
      ∀ k ∈ o, ∃ cps : List Nat,
        (∀ cp ∈ cps, cp < 0x110000 ∧ 0x20 ≤ cp ∧ cp ≠ 0x22 ∧ cp ≠ 0x5C ∧ cp ≠ 0x7F) ∧ k = utf8s cps
  | _ => True

/-- Every node of the document is readable. -/
def ReadableDoc (N : NumOps D) (v : Value D) : Prop := ∀ path x, walk v path = some x → ReadableNode N x

theorem readable_str {s : Bytes} {cps : List Nat}
    (hc : ∀ cp ∈ cps, cp < 0x110000 ∧ 0x20 ≤ cp ∧ cp ≠ 0x22 ∧ cp ≠ 0x5C ∧ cp ≠ 0x7F) (hs : s = utf8s cps) :
    DialStr (0x22 :: (s ++ [0x22])) s := by
  subst hs
  refine ⟨cps.map SItem.lit, ?_, by rw [raw_lits], ?_⟩
  · intro i hi
    simp only [List.mem_map] at hi
    obtain ⟨cp, hcp, rfl⟩ := hi
    exact hc cp hcp
  · simp [plainCodes, List.map_map, Function.comp_def, SItem.code]

theorem readable_good {N : NumOps D} {v : Value D} (h : ReadableDoc N v) : Good N DialNum DialStr v := by
  have key : ∀ s : Bytes, (∃ cps : List Nat,
      (∀ cp ∈ cps, cp < 0x110000 ∧ 0x20 ≤ cp ∧ cp ≠ 0x22 ∧ cp ≠ 0x5C ∧ cp ≠ 0x7F) ∧ s = utf8s cps) →
      DialStr (0x22 :: (cText s ++ [0x22])) s := by
    rintro s ⟨cps, hc, hs⟩
    rw [cText_nul_free (hs ▸ utf8s_nul_free fun cp hcp => ⟨(hc cp hcp).1, (hc cp hcp).2.1⟩)]
    exact readable_str hc hs
  intro path x hx
  have := h path x hx
  cases x with
  | num x =>
    obtain ⟨d, h1, h2⟩ := this
    exact ⟨d, by rw [cText_nul_free (rfcNum_nul_free h1.1)]; exact safeNum_dial h1, h2⟩
  | str s => exact key s this
  | obj t o => exact ⟨this.1, fun k hk => key k (this.2 k hk)⟩
  | _ => trivial

/-- **C18, the part that holds**: a readable document written with whitespace as indentation is parsed back as the same
document, if its text has at least two bytes. Missing: what C17 misses, DEL, and one-byte texts. -/
theorem C18_round_trip_partial (N : NumOps D) (hN : NegLaw N) (v : Value D) (il : Nat) (ic : Byte)
    (h : ReadableDoc N v) (hic : il = 0 ∨ Ws [ic]) :
    ∃ out, Emits N il ic v out ∧ (2 ≤ out.length → ∃ v', Accepts N (out ++ [0]) v' ∧ SameDoc v v') := by
  obtain ⟨chunks, j, h1, h2, h3⟩ :=
    writeValue_good N il ic hic (sizeOf v) v (Nat.le_refl _) (readable_good h) [] Ws.nil
  refine ⟨_, ⟨_, _, h1, rfl, rfl⟩, fun hl => ⟨interp N j, ?_, h3⟩⟩
  exact accepts_of_dial N hN ⟨[], chunks.flatten, [], Ws.nil, h2, Ws.nil, by simp⟩ hl

/-- `["a", 7]` is read back. -/
example : ∃ v', Accepts natOps ([0x5B, 0x0A, 0x09, 0x22, 0x61, 0x22, 0x2C, 0x0A, 0x09, 0x37, 0x0A, 0x5D] ++ [0]) v' ∧
    v' = plainExample := ⟨_, fun _ => rfl, rfl⟩

theorem item_longer {i : SItem} (h : DialItem i) :
    (utf8 (i.code.getD 0)).length ≤ i.raw.length ∧
      ((utf8 (i.code.getD 0)).length = i.raw.length → ∃ cp, i = .lit cp) := by
  cases i with
  | lit cp => exact ⟨Nat.le_refl _, fun _ => ⟨cp, rfl⟩⟩
  | esc c =>
    obtain ⟨x, hx⟩ := h
    have hlt : x < 0x80 := by
      simp only [escVal] at hx
      repeat' split at hx
      all_goals simp at hx
      all_goals omega
    have : (utf8 ((SItem.esc c).code.getD 0)).length = 1 := by
      simp [SItem.code, hx, utf8, utf8Nat, hlt]
    rw [this]; simp [SItem.raw]
  | uni a b c d =>
    have := utf8_length_le ((SItem.uni a b c d).code.getD 0)
    simp only [SItem.raw, List.length_cons, List.length_nil]
    exact ⟨by omega, by omega⟩

theorem items_plain (is : List SItem) (h : ∀ i ∈ is, DialItem i) :
    (utf8s (plainCodes is)).length ≤ ((is.map SItem.raw).flatten).length ∧
      ((utf8s (plainCodes is)).length = ((is.map SItem.raw).flatten).length → ∀ i ∈ is, ∃ cp, i = .lit cp) := by
  induction is with
  | nil => simp [utf8s, plainCodes]
  | cons i is ih =>
    obtain ⟨h1, h2⟩ := item_longer (h i (by simp))
    obtain ⟨h3, h4⟩ := ih (fun j hj => h j (by simp [hj]))
    simp only [utf8s, plainCodes, List.map_cons, List.flatten_cons, List.length_append] at h1 h2 h3 h4 ⊢
    refine ⟨by omega, ?_⟩
    intro e j hj
    rcases List.mem_cons.1 hj with rfl | hj
    · exact h2 (by omega)
    · exact h4 (by omega) j hj

/-- **C18 for strings, exactly**: a string survives writing and parsing if and only if it is UTF-8 (up to encoded
surrogates) without control characters, double quotes, backslashes and DEL. -/
theorem C18_strings_exact_partial (N : NumOps D) (hN : NegLaw N) (s : Bytes) (h0 : (0 : Byte) ∉ s) :
    (∃ out, Emits N 0 0x20 (.str s) out ∧ Accepts N (out ++ [0]) (.str s)) ↔
      ∃ cps : List Nat, (∀ cp ∈ cps, cp < 0x110000 ∧ 0x20 ≤ cp ∧ cp ≠ 0x22 ∧ cp ≠ 0x5C ∧ cp ≠ 0x7F) ∧
        s = utf8s cps := by
  have hout : Emits N 0 0x20 (.str s) (0x22 :: (s ++ [0x22])) :=
    ⟨1, _, rfl, rfl, by simp [cText_nul_free h0]⟩
  constructor
  · rintro ⟨out, he, ha⟩
    have := emits_det he hout
    subst this
    obtain ⟨-, -, j, hj, ev⟩ := (accepts_iff N hN _ _).1 ha
    have hn0 : (0 : Byte) ∉ 0x22 :: (s ++ [0x22]) := by simp [h0]
    rw [cstr_append hn0] at hj
    cases j with
    | str s' =>
      simp only [interp, Value.str.injEq] at ev
      subst ev
      obtain ⟨w1, v, w2, h1, hv, h2, e⟩ := hj
      cases hv with
      | str h =>
        obtain ⟨is, hi, ev, hs⟩ := h
        -- the token is the whole text
        have hw1 : w1 = [] := by
          cases w1 with
          | nil => rfl
          | cons a w =>
            simp only [List.cons_append, List.cons.injEq] at e
            have := h1 a (by simp)
            rw [← e.1] at this
            simp at this
        subst hw1
        have hw2 : w2 = [] := by
          rcases List.eq_nil_or_concat w2 with h | ⟨w, a, h⟩
          · exact h
          · subst h
            have e' := congrArg List.getLast? e
            simp only [List.nil_append, List.concat_eq_append, ← List.append_assoc, List.getLast?_concat,
              ← List.cons_append] at e'
            have := h2 a (by simp)
            simp only [Option.some.injEq] at e'
            rw [← e'] at this
            simp at this
        subst hw2
        simp only [List.nil_append, List.append_nil] at e
        rw [ev] at e
        simp only [List.cons.injEq, true_and] at e
        have e' := List.append_cancel_right e
        obtain ⟨-, h4⟩ := items_plain is hi
        have hlit := h4 (by rw [← e', hs])
        refine ⟨plainCodes is, ?_, hs⟩
        intro cp hcp
        simp only [plainCodes, List.mem_map] at hcp
        obtain ⟨i, hx, rfl⟩ := hcp
        obtain ⟨cp, rfl⟩ := hlit i hx
        exact hi _ hx
    | _ => simp [interp] at ev
  · rintro ⟨cps, hc, hs⟩
    refine ⟨_, hout, accepts_of_dial N hN ⟨[], _, [], Ws.nil, .str (readable_str hc hs), Ws.nil, by simp⟩ ?_⟩
    simp

/-- The string `é` survives, a string with a newline does not. -/
example : (∃ cps : List Nat, (∀ cp ∈ cps, cp < 0x110000 ∧ 0x20 ≤ cp ∧ cp ≠ 0x22 ∧ cp ≠ 0x5C ∧ cp ≠ 0x7F) ∧
    ([0xC3, 0xA9] : Bytes) = utf8s cps) ∧ Rejects natOps ([0x22, 0x0A, 0x22] ++ [0]) :=
  ⟨⟨[0xE9], by intro cp hcp; simp only [List.mem_singleton] at hcp; subst hcp; decide, by decide⟩,
    fun _ => ⟨_, _, rfl, by decide⟩⟩

/-! ## C19 -/

/-- **C19.** Writing a parsed document succeeds, and the text lists the elements of every array and the members of
every object in the order of the parsed text, one row for every entry of the text (a repeated name is
written again, with the first value). -/
theorem C19_members_in_order (N : NumOps D) (hN : NegLaw N) (hfmt : ∀ x, (0 : Byte) ∉ N.fmt x) (buf : Bytes)
    (v : Value D) (h : Accepts N buf v) (il : Nat) (ic : Byte) :
    ∃ j, DialText (cstr buf) j ∧ Denotes N j v ∧
      Emits N il ic v (j.layout (fun d => N.fmt (N.conv d.neg d.mantissa d.exponent)) (List.replicate il ic) []) := by
  obtain ⟨h3, hl, j, hj, rfl⟩ := (accepts_iff N hN buf v).1 h
  refine ⟨j, hj, interp_denotes N j, ?_⟩
  have hs : ∀ s ∈ j.strs, (0 : Byte) ∉ s := by
    intro s hs
    obtain ⟨w1, t, w2, -, hv, -, -⟩ := hj
    obtain ⟨tok, items, hi, -, rfl⟩ := val_strs hv s hs
    simp only [utf8s, plainCodes, List.map_map, List.mem_flatten, List.mem_map, not_exists, not_and]
    rintro l ⟨i, hx, rfl⟩
    obtain ⟨c, e, h1, h2⟩ := (hi i hx).code
    simp only [Function.comp_apply, e, Option.getD_some]
    exact utf8_nul_free _ h1 h2
  obtain ⟨chunks, h1, h2⟩ := writeValue_lays N il ic _ j (Nat.le_refl _) hs []
  have hr : reprint N = fun d => N.fmt (N.conv d.neg d.mantissa d.exponent) := by
    funext d; exact cText_nul_free (hfmt _)
  rw [hr] at h2
  exact ⟨_, _, h1, rfl, h2.symm⟩

/-- `{"b":1,"a":2,"b":3}` is written with members b, a, b. -/
example : ∃ v, Accepts natOps
      [0x7B, 0x22, 0x62, 0x22, 0x3A, 0x31, 0x2C, 0x22, 0x61, 0x22, 0x3A, 0x32, 0x2C, 0x22, 0x62, 0x22, 0x3A, 0x33, 0x7D, 0] v ∧
    Emits natOps 0 0x20 v
      [0x7B, 0x0A, 0x22, 0x62, 0x22, 0x20, 0x3A, 0x20, 0x31, 0x2C, 0x0A, 0x22, 0x61, 0x22, 0x20, 0x3A, 0x20, 0x32, 0x2C,
       0x0A, 0x22, 0x62, 0x22, 0x20, 0x3A, 0x20, 0x31, 0x0A, 0x7D] :=
  ⟨_, fun _ => rfl, 2, _, rfl, rfl, by decide⟩

/-! ## C20, C21 -/

/-- No call fails. -/
def NoFailure (os : Sched) : Prop := ∀ i, os i ≠ .fail

/-- The full statement of C20. -/
def C20_statement (N : NumOps D) : Prop :=
  ∀ os n old v il ic out f, NoFailure os → Emits N il ic v out →
    writeDoc N os n true old (some v) il ic = .ok (.kOk, some f) → f.content = out

/-- **C20 is violated**: writing `null` over a file holding `nullx` leaves the `x`. -/
theorem C20_violated (N : NumOps D) : ¬ C20_statement N := by
  intro H
  have := H (fun _ => .done 100) 2 [0x6E, 0x75, 0x6C, 0x6C, 0x78] .null 0 0x20 [0x6E, 0x75, 0x6C, 0x6C]
    ⟨[0x6E, 0x75, 0x6C, 0x6C, 0x78], 4, 1⟩ (by intro i; simp) ⟨1, _, rfl, rfl, rfl⟩ rfl
  simp at this

theorem writeDoc_content (N : NumOps D) {os : Sched} (hos : NoFailure os) {n : Nat} {old : Bytes} {v : Value D}
    {il : Nat} {ic : Byte} {out : Bytes} {f : WFile} (he : Emits N il ic v out)
    (h : writeDoc N os n true old (some v) il ic = .ok (.kOk, some f)) :
    f.content = out ++ old.drop out.length := by
  unfold writeDoc at h
  simp only [Bool.true_eq_false, if_false] at h
  rw [Out.bind_eq_ok] at h
  obtain ⟨r, h1, h2⟩ := h
  rw [Out.bind_eq_ok] at h2
  obtain ⟨g, h3, h4⟩ := h2
  simp only [Out.ok.injEq, Prod.mk.injEq, Option.some.injEq] at h4
  obtain ⟨hst, rfl⟩ := h4
  obtain ⟨h5, -⟩ := writeChunks_spec os hos n r.chunks (openCreate old) g h3 (Nat.zero_le _)
  have := emits_det he ⟨n, r, h1, hst, rfl⟩
  rw [h5, ← this]
  simp [stored, openCreate]

/-- **C20, the part that holds**: when no call fails the file begins with the document, followed by what the old
content had beyond it; so it is exact if the old content was not longer. Missing: longer old contents. -/
theorem C20_file_content_partial (N : NumOps D) (os : Sched) (n : Nat) (old : Bytes) (v : Value D) (il : Nat)
    (ic : Byte) (out : Bytes) (f : WFile) (hos : NoFailure os) (he : Emits N il ic v out)
    (h : writeDoc N os n true old (some v) il ic = .ok (.kOk, some f)) :
    f.content = out ++ old.drop out.length ∧ (old.length ≤ out.length → f.content = out) := by
  have := writeDoc_content N hos he h
  refine ⟨this, fun hl => ?_⟩
  rw [this, List.drop_eq_nil_of_le hl, List.append_nil]

/-- Written in pieces of two bytes. -/
example : writeDoc natOps (fun _ => .done 2) 5 true [0x78] (some .null) 0 0x20 =
    .ok (.kOk, some ⟨[0x6E, 0x75, 0x6C, 0x6C], 4, 2⟩) := rfl

/-- The full statement of C21. -/
def C21_statement (N : NumOps D) : Prop :=
  ∀ os n old v il ic out f, Emits N il ic v out →
    writeDoc N os n true old (some v) il ic = .ok (.kOk, some f) → ∃ tail, f.content = out ++ tail

/-- **C21 is violated**: `Write` returns `kOk` when every `write` call has failed. -/
theorem C21_violated (N : NumOps D) : ¬ C21_statement N := by
  intro H
  obtain ⟨tail, h⟩ := H (fun _ => .fail) 2 [] .null 0 0x20 [0x6E, 0x75, 0x6C, 0x6C] ⟨[], 0, 1⟩ ⟨1, _, rfl, rfl, rfl⟩ rfl
  simp at h

/-- The status says nothing about the file: whatever the document, if writing it to a perfect disk gives a status, then
with a disk on which every call fails the same status is returned and nothing is stored. -/
theorem C21_status_ignores_disk (N : NumOps D) (n : Nat) (hn : 0 < n) (old : Bytes) (v : Value D) (il : Nat) (ic : Byte)
    (r : WRes) (h : writeValue N il ic n [] v = .ok r) :
    ∃ k, writeDoc N (fun _ => .fail) n true old (some v) il ic = .ok (r.status, some ⟨old, 0, k⟩) := by
  obtain ⟨k, hk⟩ := writeChunks_fail (fun _ => .fail) (fun _ => rfl) n hn r.chunks (openCreate old)
  refine ⟨k, ?_⟩
  unfold writeDoc
  simp only [Bool.true_eq_false, if_false, h, Out.ok_bind, hk]
  rfl

/-- **C21, the part that holds**: if no call fails, the document is stored in full; if the file cannot be opened or there
is no document, that is reported. Missing: failing calls. -/
theorem C21_stored_partial (N : NumOps D) (os : Sched) (n : Nat) (old : Bytes) (il : Nat) (ic : Byte) :
    (∀ v out f, NoFailure os → Emits N il ic v out →
      writeDoc N os n true old (some v) il ic = .ok (.kOk, some f) → ∃ tail, f.content = out ++ tail) ∧
    (∀ root, writeDoc N os n false old root il ic = .ok (.KFileOpenError, none)) ∧
    (∃ f, writeDoc N os n true old none il ic = .ok (.kInvalidStructuredData, some f)) :=
  ⟨fun _ _ _ hos he h => ⟨_, writeDoc_content N hos he h⟩, fun _ => rfl, _, rfl⟩

example : NoFailure (fun _ => .done 3) := by intro i; simp

/-! ## C22 -/

/-- **C22.** Whatever the schedule of calls, `WriteFile` stores a prefix `q` of the buffer at the offset, the rest of the
file is untouched, and success is reported exactly when the prefix is the whole buffer; and it returns whenever
every call makes progress or fails. -/
theorem C22_write_file (os : Sched) (n : Nat) (p : Bytes) (f : WFile) (ho : f.offset ≤ f.content.length) :
    (∀ b f', writeFile os n p f = .ok (b, f') →
      ∃ q r, p = q ++ r ∧ (b = true ↔ r = []) ∧ f'.offset = f.offset + q.length ∧
        f'.content = f.content.take f.offset ++ (q ++ f.content.drop (f.offset + q.length))) ∧
    ((∀ i, os i ≠ .done 0) → p.length ≤ n → ∃ b f', writeFile os n p f = .ok (b, f')) := by
  constructor
  · intro b f' h
    obtain ⟨q, r, e, h1, h2, h3⟩ := writeFile_spec os n p f b f' h ho
    exact ⟨q, r, e, h3, h2, h1⟩
  · intro hos hn
    obtain ⟨⟨b, f'⟩, h⟩ := writeFile_total os hos n p f hn
    exact ⟨b, f', h⟩

/-- Three partial writes in the middle of a file. -/
example : writeFile (fun i => .done (i + 1)) 4 [1, 2, 3, 4, 5, 6] ⟨[9, 9, 9, 9, 9, 9, 9, 9, 9], 2, 0⟩ =
    .ok (true, ⟨[9, 9, 1, 2, 3, 4, 5, 6, 9], 8, 3⟩) := rfl

/-! ## C23 -/

/-- The full statement of C23: on success the buffer holds the file, and there is a number of calls after which
`ReadFile` returns, if every call transfers at least one byte when there is one. -/
def C23_statement : Prop :=
  (∀ os file n size b, file.length = size →
    readFile os file n (List.replicate (size + 1) 0) size = .ok (true, b) → b = file ++ [0]) ∧
  (∀ os file size, (∀ i, os i ≠ .done 0) →
    ∃ n r, readFile os file n (List.replicate (size + 1) 0) size = .ok r)

/-- **C23 is violated**: with two partial reads the second overwrites the first. -/
theorem C23_violated : ¬ C23_statement := by
  intro H
  have := H.1 (fun _ => .done 2) [1, 2, 3, 4] 3 4 [3, 4, 0, 0, 0] rfl rfl
  simp at this

/-- And it never returns when the file is shorter than the size that was asked for (for instance because it was
truncated after `fstat`). -/
theorem C23_violated_hang (os : Sched) (hos : NoFailure os) (file : Bytes) (size : Nat) (h : file.length < size)
    (hs : size ≤ 65534) (n : Nat) : readFile os file n (List.replicate (size + 1) 0) size = .fuel := by
  unfold readFile
  rw [if_neg (by simp [maxFileSize]; omega)]
  exact readLoop_hang os hos file n size _ 0 0 (by simpa using h) (by simp)

/-- **C23, the part that holds**: if the first call delivers the whole file, the buffer holds it; and no call writes outside
the buffer. Missing: partial reads and files that shrink. -/
theorem C23_read_file_partial (os : Sched) (file : Bytes) (n k : Nat) (hn : 0 < n) (hk : os 0 = .done k)
    (hkl : file.length ≤ k) (hs : file.length ≤ 65534) :
    readFile os file n (List.replicate (file.length + 1) 0) file.length = .ok (true, file ++ [0]) ∧
    ∀ os' file' n' size, readFile os' file' n' (List.replicate (size + 1) 0) size ≠ .ub := by
  constructor
  · unfold readFile
    rw [if_neg (by simp [maxFileSize]; omega),
      readLoop_one os file n file.length _ 0 0 k (by simp) hk hkl (by simp) hn]
    simp
  · intro os' file' n' size
    unfold readFile
    split
    · simp
    · exact readLoop_safe os' file' n' size _ 0 0 (by simp)

example : readFile (fun _ => .done 4096) [0x5B, 0x5D] 1 (List.replicate 3 0) 2 = .ok (true, [0x5B, 0x5D, 0]) := rfl

/-! ## C24 -/

/-- The full statement of C24, for a disk on which every call transfers what it is asked for. -/
def C24_statement (N : NumOps D) : Prop :=
  ∀ os, (∀ i, ∃ k, os i = .done k ∧ 65536 ≤ k) → ∀ n, 0 < n →
    (∀ root file, 65534 < file.length →
      parseFile N os n root (some file) file.length = .ok (⟨.KFileTooLarge, 0, 0⟩, root)) ∧
    (∀ root file, file.length ≤ 65534 →
      parseFile N os n root (some file) file.length = parseBuffer N root (file ++ [0])) ∧
    (∀ v il ic f root, ReadableDoc N v → (il = 0 ∨ Ws [ic]) →
      writeDoc N os n true [] (some v) il ic = .ok (.kOk, some f) →
      ∃ v', parseFile N os n root (some f.content) f.content.length = .ok (⟨.kOk, 0, 0⟩, some v'))

theorem parseFile_large (N : NumOps D) (os : Sched) (n : Nat) (root : Option (Value D)) (file : Bytes) (stat : Nat)
    (h : 65534 < stat) : parseFile N os n root (some file) stat = .ok (⟨.KFileTooLarge, 0, 0⟩, root) := by
  unfold parseFile
  simp only
  rw [if_pos (by simp [maxFileSize]; omega)]

theorem parseFile_small (N : NumOps D) (os : Sched) (n : Nat) (hn : 0 < n) (k : Nat) (hk : os 0 = .done k)
    (root : Option (Value D)) (file : Bytes) (hkl : file.length ≤ k) (h : file.length ≤ 65534) :
    parseFile N os n root (some file) file.length = parseBuffer N root (file ++ [0]) := by
  unfold parseFile
  simp only
  rw [if_neg (by simp [maxFileSize]; omega), (C23_read_file_partial os file n k hn hk hkl h).1]
  simp

/-- A string of `m` letters a. -/
def longString (m : Nat) : Value D := .str (List.replicate m 0x61)

theorem longString_readable (N : NumOps D) (m : Nat) : ReadableDoc N (longString m) := by
  intro path x hx
  cases path with
  | nil =>
    simp only [walk, Option.some.injEq] at hx
    subst hx
    refine ⟨List.replicate m 0x61, ?_, ?_⟩
    · intro cp hcp
      rw [List.mem_replicate] at hcp
      rw [hcp.2]; decide
    · have : utf8 0x61 = [0x61] := by decide
      induction m with
      | zero => rfl
      | succ m ih =>
        simp only [utf8s, List.replicate_succ, List.map_cons, List.flatten_cons, this] at ih ⊢
        rw [← ih]; rfl
  | cons s p => cases s <;> simp [walk, longString, step] at hx

theorem longString_chunks (m : Nat) : cText (List.replicate m 0x61) = List.replicate m 0x61 := by
  apply cText_nul_free
  rw [List.mem_replicate]
  rintro ⟨-, h⟩
  exact absurd h (by decide)

theorem longString_written (N : NumOps D) (m : Nat) (hm : m + 1 ≤ 65536) :
    writeDoc N (fun _ => .done 65536) 1 true [] (some (longString (m + 1))) 0 0x20 =
      .ok (.kOk, some ⟨0x22 :: (List.replicate (m + 1) 0x61 ++ [0x22]), 1 + (m + 1) + 1, 3⟩) := by
  have hr : writeValue N 0 0x20 1 [] (longString (m + 1)) =
      .ok ⟨.kOk, [[0x22], List.replicate (m + 1) 0x61, [0x22]], []⟩ := by
    simp only [writeValue, longString, longString_chunks]
  have h1 : writeFile (fun _ => .done 65536) 1 [0x22] (openCreate []) = .ok (true, ⟨[0x22], 1, 1⟩) := rfl
  have h2 : writeFile (fun _ => .done 65536) 1 (List.replicate (m + 1) 0x61) ⟨[0x22], 1, 1⟩ =
      .ok (true, ⟨0x22 :: List.replicate (m + 1) 0x61, 1 + (m + 1), 2⟩) := by
    simp only [List.replicate_succ, writeFile]
    rw [List.drop_eq_nil_of_le (by simp; omega), List.take_of_length_le (by simp; omega)]
    simp [writeFile, WFile.put]
  have h4 : writeFile (fun _ => .done 65536) 1 [0x22] ⟨0x22 :: List.replicate (m + 1) 0x61, 1 + (m + 1), 2⟩ =
      .ok (true, ⟨0x22 :: (List.replicate (m + 1) 0x61 ++ [0x22]), 1 + (m + 1) + 1, 3⟩) := by
    simp only [writeFile, WFile.put]
    rw [List.take_of_length_le (l := 0x22 :: List.replicate (m + 1) 0x61) (by
        rw [List.length_cons, List.length_replicate]; omega),
      List.drop_eq_nil_of_le (as := 0x22 :: List.replicate (m + 1) 0x61) (by
        rw [List.length_cons, List.length_replicate]; omega)]
    rfl
  unfold writeDoc
  simp only [Bool.true_eq_false, if_false, hr, Out.ok_bind, writeChunks, h1, h2, h4]

/-- **C24 is violated**: a string of 65534 letters is written as 65536 bytes, and that file is refused. -/
theorem C24_violated (N : NumOps D) : ¬ C24_statement N := by
  intro H
  obtain ⟨-, -, h3⟩ := H (fun _ => .done 65536) (fun _ => ⟨65536, rfl, Nat.le_refl _⟩) 1 (by decide)
  have key : ∀ m, m = 65533 → False := by
    intro m hm
    obtain ⟨v', hv⟩ := h3 _ _ _ _ none (longString_readable N (m + 1)) (.inl rfl)
      (longString_written N m (by omega))
    rw [parseFile_large N _ _ _ _ _ (by
      rw [List.length_cons, List.length_append, List.length_replicate]
      have : ([0x22] : Bytes).length = 1 := rfl
      omega)] at hv
    simp at hv
  exact key _ rfl

/-- **C24, the part that holds**: larger files are refused, other files are parsed as the bytes they hold, and a readable
document whose text has between 2 and 65534 bytes, written to a new file, is parsed back as the same document.
Missing: documents with longer or one-byte texts. -/
theorem C24_files_partial (N : NumOps D) (hN : NegLaw N) (os : Sched)
    (hos : ∀ i, ∃ k, os i = .done k ∧ 65536 ≤ k) (n : Nat) (hn : 0 < n) :
    (∀ root file, 65534 < file.length →
      parseFile N os n root (some file) file.length = .ok (⟨.KFileTooLarge, 0, 0⟩, root)) ∧
    (∀ root file, file.length ≤ 65534 →
      parseFile N os n root (some file) file.length = parseBuffer N root (file ++ [0])) ∧
    (∀ v il ic f root, ReadableDoc N v → (il = 0 ∨ Ws [ic]) →
      writeDoc N os n true [] (some v) il ic = .ok (.kOk, some f) →
      2 ≤ f.content.length → f.content.length ≤ 65534 →
      ∃ v', parseFile N os n root (some f.content) f.content.length = .ok (⟨.kOk, 0, 0⟩, some v') ∧
        SameDoc v v') := by
  obtain ⟨k, hk, hk'⟩ := hos 0
  have hsmall : ∀ root file, file.length ≤ 65534 →
      parseFile N os n root (some file) file.length = parseBuffer N root (file ++ [0]) :=
    fun root file h => parseFile_small N os n hn k hk root file (by omega) h
  refine ⟨fun root file h => parseFile_large N os n root file _ h, hsmall, ?_⟩
  intro v il ic f root hr hic hw h2 hmax
  obtain ⟨out, he, hout⟩ := C18_round_trip_partial N hN v il ic hr hic
  have hos' : NoFailure os := by
    intro i hi
    obtain ⟨k', hk', -⟩ := hos i
    rw [hi] at hk'; simp at hk'
  have hc := (C20_file_content_partial N os n [] v il ic out f hos' he hw).2 (Nat.zero_le _)
  obtain ⟨v', ha, hs⟩ := hout (by rw [← hc]; exact h2)
  exact ⟨v', by rw [hsmall root _ hmax, hc]; exact ha root, hs⟩

/-- A file of three bytes. -/
example : parseFile natOps (fun _ => .done 65536) 1 none (some [0x5B, 0x37, 0x5D]) 3 =
    .ok (⟨.kOk, 0, 0⟩, some (.arr [.num ⟨false, 7, 0⟩])) := rfl

end Verif.Props
