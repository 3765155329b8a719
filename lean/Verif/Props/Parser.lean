import Verif.Lemmas.Rfc
import Verif.Props.Text

/-!
# Properties of `StructuredData::Parse`: C01 - C08, C10 - C16, C54

`parseBuffer N root buf` is the call `Parse(buf)` on a `StructuredData` holding `root`; `N` is the
number conversion of the C library, of which only `NegLaw` is assumed (negation flips the sign of
the converted decimal).
-/

namespace Verif.Props

open Verif Verif.Text Verif.Number Verif.Map Verif.Spec Verif.Parser Verif.Doc

variable {D : Type}

/-- `Parse` accepts the buffer and installs the document `v`. -/
def Accepts (N : NumOps D) (buf : Bytes) (v : Value D) : Prop :=
  ∀ root, parseBuffer N root buf = .ok (⟨.kOk, 0, 0⟩, some v)

/-- `Parse` returns a status other than `kOk`. -/
def Rejects (N : NumOps D) (buf : Bytes) : Prop :=
  ∀ root, ∃ res root', parseBuffer N root buf = .ok (res, root') ∧ res.status ≠ .kOk

/-- A value object shows what the abstract value says: kind, contents, and for containers their
length or the names that can be found. -/
def Shows (N : NumOps D) : J → Value D → Prop
  | .null, .null => True
  | .bool b, .bool b' => b' = b
  | .num d, .num x => x = N.conv d.neg d.mantissa d.exponent
  | .str s, .str s' => s' = s
  | .arr l, .arr l' => l'.length = l.length
  | .obj m, .obj t _ => ∀ k, (findMapElement nameLt k t).isSome ↔ k ∈ m.names
  | _, _ => False

/-- Walking through the value objects shows the abstract value: every path leads nowhere in both, or to
a value object that shows the abstract value there. -/
def Denotes (N : NumOps D) (j : J) (v : Value D) : Prop :=
  ∀ path : List Step,
    (j.walk path = none ∧ walk v path = none) ∨
    ∃ j' v', j.walk path = some j' ∧ walk v path = some v' ∧ Shows N j' v'

/-! ## A concrete number conversion and texts for the examples -/

/-- Numbers kept as decimals. -/
def decOps : NumOps Dec where
  conv neg m e := ⟨neg, m, e⟩
  neg d := ⟨!d.neg, d.mantissa, d.exponent⟩
  fmt _ := []

theorem decOps_neg : NegLaw decOps := fun _ _ _ => rfl

/-! ## Summary of the lemmas for `parseBuffer` -/

theorem parseBuffer_short (N : NumOps D) (root : Option (Value D)) {buf : Bytes} (h : buf.length < 3) :
    parseBuffer N root buf = .ok (⟨.kTextBufferContentsInvalid, 0, 0⟩, root) := by
  unfold parseBuffer; rw [if_pos h]

theorem rd_last {buf : Bytes} (h : 3 ≤ buf.length) :
    ∃ c, buf.getLast? = some c ∧ rd buf (buf.length - 1) = .ok c := by
  have hne : buf ≠ [] := by rintro rfl; simp at h
  refine ⟨buf.getLast hne, List.getLast?_eq_some_getLast hne, ?_⟩
  unfold rd
  rw [List.getElem?_eq_getElem (by omega)]
  simp [List.getLast_eq_getElem]

theorem parseBuffer_unterminated (N : NumOps D) (root : Option (Value D)) {buf : Bytes}
    (h : 3 ≤ buf.length) (hl : buf.getLast? ≠ some 0) :
    parseBuffer N root buf = .ok (⟨.kUnterminatedTextBuffer, 0, 0⟩, root) := by
  obtain ⟨c, hc, hr⟩ := rd_last h
  unfold parseBuffer
  rw [if_neg (by omega), hr]
  simp only [Out.ok_bind]
  rw [if_pos (by rintro rfl; exact hl hc)]

theorem parseBuffer_root (N : NumOps D) (root : Option (Value D)) {buf : Bytes}
    (h : 3 ≤ buf.length) (hl : buf.getLast? = some 0) :
    parseBuffer N root buf = parseRoot N (parseFuel buf) buf >>= fun r =>
      .ok (⟨r.status, r.errorLine, r.errorColumn⟩, r.root) := by
  unfold parseBuffer
  rw [if_neg (by omega), (last_zero hl).2]
  rfl

/-- Everything that can happen. -/
theorem parseBuffer_cases (N : NumOps D) (hN : NegLaw N) (buf : Bytes) :
    (∀ root, buf.length < 3 ∧
      parseBuffer N root buf = .ok (⟨.kTextBufferContentsInvalid, 0, 0⟩, root)) ∨
    (∀ root, 3 ≤ buf.length ∧ buf.getLast? ≠ some 0 ∧
      parseBuffer N root buf = .ok (⟨.kUnterminatedTextBuffer, 0, 0⟩, root)) ∨
    (3 ≤ buf.length ∧ buf.getLast? = some 0 ∧
      ∃ j, DialText (cstr buf) j ∧ Accepts N buf (interp N j)) ∨
    (3 ≤ buf.length ∧ buf.getLast? = some 0 ∧ (∀ j, ¬ DialText (cstr buf) j) ∧
      ∃ res, Failure N buf res ∧ ∀ root, parseBuffer N root buf =
        .ok (⟨res.status, res.errorLine, res.errorColumn⟩, res.root)) := by
  by_cases h3 : buf.length < 3
  · exact .inl fun root => ⟨h3, parseBuffer_short N root h3⟩
  have h3 : 3 ≤ buf.length := by omega
  by_cases hl : buf.getLast? = some 0
  · right; right
    rcases root_total N hN (parseFuel buf) buf h3 hl (Nat.le_refl _) with ⟨j, hj, h⟩ | ⟨res, h, hf⟩
    · left
      refine ⟨h3, hl, j, hj, fun root => ?_⟩
      rw [parseBuffer_root N root h3 hl, h]; rfl
    · right
      refine ⟨h3, hl, ?_, res, hf, fun root => ?_⟩
      · intro j hj
        have := root_complete N hN (parseFuel buf) buf h3 hl (Nat.le_refl _) hj
        rw [h] at this
        simp only [Out.ok.injEq] at this
        exact hf.status (by rw [this])
      · rw [parseBuffer_root N root h3 hl, h]; rfl
  · exact .inr (.inl fun root => ⟨h3, hl, parseBuffer_unterminated N root h3 hl⟩)

theorem accepts_det {N : NumOps D} {buf : Bytes} {v v' : Value D} (h : Accepts N buf v)
    (h' : Accepts N buf v') : v = v' := by
  have := (h none).symm.trans (h' none)
  simpa using this

/-- The accepted buffers are those whose text is generated by the dialect. -/
theorem accepts_iff (N : NumOps D) (hN : NegLaw N) (buf : Bytes) (v : Value D) :
    Accepts N buf v ↔
      3 ≤ buf.length ∧ buf.getLast? = some 0 ∧ ∃ j, DialText (cstr buf) j ∧ v = interp N j := by
  constructor
  · intro h
    rcases parseBuffer_cases N hN buf with hc | hc | ⟨h3, hl, j, hj, ha⟩ | ⟨h3, hl, -, res, hf, hc⟩
    · have := (hc none).2.symm.trans (h none); simp at this
    · have := (hc none).2.2.symm.trans (h none); simp at this
    · exact ⟨h3, hl, j, hj, accepts_det h ha⟩
    · have := (hc none).symm.trans (h none)
      simp only [Out.ok.injEq, Prod.mk.injEq, ParseResult.mk.injEq] at this
      exact absurd this.1.1 hf.status
  · rintro ⟨h3, hl, j, hj, rfl⟩ root
    rw [parseBuffer_root N root h3 hl, root_complete N hN _ buf h3 hl (Nat.le_refl _) hj]
    rfl

theorem interp_denotes (N : NumOps D) (j : J) : Denotes N j (interp N j) := by
  intro path
  rw [walk_interp]
  cases h : j.walk path with
  | none => exact .inl ⟨rfl, rfl⟩
  | some j' =>
    refine .inr ⟨j', interp N j', rfl, rfl, ?_⟩
    cases j' <;> simp only [interp, Shows]
    · rfl
    · exact interpL_length N _
    · intro k
      rw [find_interpM, ← first_isSome]
      cases JM.first _ _ <;> simp

/-! ## C01, C02 -/

/-- **C01.** Parsing never has undefined behaviour (no access outside the buffer, no write outside the
storage of a parsed string, no null dereference), whatever the buffer and the previous document. -/
theorem C01_no_undefined_behaviour (N : NumOps D) (hN : NegLaw N) (root : Option (Value D)) (buf : Bytes) :
    parseBuffer N root buf ≠ .ub := by
  rcases parseBuffer_cases N hN buf with h | h | ⟨_, _, j, _, h⟩ | ⟨_, _, _, res, _, h⟩
  · rw [(h root).2]; simp
  · rw [(h root).2.2]; simp
  · rw [h root]; simp
  · rw [h root]; simp

/-- A nested document with an unfinished string: parsed without undefined behaviour. -/
example : (parseBuffer decOps none [0x5B, 0x7B, 0x22, 0x61, 0x5C, 0]) =
    .ok (⟨.kStringIllegalEscape, 1, 4⟩, none) := by rfl

/-- **C02.** Parsing terminates: nested calls and loop iterations never exceed three times the length of
the buffer plus three (the fuel given to the model), and any larger bound gives a result too. -/
theorem C02_terminates (N : NumOps D) (hN : NegLaw N) (buf : Bytes) (fuel : Nat)
    (hf : 3 * buf.length + 3 ≤ fuel) : ∃ res, parseRoot N fuel buf = .ok res := by
  by_cases h3 : buf.length < 3
  · exact ⟨_, by unfold parseRoot; rw [if_pos h3]⟩
  have h3 : 3 ≤ buf.length := by omega
  by_cases hl : buf.getLast? = some 0
  · rcases root_total N hN fuel buf h3 hl hf with ⟨j, _, h⟩ | ⟨res, h, _⟩
    · exact ⟨_, h⟩
    · exact ⟨_, h⟩
  · obtain ⟨c, hc, hr⟩ := rd_last h3
    refine ⟨⟨.kUnterminatedTextBuffer, none, 0, 0⟩, ?_⟩
    unfold parseRoot
    rw [if_neg (by omega), hr]
    simp only [Out.ok_bind]
    rw [if_pos (by rintro rfl; exact hl hc)]

/-- `parseBuffer` uses exactly that bound and never runs out of it. -/
theorem C02_parse_returns (N : NumOps D) (hN : NegLaw N) (root : Option (Value D)) (buf : Bytes) :
    ∃ res root', parseBuffer N root buf = .ok (res, root') := by
  rcases parseBuffer_cases N hN buf with h | h | ⟨_, _, j, _, h⟩ | ⟨_, _, _, res, _, h⟩
  · exact ⟨_, _, (h root).2⟩
  · exact ⟨_, _, (h root).2.2⟩
  · exact ⟨_, _, h root⟩
  · exact ⟨_, _, h root⟩

/-- Not vacuous: too little fuel does run out. -/
example : parseRoot decOps 4 [0x5B, 0x5B, 0x5B, 0x5D, 0x5D, 0x5D, 0] = .fuel := by rfl

/-! ## C03 -/

/-- The full statement of C03. -/
def C03_statement (N : NumOps D) : Prop :=
  ∀ t j, RfcText t j → ∃ v, Accepts N (t ++ [0]) v ∧ Denotes N j v

/-- **C03 is violated**: `0e1` is an RFC 8259 text and is rejected. -/
theorem C03_violated (N : NumOps D) : ¬ C03_statement N := by
  intro H
  obtain ⟨v, hv, -⟩ := H [0x30, 0x65, 0x31] (.num ⟨false, 0, 1⟩)
    ⟨[], _, [], Ws.nil, .num (RfcNum.pos (et := [0x65, 0x31]) .zero .none
      (.unsigned (.inl rfl) (by simp) (by simp [Digit]))), Ws.nil, rfl⟩
  have : parseBuffer N none [0x30, 0x65, 0x31, 0] =
    .ok (⟨.kNumbersCannotHaveLeadingZeros, 1, 1⟩, none) := by rfl
  have := this.symm.trans (hv none)
  simp at this

/-- Also violated by a text of one byte, by DEL in a string and by `\u0000`. -/
theorem C03_violated_other (N : NumOps D) :
    Rejects N [0x37, 0] ∧ Rejects N [0x22, 0x7F, 0x22, 0] ∧
    Rejects N [0x22, 0x5C, 0x75, 0x30, 0x30, 0x30, 0x30, 0x22, 0] ∧
    RfcText [0x37] (.num ⟨false, 7, 0⟩) ∧ RfcText [0x22, 0x7F, 0x22] (.str [0x7F]) ∧
    RfcText [0x22, 0x5C, 0x75, 0x30, 0x30, 0x30, 0x30, 0x22] (.str [0]) := by
  refine ⟨fun r => ⟨_, _, rfl, by decide⟩, fun r => ⟨⟨.kStringIllegalChar, 1, 2⟩, none, rfl, by decide⟩,
    fun r => ⟨⟨.kStringIllegalEscape, 1, 2⟩, none, rfl, by decide⟩, ?_, ?_, ?_⟩
  · exact ⟨[], _, [], Ws.nil, .num (RfcNum.pos (i := [0x37]) (.pos (by simp [Digit]) (by decide) (by simp))
      .none .none), Ws.nil, rfl⟩
  · refine ⟨[], _, [], Ws.nil, .str ⟨[.lit 0x7F], ?_, rfl, rfl⟩, Ws.nil, rfl⟩
    simp [RfcItem, SItem.code, IsScalar]
  · refine ⟨[], _, [], Ws.nil, .str ⟨[.uni 0x30 0x30 0x30 0x30], ?_, rfl, rfl⟩, Ws.nil, rfl⟩
    intro i hi
    simp only [List.mem_singleton] at hi
    subst hi
    exact ⟨⟨0, by decide⟩, trivial⟩

theorem dialText_nul_free {t : Bytes} {j : J} (h : DialText t j) : (0 : Byte) ∉ t := by
  obtain ⟨w1, v, w2, h1, hv, h2, rfl⟩ := h
  have := h1.nul_free; have := h2.nul_free; have := val_nul_free hv
  simp [*]

theorem accepts_of_dial (N : NumOps D) (hN : NegLaw N) {t : Bytes} {j : J} (h : DialText t j)
    (h2 : 2 ≤ t.length) : Accepts N (t ++ [0]) (interp N j) := by
  rw [accepts_iff N hN]
  refine ⟨by simp; omega, by simp, j, ?_, rfl⟩
  rw [cstr_append (dialText_nul_free h)]; exact h

/-- **C03, the part that holds**: every RFC 8259 text of at least two bytes is accepted and gives the value
it denotes, unless it contains a zero directly followed by an exponent, the character DEL, the escape
`\u0000`, or the escape of a high surrogate. Missing: exactly these texts (of which those with
surrogate escapes are accepted but decoded differently, C06) and texts of one byte. -/
theorem C03_rfc_accepted_partial (N : NumOps D) (hN : NegLaw N) (t : Bytes) (j : J) (h : SafeText t j)
    (h2 : 2 ≤ t.length) : ∃ v, Accepts N (t ++ [0]) v ∧ Denotes N j v :=
  ⟨_, accepts_of_dial N hN (safe_dial h) h2, interp_denotes N j⟩

/-- `[-1.5e2 ]` is such a text. -/
example : SafeText [0x5B, 0x2D, 0x31, 0x2E, 0x35, 0x65, 0x32, 0x20, 0x5D]
    (.arr (.cons (.num ⟨true, 15, 1⟩) .nil)) := by
  refine ⟨[], _, [], Ws.nil, .arr (Elems.one (w1 := []) (t := [0x2D, 0x31, 0x2E, 0x35, 0x65, 0x32])
    (w2 := [0x20]) Ws.nil (.num ⟨?_, ?_⟩) (by simp [Ws])), Ws.nil, rfl⟩
  · exact RfcNum.neg (i := [0x31]) (ft := [0x2E, 0x35]) (et := [0x65, 0x32])
      (.pos (by simp [Digit]) (by decide) (by simp)) (.some (by simp) (by simp [Digit]))
      (.unsigned (.inl rfl) (by simp) (by simp [Digit]))
  · rintro ⟨sg, c, r, rfl | rfl, hc, e⟩ <;> simp at e

/-! ## C04 -/

/-- The full statement of C04. -/
def C04_statement (N : NumOps D) : Prop :=
  ∀ buf v, Accepts N buf v → ∃ j, RfcText (cstr buf) j

theorem rfc_first {t : Bytes} {j : J} (h : RfcText t j) : ∀ r, t ≠ 0x2B :: r := by
  obtain ⟨w1, v, w2, h1, hv, h2, rfl⟩ := h
  intro r e
  have hw : w1 = [] := by
    cases w1 with
    | nil => rfl
    | cons a w =>
      simp only [List.cons_append, List.cons.injEq] at e
      have := h1 a (by simp)
      rw [e.1] at this
      simp at this
  subst hw
  have hhead : ∀ s, v ≠ 0x2B :: s := by
    intro s ev
    cases hv with
    | null => simp at ev
    | true => simp at ev
    | false => simp at ev
    | num h =>
      cases h with
      | pos hi hf he => exact (rfc_run hi hf he).2.2.1 _ ev
      | neg hi hf he => simp at ev
    | str h => obtain ⟨is, -, e2, -⟩ := h; rw [e2] at ev; simp at ev
    | arrEmpty => simp at ev
    | arr => simp at ev
    | objEmpty => simp at ev
    | obj => simp at ev
  have hne : v ≠ [] := by
    cases hv with
    | num h =>
      cases h with
      | pos hi hf he => obtain ⟨-, c, r, rfl, -⟩ := rfcInt_digits hi; simp
      | neg hi hf he => simp
    | str h => obtain ⟨is, -, e2, -⟩ := h; rw [e2]; simp
    | _ => simp
  cases v with
  | nil => exact hne rfl
  | cons a v =>
    simp only [List.nil_append, List.cons_append, List.cons.injEq] at e
    exact hhead v (by rw [e.1])

/-- **C04 is violated**: `+5` is accepted. -/
theorem C04_violated (N : NumOps D) : ¬ C04_statement N := by
  intro H
  obtain ⟨j, hj⟩ := H [0x2B, 0x35, 0] (.num (N.conv false 5 0)) (fun _ => rfl)
  exact rfc_first hj _ rfl

/-- More texts that are accepted: `- 5`, `--5` (as 5), `.5`, `5.`, `1.2.3` (as 1.2), `1-2` (as 1). -/
theorem C04_violated_other (N : NumOps D) (hN : NegLaw N) :
    Accepts N [0x2D, 0x20, 0x35, 0] (.num (N.conv true 5 0)) ∧
    Accepts N [0x2D, 0x2D, 0x35, 0] (.num (N.conv false 5 0)) ∧
    Accepts N [0x2E, 0x35, 0] (.num (N.conv false 5 (-1))) ∧
    Accepts N [0x35, 0x2E, 0] (.num (N.conv false 5 0)) ∧
    Accepts N [0x31, 0x2E, 0x32, 0x2E, 0x33, 0] (.num (N.conv false 12 (-1))) ∧
    Accepts N [0x31, 0x2D, 0x32, 0] (.num (N.conv false 1 0)) := by
  refine ⟨fun _ => ?_, fun _ => ?_, fun _ => rfl, fun _ => rfl, fun _ => rfl, fun _ => rfl⟩
  · have := hN false 5 0
    simp only [Bool.not_false] at this
    rw [← this]; rfl
  · have := hN true 5 0
    simp only [Bool.not_true] at this
    rw [← this]; rfl

/-- **C04, the part that holds**: an accepted text has the structure RFC 8259 prescribes (`JsonText` is the
RFC grammar for values, arrays, objects and whitespace); only its number and string tokens may
deviate, and exactly as `DialNum` and `DialStr` say. The characterisation is exact: what it describes is
accepted. -/
theorem C04_structure_partial (N : NumOps D) (hN : NegLaw N) (t : Bytes) (h2 : 2 ≤ t.length)
    (h0 : (0 : Byte) ∉ t) :
    (∃ v, Accepts N (t ++ [0]) v) ↔ ∃ j, JsonText DialNum DialStr t j := by
  constructor
  · rintro ⟨v, h⟩
    obtain ⟨-, -, j, hj, -⟩ := (accepts_iff N hN _ v).1 h
    rw [cstr_append h0] at hj
    exact ⟨j, hj⟩
  · rintro ⟨j, hj⟩
    exact ⟨_, accepts_of_dial N hN hj h2⟩

/-- The dialect is not everything: `[1,]` is rejected. -/
example : Rejects decOps [0x5B, 0x31, 0x2C, 0x5D, 0] := fun r => ⟨_, _, rfl, by decide⟩

/-! ## C05 -/

/-- **C05.** When a buffer is accepted, its text (the bytes before the first NUL) derives an abstract value
`j`, and walking through the returned tree along any path of indices and names shows exactly `j`. -/
theorem C05_tree_denotes_text (N : NumOps D) (hN : NegLaw N) (buf : Bytes) (v : Value D)
    (h : Accepts N buf v) : ∃ j, DialText (cstr buf) j ∧ Denotes N j v := by
  obtain ⟨-, -, j, hj, rfl⟩ := (accepts_iff N hN buf v).1 h
  exact ⟨j, hj, interp_denotes N j⟩

/-- The value is determined by the text: two derivations show the same tree. -/
theorem C05_unambiguous (N : NumOps D) (hN : NegLaw N) (buf : Bytes) (v : Value D)
    (h : Accepts N buf v) (j : J) (hj : DialText (cstr buf) j) : Denotes N j v := by
  obtain ⟨h3, hl, -⟩ := (accepts_iff N hN buf v).1 h
  have := accepts_det h ((accepts_iff N hN buf _).2 ⟨h3, hl, j, hj, rfl⟩)
  rw [this]; exact interp_denotes N j

/-- `{"a":[true,{"b":null}]}` and the walk a / 1 / b. -/
def nestedText : Bytes :=
  [0x7B, 0x22, 0x61, 0x22, 0x3A, 0x5B, 0x74, 0x72, 0x75, 0x65, 0x2C, 0x7B, 0x22, 0x62, 0x22, 0x3A,
   0x6E, 0x75, 0x6C, 0x6C, 0x7D, 0x5D, 0x7D, 0]

example : ∃ v, Accepts decOps nestedText v ∧
    walk v [.member [0x61], .index 1, .member [0x62]] = some .null ∧
    walk v [.member [0x61], .index 2] = none :=
  ⟨_, fun _ => rfl, rfl, rfl⟩

end Verif.Props
