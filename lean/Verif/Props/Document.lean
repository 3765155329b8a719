import Verif.Props.Parser
import Verif.Lemmas.Spacing

/-!
# Properties of parsed documents: C06 - C16, C54, C55
-/

namespace Verif.Props

open Verif Verif.Text Verif.Number Verif.Map Verif.Spec Verif.Parser Verif.Doc

variable {D : Type}

/-! ## C06 -/

/-- The full statement of C06: an accepted string token gives the UTF-8 text of the characters it denotes. -/
def C06_statement (N : NumOps D) : Prop :=
  ∀ tok s v, RfcStr tok s → Accepts N (tok ++ [0]) v → v = .str s

/-- The token `"😀"` (U+1F600). -/
def pairToken : Bytes :=
  [0x22, 0x5C, 0x75, 0x44, 0x38, 0x33, 0x44, 0x5C, 0x75, 0x44, 0x45, 0x30, 0x30, 0x22]

/-- **C06 is violated**: a pair of surrogate escapes is stored as two encoded surrogates. -/
theorem C06_violated (N : NumOps D) : ¬ C06_statement N := by
  intro H
  have := H pairToken [0xF0, 0x9F, 0x98, 0x80] (.str [0xED, 0xA0, 0xBD, 0xED, 0xB8, 0x80])
    ⟨[.uni 0x44 0x38 0x33 0x44, .uni 0x44 0x45 0x30 0x30], ?_, rfl, by decide⟩ (fun _ => rfl)
  · simp at this
  · intro i hi
    simp only [List.mem_cons, List.not_mem_nil, or_false] at hi
    rcases hi with rfl | rfl
    · exact ⟨⟨_, rfl⟩, trivial⟩
    · exact ⟨⟨_, rfl⟩, trivial⟩

/-- **C06, the part that holds**: string tokens without DEL, `\u0000` and escaped high surrogates are decoded
as RFC 8259 prescribes; and every accepted string token, these included, is decoded item by item.
Missing: pairs of surrogate escapes. -/
theorem C06_string_decoded_partial (N : NumOps D) (hN : NegLaw N) (tok s : Bytes) :
    (SafeStr tok s → Accepts N (tok ++ [0]) (.str s)) ∧
    (DialStr tok s → Accepts N (tok ++ [0]) (.str s)) := by
  have key : DialStr tok s → Accepts N (tok ++ [0]) (.str s) := by
    intro h
    have h2 : 2 ≤ tok.length := by
      obtain ⟨is, -, e, -⟩ := h
      rw [e]; simp
    exact accepts_of_dial N hN ⟨[], tok, [], Ws.nil, .str h, Ws.nil, by simp⟩ h2
  exact ⟨fun h => key (safeStr_dial h), key⟩

/-- `"\n€"` is such a token. -/
example : SafeStr [0x22, 0x5C, 0x6E, 0x5C, 0x75, 0x32, 0x30, 0x41, 0x43, 0x22] [0x0A, 0xE2, 0x82, 0xAC] := by
  refine ⟨[.esc 0x6E, .uni 0x32 0x30 0x41 0x43], ?_, rfl, by decide⟩
  intro i hi
  simp only [List.mem_cons, List.not_mem_nil, or_false] at hi
  rcases hi with rfl | rfl
  · exact ⟨⟨⟨⟨_, rfl⟩, trivial⟩, by simp, by decide⟩, by decide⟩
  · exact ⟨⟨⟨⟨_, rfl⟩, trivial⟩, by simp, by decide⟩, by decide⟩

/-! ## C07 -/

/-- `s` is a string value, or the name of a member, somewhere in the document `v`. -/
def Occurs (v : Value D) (s : Bytes) : Prop :=
  ∃ path, walk v path = some (.str s) ∨
    ∃ t o x, walk v path = some (.obj t o) ∧ findMapElement nameLt s t = some x

/-- The full statement of C07. -/
def C07_statement (N : NumOps D) : Prop :=
  ∀ buf v s, Accepts N buf v → Occurs v s → WellFormed s ∧ (0 : Byte) ∉ s

/-- **C07 is violated**: `"\uD800"` gives the ill-formed string ED A0 80. -/
theorem C07_violated (N : NumOps D) : ¬ C07_statement N := by
  intro H
  obtain ⟨⟨cps, hs, e⟩, -⟩ := H [0x22, 0x5C, 0x75, 0x44, 0x38, 0x30, 0x30, 0x22, 0]
    (.str [0xED, 0xA0, 0x80]) [0xED, 0xA0, 0x80] (fun _ => rfl) ⟨[], .inl rfl⟩
  cases cps with
  | nil => simp [utf8s] at e
  | cons cp cps =>
    have e' : (utf8 0xD800 ++ [] : Bytes) = utf8 cp ++ utf8s cps := by
      have : (utf8 0xD800 ++ [] : Bytes) = [0xED, 0xA0, 0x80] := by decide
      rw [this, e]; simp [utf8s]
    have h := hs cp (by simp)
    have := utf8_prefix_free 0xD800 cp (by omega) (scalar_lt h) _ _ e'
    rw [← this] at h
    revert h; decide

theorem occurs_strs {N : NumOps D} {j : J} {s : Bytes} (h : Occurs (interp N j) s) : s ∈ j.strs := by
  obtain ⟨path, h⟩ := h
  rw [walk_interp] at h
  cases hw : j.walk path with
  | none => simp [hw] at h
  | some j' =>
    rw [hw] at h
    apply walk_strs j path hw
    rcases h with h | ⟨t, o, x, h, hx⟩
    · cases j' <;> simp [interp] at h
      subst h; simp [J.strs]
    · cases j' <;> simp [interp] at h
      obtain ⟨rfl, rfl⟩ := h
      rw [find_interpM] at hx
      simp only [J.strs]
      apply names_strs
      rw [← first_isSome]
      cases hf : JM.first s _ with
      | none => simp [hf] at hx
      | some y => rfl

/-- Dialect string tokens whose characters are all scalar values. -/
def ScalarStr (t s : Bytes) : Prop :=
  ∃ items : List SItem, (∀ i ∈ items, DialItem i ∧ IsScalar (i.code.getD 0)) ∧
    t = 0x22 :: ((items.map SItem.raw).flatten ++ [0x22]) ∧ s = utf8s (plainCodes items)

theorem dialStr_content {tok s : Bytes} (h : DialStr tok s) : Generalized s ∧ (0 : Byte) ∉ s := by
  obtain ⟨items, hi, -, rfl⟩ := h
  have hc : ∀ i ∈ items, i.code.getD 0 < 0x110000 ∧ i.code.getD 0 ≠ 0 := by
    intro i hx
    obtain ⟨c, e, h1, h2⟩ := (hi i hx).code
    rw [e]; exact ⟨h1, h2⟩
  refine ⟨⟨plainCodes items, ?_, rfl⟩, ?_⟩
  · intro cp hcp
    simp only [plainCodes, List.mem_map] at hcp
    obtain ⟨i, hx, rfl⟩ := hcp
    exact (hc i hx).1
  · simp only [utf8s, plainCodes, List.map_map, List.mem_flatten, List.mem_map, not_exists, not_and]
    rintro l ⟨i, hx, rfl⟩
    exact utf8_nul_free _ (hc i hx).1 (hc i hx).2

/-- **C07, the part that holds**: every string and name in an accepted document is free of NUL and is UTF-8
up to encoded surrogates; it is well-formed UTF-8 if no string token denotes a surrogate.
Missing: rejection of surrogates. -/
theorem C07_strings_partial (N : NumOps D) (hN : NegLaw N) (buf : Bytes) (v : Value D) (s : Bytes)
    (h : Accepts N buf v) (hs : Occurs v s) :
    (0 : Byte) ∉ s ∧ Generalized s ∧
    ((∃ j, JsonText DialNum ScalarStr (cstr buf) j) → WellFormed s) := by
  obtain ⟨h3, hl, j, hj, rfl⟩ := (accepts_iff N hN buf v).1 h
  have hmem := occurs_strs hs
  obtain ⟨w1, t, w2, -, hv, -, -⟩ := hj
  obtain ⟨tok, htok⟩ := val_strs hv s hmem
  refine ⟨(dialStr_content htok).2, (dialStr_content htok).1, ?_⟩
  rintro ⟨j', w1', t', w2', h1', hv', h2', e'⟩
  have hd : DialText (cstr buf) j' := ⟨w1', t', w2', h1', val_mono (fun _ _ h => h)
    (fun _ _ ⟨is, hi, e1, e2⟩ => ⟨is, fun i hx => (hi i hx).1, e1, e2⟩) hv', h2', e'⟩
  have := accepts_det h ((accepts_iff N hN buf _).2 ⟨h3, hl, j', hd, rfl⟩)
  rw [this] at hs
  obtain ⟨tok', items, hi, -, rfl⟩ := val_strs hv' s (occurs_strs hs)
  refine ⟨plainCodes items, ?_, rfl⟩
  intro cp hcp
  simp only [plainCodes, List.mem_map] at hcp
  obtain ⟨i, hx, rfl⟩ := hcp
  exact (hi i hx).2

/-- `{"k":"v"}` contains the strings k and v. -/
example : ∃ v, Accepts decOps [0x7B, 0x22, 0x6B, 0x22, 0x3A, 0x22, 0x76, 0x22, 0x7D, 0] v ∧
    Occurs v [0x6B] ∧ Occurs v [0x76] :=
  ⟨_, fun _ => rfl, ⟨[], .inr ⟨_, _, _, rfl, rfl⟩⟩, ⟨[.member [0x6B]], .inl rfl⟩⟩

/-! ## C08 -/

/-- **C08.** On every terminated text the measuring pass and the writing pass of a string token return the same
status, consume the same text, and the measured length is the number of bytes written. -/
theorem C08_passes_agree (t : Bytes) (ht : (0 : Byte) ∈ t) :
    ∃ status textLength stringLength out,
      measureString (t.length + 1) t 0 0 = .ok (status, textLength, stringLength) ∧
      writeString (t.length + 1) t 0 [] = .ok (status, textLength, out) ∧
      out.length = stringLength := by
  obtain ⟨is, r, st, -, -, -, -, hm, hw⟩ := passes_total (t.length + 1) t ht (by omega)
  exact ⟨st, _, _, _, hm 0 0, by simpa using hw 0 [], by simp⟩

/-- `a€"`: seven bytes of text, four bytes of string. -/
example : measureString 10 [0x61, 0x5C, 0x75, 0x32, 0x30, 0x41, 0x43, 0x22, 0] 0 0 = .ok (.kOk, 7, 4) ∧
    writeString 10 [0x61, 0x5C, 0x75, 0x32, 0x30, 0x41, 0x43, 0x22, 0] 0 [] =
      .ok (.kOk, 7, [0x61, 0xE2, 0x82, 0xAC]) := ⟨rfl, rfl⟩

/-! ## C09 -/

/-- The full statement of C09: whitespace put in (or taken out of) a place where JSON allows it changes neither
acceptance nor the value. -/
def C09_statement (N : NumOps D) : Prop :=
  ∀ a b w v, Gap a b → Ws w → (Accepts N (a ++ (w ++ b) ++ [0]) v ↔ Accepts N (a ++ b ++ [0]) v)

/-- **C09 is violated**: the text `1` is rejected (its buffer has two bytes), the text `1` with a space after it
is accepted. -/
theorem C09_violated (N : NumOps D) : ¬ C09_statement N := by
  intro H
  have h : Accepts N ([0x31] ++ ([0x20] ++ []) ++ [0]) (.num (N.conv false 1 0)) := fun _ => rfl
  have h' := (H [0x31] [] [0x20] _ ⟨rfl, .inr (.inl rfl)⟩ (by simp [Ws])).1 h none
  simp [parseBuffer] at h'

/-- **C09, the part that holds**: buffers of at least three bytes with the same tokens are both accepted with the
same value or both not accepted; and whitespace in a gap never changes the tokens.
Missing: texts of one byte. -/
theorem C09_spacing_partial (N : NumOps D) (hN : NegLaw N) :
    (∀ t t' v, tokens t = tokens t' → (0 : Byte) ∉ t → (0 : Byte) ∉ t' → 2 ≤ t.length → 2 ≤ t'.length →
      (Accepts N (t ++ [0]) v ↔ Accepts N (t' ++ [0]) v)) ∧
    (∀ a b w v, Gap a b → Ws w → (0 : Byte) ∉ a ++ b → 2 ≤ (a ++ b).length →
      (Accepts N (a ++ (w ++ b) ++ [0]) v ↔ Accepts N (a ++ b ++ [0]) v)) := by
  have key : ∀ t t' v, tokens t = tokens t' → (0 : Byte) ∉ t → (0 : Byte) ∉ t' → 2 ≤ t.length →
      2 ≤ t'.length → (Accepts N (t ++ [0]) v ↔ Accepts N (t' ++ [0]) v) := by
    intro t t' v e h0 h0' h2 h2'
    rw [accepts_iff N hN, accepts_iff N hN, cstr_append h0, cstr_append h0']
    simp only [List.getLast?_concat, List.length_append, List.length_cons, List.length_nil, dialText_tokens, e]
    constructor
    · rintro ⟨_, _, h⟩; exact ⟨by omega, trivial, h⟩
    · rintro ⟨_, _, h⟩; exact ⟨by omega, trivial, h⟩
  refine ⟨key, ?_⟩
  intro a b w v hg hw h0 h2
  refine key _ _ v (tokens_gap hg hw) ?_ h0 ?_ h2
  · have := hw.nul_free
    simp only [List.mem_append, not_or] at h0 ⊢
    exact ⟨h0.1, this, h0.2⟩
  · simp only [List.length_append] at h2 ⊢; omega

/-- The gap before the comma of `[1,2]`. -/
example : Gap [0x5B, 0x31] [0x2C, 0x32, 0x5D] ∧
    Accepts decOps ([0x5B, 0x31] ++ ([0x20, 0x0A] ++ [0x2C, 0x32, 0x5D]) ++ [0])
      (.arr [.num ⟨false, 1, 0⟩, .num ⟨false, 2, 0⟩]) :=
  ⟨⟨rfl, .inr (.inr (.inr ⟨0x2C, _, rfl, by decide⟩))⟩, fun _ => rfl⟩

/-! ## C10 -/

theorem ws_split {w1 w2 : Bytes} {a b : Byte} {s t : Bytes} (h1 : Ws w1) (h2 : Ws w2)
    (ha : isWs a = false) (hb : isWs b = false) (e : w1 ++ a :: s = w2 ++ b :: t) :
    w1 = w2 ∧ a :: s = b :: t := by
  have h := congrArg skipWs e
  rw [skipWs_append h1, skipWs_append h2, skipWs_stop ha, skipWs_stop hb] at h
  have h' := Out.ok.inj h
  refine ⟨?_, h'⟩
  rw [h'] at e
  exact List.append_cancel_right e

theorem bracket_last {t : Bytes} {j : J} (h : DVal t j) (hj : ∀ d, j ≠ .num d)
    (hs : ∃ r, t = 0x5B :: r ∨ t = 0x7B :: r) : ∃ a c, t = a ++ [c] ∧ isWs c = false := by
  cases h with
  | null => obtain ⟨r, h | h⟩ := hs <;> simp at h
  | true => obtain ⟨r, h | h⟩ := hs <;> simp at h
  | false => obtain ⟨r, h | h⟩ := hs <;> simp at h
  | num h => exact absurd rfl (hj _)
  | str h => obtain ⟨r, e⟩ := h.head; rw [e] at hs; obtain ⟨r, h | h⟩ := hs <;> simp at h
  | arrEmpty => exact ⟨_, 0x5D, by rw [← List.cons_append], by decide⟩
  | arr => exact ⟨_, 0x5D, by rw [← List.cons_append], by decide⟩
  | objEmpty => exact ⟨_, 0x7D, by rw [← List.cons_append], by decide⟩
  | obj => exact ⟨_, 0x7D, by rw [← List.cons_append], by decide⟩

theorem head_not_num {t : Bytes} {j : J} (h : DVal t j) (hs : ∃ r, t = 0x5B :: r ∨ t = 0x7B :: r) :
    ∀ d, j ≠ .num d := by
  rintro d rfl
  cases h with
  | num h =>
    obtain ⟨c, s, e, hc⟩ := dialNum_head h
    obtain ⟨r, h | h⟩ := hs <;>
    · rw [e] at h
      simp only [List.cons.injEq] at h
      rw [h.1] at hc
      simp [NumChar, Digit] at hc

/-- The two ways an array or object document begins. -/
theorem root_head {t : Bytes} {j : J} (h : DVal t j) (hj : (∃ l, j = .arr l) ∨ ∃ m, j = .obj m) :
    ∃ r, t = 0x5B :: r ∨ t = 0x7B :: r := by
  cases h with
  | null => rcases hj with ⟨_, h⟩ | ⟨_, h⟩ <;> simp at h
  | true => rcases hj with ⟨_, h⟩ | ⟨_, h⟩ <;> simp at h
  | false => rcases hj with ⟨_, h⟩ | ⟨_, h⟩ <;> simp at h
  | num => rcases hj with ⟨_, h⟩ | ⟨_, h⟩ <;> simp at h
  | str => rcases hj with ⟨_, h⟩ | ⟨_, h⟩ <;> simp at h
  | arrEmpty => exact ⟨_, .inl rfl⟩
  | arr => exact ⟨_, .inl rfl⟩
  | objEmpty => exact ⟨_, .inr rfl⟩
  | obj => exact ⟨_, .inr rfl⟩

/-- The value is an array or an object. -/
def IsContainer (v : Value D) : Prop := (∃ l, v = .arr l) ∨ ∃ m o, v = .obj m o

/-- **C10.** If the text `a ++ c :: w` is accepted as an array or object, where `w` is trailing whitespace and
`c` is not whitespace (so `c` is its closing bracket), then no prefix `p` of `a` is accepted. -/
theorem C10_truncation_rejected (N : NumOps D) (hN : NegLaw N) (a w p q : Bytes) (c : Byte) (v : Value D)
    (hw : Ws w) (hc : ¬ Ws [c]) (h0 : (0 : Byte) ∉ a ++ c :: w)
    (h : Accepts N (a ++ c :: w ++ [0]) v) (hv : IsContainer v) (hp : a = p ++ q) :
    Rejects N (p ++ [0]) := by
  have hcw : isWs c = false := by
    cases hx : isWs c with
    | false => rfl
    | true => exact absurd (by rw [isWs_iff] at hx; simpa [Ws] using hx) hc
  obtain ⟨-, -, j, hj, ev⟩ := (accepts_iff N hN _ v).1 h
  rw [cstr_append h0] at hj
  have hj' : (∃ l, j = .arr l) ∨ ∃ m, j = .obj m := by
    rw [ev] at hv
    cases j <;> simp [interp, IsContainer] at hv ⊢
  have hp0 : (0 : Byte) ∉ p := by intro hx; exact h0 (by rw [hp]; simp [hx])
  intro root
  rcases parseBuffer_cases N hN (p ++ [0]) with h' | h' | ⟨-, -, j', hd', -⟩ | ⟨-, -, -, res, hf, h'⟩
  · exact ⟨_, _, (h' root).2, by simp⟩
  · exact ⟨_, _, (h' root).2.2, by simp⟩
  · exfalso
    rw [cstr_append hp0] at hd'
    obtain ⟨w1, tok, w2, hw1, htok, hw2, e⟩ := hj
    obtain ⟨w1', tok', w2', hw1', htok', hw2', e'⟩ := hd'
    obtain ⟨r, hr⟩ := root_head htok hj'
    obtain ⟨x, s, ex, hx, -⟩ := val_head htok
    obtain ⟨x', s', ex', hx', -⟩ := val_head htok'
    -- both tokens begin at the same place
    have e1 : w1' ++ x' :: (s' ++ (w2' ++ (q ++ c :: w))) = w1 ++ x :: (s ++ w2) := by
      have : p ++ (q ++ c :: w) = w1 ++ (tok ++ w2) := by rw [← e, hp]; simp
      rw [e', ex', ex] at this
      simpa using this
    obtain ⟨ew, e2⟩ := ws_split hw1' hw1 hx' hx e1
    have etok : tok' ++ (w2' ++ (q ++ c :: w)) = tok ++ w2 := by
      rw [ex', ex]; simpa using e2
    have hhead : ∃ r, tok' = 0x5B :: r ∨ tok' = 0x7B :: r := by
      simp only [List.cons.injEq] at e2
      rw [ex', e2.1]
      rcases hr with hr | hr <;> (rw [ex] at hr; simp only [List.cons.injEq] at hr; rw [hr.1])
      · exact ⟨s', .inl rfl⟩
      · exact ⟨s', .inr rfl⟩
    have hn' := head_not_num htok' hhead
    have hn : ∀ d, j ≠ .num d := head_not_num htok ⟨r, hr⟩
    -- parse the text after both tokens
    have ht : Term (w2 ++ [0]) := by simp [Term]
    obtain ⟨b, u, hb⟩ : ∃ b u, w2 ++ [0] = b :: u := ht.ne_nil
    have ht' : Term (w2' ++ (q ++ c :: w) ++ [0]) := by simp [Term]
    obtain ⟨b', u', hb'⟩ := ht'.ne_nil
    have hs2 : skipWs (b :: u) = .ok [0] := by
      rw [← hb, skipWs_append hw2, skipWs_stop (by decide)]
    obtain ⟨z, y, y', -, hy, hy', hs2'⟩ := skipWs_total ht'
    rw [hb'] at hs2' hy
    obtain ⟨rest, hP, hrest⟩ := any_complete N hN htok (3 * (tok.length + tok'.length) + 1) b u _
      (by omega) (.inr hn) (by rw [← hb]; exact ht) hs2
    obtain ⟨rest', hP', hrest'⟩ := any_complete N hN htok' (3 * (tok.length + tok'.length) + 1) b' u' _
      (by omega) (.inr hn') (by rw [← hb']; exact ht') hs2'
    have : tok' ++ b' :: u' = tok ++ b :: u := by
      rw [← hb, ← hb', ← List.append_assoc, etok]; simp
    rw [this, hP] at hP'
    simp only [Out.ok.injEq, PRes.ok.injEq] at hP'
    rw [hP'.1, hrest'] at hrest
    rw [hrest] at hs2'
    -- so nothing but whitespace follows the shorter token
    obtain ⟨w3, d, t3, hw3, e3, e4, hd⟩ := skipWs_ok hs2'
    rw [← hb'] at e3
    have e5 : w2' ++ (q ++ c :: w) = w3 := by
      exact List.append_cancel_right e3
    have : c ∈ w3 := by rw [← e5]; simp
    have := hw3 c this
    exact hc (by simpa [Ws] using this)
  · exact ⟨_, _, h' root, hf.status⟩

/-- `[1, [2]]` with its prefix `[1, [2]`. -/
example : Accepts decOps ([0x5B, 0x31, 0x2C, 0x20, 0x5B, 0x32, 0x5D] ++ 0x5D :: [] ++ [0])
      (.arr [.num ⟨false, 1, 0⟩, .arr [.num ⟨false, 2, 0⟩]]) ∧
    Rejects decOps ([0x5B, 0x31, 0x2C, 0x20, 0x5B, 0x32, 0x5D] ++ [0]) :=
  ⟨fun _ => rfl, fun _ => ⟨_, _, rfl, by decide⟩⟩

/-! ## C11 -/

/-- The full statement of C11. -/
def C11_statement (N : NumOps D) : Prop :=
  ∀ a b v, (0 : Byte) ∉ a → Accepts N (a ++ 0 :: b) v → ∀ x ∈ b, x = 0

/-- **C11 is violated**: `[]`, NUL, `x`, NUL is accepted. -/
theorem C11_violated (N : NumOps D) : ¬ C11_statement N := by
  intro H
  have := H [0x5B, 0x5D] [0x78, 0] (.arr []) (by decide) (fun _ => rfl) 0x78 (by decide)
  simp at this

/-- **C11, what holds instead**: the outcome depends only on the bytes before the first NUL (and on the buffer
being long enough and terminated). -/
theorem C11_prefix_decides_partial (N : NumOps D) (hN : NegLaw N) (a b b' : Bytes) (v : Value D)
    (h0 : (0 : Byte) ∉ a) (hb : (a ++ 0 :: b).getLast? = some 0) (hb' : (a ++ 0 :: b').getLast? = some 0)
    (h3 : 2 ≤ a.length) : Accepts N (a ++ 0 :: b) v ↔ Accepts N (a ++ 0 :: b') v := by
  rw [accepts_iff N hN, accepts_iff N hN, cstr_append h0, cstr_append h0]
  simp only [hb, hb', List.length_append, List.length_cons]
  constructor
  · rintro ⟨_, _, h⟩; exact ⟨by omega, trivial, h⟩
  · rintro ⟨_, _, h⟩; exact ⟨by omega, trivial, h⟩

example : Accepts decOps ([0x5B, 0x5D] ++ 0 :: [0x78, 0]) (.arr []) ∧
    Accepts decOps ([0x5B, 0x5D] ++ 0 :: []) (.arr []) := ⟨fun _ => rfl, fun _ => rfl⟩

/-! ## C12, C15, C16 -/

/-- An object somewhere in an accepted document, with the members the text lists. -/
def ObjectAt (N : NumOps D) (buf : Bytes) (v : Value D) (m : JM) (t : Tree Bytes (Value D))
    (order : List Bytes) : Prop :=
  Accepts N buf v ∧ ∃ j path, DialText (cstr buf) j ∧ j.walk path = some (.obj m) ∧
    walk v path = some (.obj t order)

theorem objectAt_eq {N : NumOps D} (hN : NegLaw N) {buf : Bytes} {v : Value D} {m : JM}
    {t : Tree Bytes (Value D)} {order : List Bytes} (h : ObjectAt N buf v m t order) :
    t = interpM N m .nil ∧ order = m.names := by
  obtain ⟨ha, j, path, hj, hw, hv⟩ := h
  obtain ⟨h3, hl, -⟩ := (accepts_iff N hN buf v).1 ha
  have := accepts_det ha ((accepts_iff N hN buf _).2 ⟨h3, hl, j, hj, rfl⟩)
  rw [this, walk_interp, hw] at hv
  simpa [interp, eq_comm] using hv

/-- Every object of the text has its object in the tree. -/
theorem objectAt_exists (N : NumOps D) (hN : NegLaw N) (buf : Bytes) (v : Value D) (h : Accepts N buf v)
    (j : J) (hj : DialText (cstr buf) j) (path : List Step) (m : JM) (hm : j.walk path = some (.obj m)) :
    ∃ t order, ObjectAt N buf v m t order := by
  obtain ⟨h3, hl, -⟩ := (accepts_iff N hN buf v).1 h
  have := accepts_det h ((accepts_iff N hN buf _).2 ⟨h3, hl, j, hj, rfl⟩)
  refine ⟨interpM N m .nil, m.names, h, j, path, hj, hm, ?_⟩
  rw [this, walk_interp, hm]; rfl

/-- **C12.** Looking up a name gives the value of the first member of that name in the text, whatever is
repeated. -/
theorem C12_first_wins (N : NumOps D) (hN : NegLaw N) (buf : Bytes) (v : Value D) (m : JM)
    (t : Tree Bytes (Value D)) (order : List Bytes) (h : ObjectAt N buf v m t order) (k : Bytes) :
    (m.first k = none ∧ findMapElement nameLt k t = none) ∨
    ∃ j x, m.first k = some j ∧ findMapElement nameLt k t = some (k, x) ∧ Denotes N j x := by
  obtain ⟨rfl, rfl⟩ := objectAt_eq hN h
  rw [find_interpM]
  cases m.first k with
  | none => exact .inl ⟨rfl, rfl⟩
  | some j => exact .inr ⟨j, interp N j, rfl, rfl, interp_denotes N j⟩

/-- `{"a":1,"b":2,"a":3}`. -/
def dupText : Bytes :=
  [0x7B, 0x22, 0x61, 0x22, 0x3A, 0x31, 0x2C, 0x22, 0x62, 0x22, 0x3A, 0x32, 0x2C, 0x22, 0x61, 0x22, 0x3A,
   0x33, 0x7D, 0]

example : ∃ v, Accepts decOps dupText v ∧ walk v [.member [0x61]] = some (.num ⟨false, 1, 0⟩) ∧
    walk v [.member [0x62]] = some (.num ⟨false, 2, 0⟩) := ⟨_, fun _ => rfl, rfl, rfl⟩

/-- What the members of the text say about a name. -/
def member (m : JM) (k : Bytes) : Option J := m.first k

/-- **C15.** Each typed lookup returns data exactly when the (first) member of that name has that kind, and then
its data. -/
theorem C15_typed_lookup (N : NumOps D) (hN : NegLaw N) (buf : Bytes) (v : Value D) (m : JM)
    (t : Tree Bytes (Value D)) (order : List Bytes) (h : ObjectAt N buf v m t order) (k : Bytes) :
    (∀ s, findString t k = some s ↔ m.first k = some (.str s)) ∧
    (∀ x, findNumber t k = some x ↔
      ∃ d : Dec, m.first k = some (.num d) ∧ x = N.conv d.neg d.mantissa d.exponent) ∧
    (∀ b, findBool t k = some b ↔ m.first k = some (.bool b)) ∧
    (findJsonNull t k = some () ↔ m.first k = some .null) ∧
    (∀ l, findJsonValueArray t k = some l → ∃ l', m.first k = some (.arr l') ∧
      Denotes N (.arr l') (.arr l)) ∧
    ((∃ l', m.first k = some (.arr l')) → (findJsonValueArray t k).isSome) ∧
    (∀ t' o, findJsonObjectValue t k = some (t', o) → ∃ m', m.first k = some (.obj m') ∧
      Denotes N (.obj m') (.obj t' o)) ∧
    ((∃ m', m.first k = some (.obj m')) → (findJsonObjectValue t k).isSome) := by
  obtain ⟨rfl, rfl⟩ := objectAt_eq hN h
  unfold findString findNumber findBool findJsonNull findJsonValueArray findJsonObjectValue
  rw [find_interpM]
  cases hm : m.first k with
  | none => simp
  | some j =>
    cases j with
    | null => simp [interp]
    | bool b => simp [interp]
    | num d => simp [interp, numVal, eq_comm]
    | str s => simp [interp]
    | arr l => simp [interp]; exact interp_denotes N (.arr l)
    | obj m' => simp [interp]; exact interp_denotes N (.obj m')

/-- In `{"a":1,"b":2,"a":3}` the name a is a number and not a string. -/
example : ∃ t o, Accepts decOps dupText (.obj t o) ∧ findNumber t [0x61] = some ⟨false, 1, 0⟩ ∧
    findString t [0x61] = none := ⟨_, _, fun _ => rfl, rfl, rfl⟩

/-- **C16.** Iterating the members of an object visits each distinct name of the text exactly once, in strictly
increasing byte order, with the value of its first occurrence. -/
theorem C16_object_iteration (N : NumOps D) (hN : NegLaw N) (buf : Bytes) (v : Value D) (m : JM)
    (t : Tree Bytes (Value D)) (order : List Bytes) (h : ObjectAt N buf v m t order) :
    ∃ l, forward t = .ok l ∧ l.Pairwise (fun x y => LexLt x.1 y.1) ∧
      (∀ k, k ∈ l.map Prod.fst ↔ k ∈ m.names) ∧
      ∀ k x, (k, x) ∈ l → ∃ j, m.first k = some j ∧ Denotes N j x := by
  obtain ⟨rfl, rfl⟩ := objectAt_eq hN h
  have inv := mapInv_obj N m
  refine ⟨toList (interpM N m .nil), forward_eq _, ?_, ?_, ?_⟩
  · exact inv.sorted.imp fun h => (nameLt_iff_lex _ _).1 h
  · intro k
    rw [← first_isSome, Option.isSome_iff_exists]
    simp only [List.mem_map, Prod.exists, exists_and_right, exists_eq_right]
    constructor
    · rintro ⟨x, hx⟩
      have := (inv.mem k x).1 hx
      cases hf : m.first k with
      | none => simp [hf] at this
      | some j => exact ⟨j, rfl⟩
    · rintro ⟨j, hj⟩
      exact ⟨interp N j, (inv.mem k _).2 (by simp [hj])⟩
  · intro k x hx
    have := (inv.mem k x).1 hx
    cases hf : m.first k with
    | none => simp [hf] at this
    | some j =>
      rw [hf] at this
      simp only [Option.map_some, Option.some.injEq] at this
      exact ⟨j, rfl, this ▸ interp_denotes N j⟩

/-- `{"b":1,"a":2}` is iterated as a, b. -/
example : ∃ t o l, Accepts decOps
    [0x7B, 0x22, 0x62, 0x22, 0x3A, 0x31, 0x2C, 0x22, 0x61, 0x22, 0x3A, 0x32, 0x7D, 0] (.obj t o) ∧
    forward t = .ok l ∧ l.map Prod.fst = [[0x61], [0x62]] := ⟨_, _, _, fun _ => rfl, rfl, rfl⟩

/-! ## C13, C54 -/

/-- The full statement of C13 (in its weakest reading): a rejected terminated buffer has a position with the
reported line and column. -/
def C13_statement (N : NumOps D) : Prop :=
  ∀ buf root res root', 3 ≤ buf.length → buf.getLast? = some 0 →
    parseBuffer N root buf = .ok (res, root') → res.status ≠ .kOk →
    ∃ p rest, buf = p ++ rest ∧ res.errorLine = lineOf p ∧ res.errorColumn = colOf p

/-- **C13 is violated**: for a newline followed by `[x]` line 1, column 2 is reported; there is no such position
in the buffer. -/
theorem C13_violated (N : NumOps D) : ¬ C13_statement N := by
  intro H
  obtain ⟨p, rest, e, h1, h2⟩ := H [0x0A, 0x5B, 0x78, 0x5D, 0] none ⟨.kExpectedJsonValue, 1, 2⟩ none
    (by decide) rfl rfl (by decide)
  cases p with
  | nil => simp [colOf] at h2
  | cons a p =>
    simp only [List.cons_append, List.cons.injEq] at e
    rw [← e.1] at h1
    simp [lineOf] at h1

/-- **C13, the part that holds**: line and column are counted correctly from the first byte that is not
whitespace (`w` is the leading whitespace); so they are right when the buffer begins with the document.
Missing: newlines and columns of the leading whitespace. -/
theorem C13_position_partial (N : NumOps D) (hN : NegLaw N) (buf : Bytes) (root : Option (Value D))
    (res : ParseResult) (root' : Option (Value D)) (h3 : 3 ≤ buf.length) (hl : buf.getLast? = some 0)
    (h : parseBuffer N root buf = .ok (res, root')) (hs : res.status ≠ .kOk) :
    ∃ w p c rest, buf = w ++ (p ++ c :: rest) ∧ Ws w ∧ (∀ x r, p ++ c :: rest = x :: r → ¬ Ws [x]) ∧
      ¬ Ws [c] ∧ (0 : Byte) ∉ p ∧ res.errorLine = lineOf p ∧ res.errorColumn = colOf p := by
  have hnw : ∀ {x : Byte}, isWs x = false → ¬ Ws [x] := by
    intro x hx hw
    have : isWs x = true := (isWs_iff x).2 (by simpa [Ws] using hw)
    rw [hx] at this; simp at this
  rcases parseBuffer_cases N hN buf with h' | h' | ⟨-, -, j, -, h'⟩ | ⟨-, -, -, r, hf, h'⟩
  · have := (h' none).1; omega
  · exact absurd hl (h' none).2.1
  · rw [h' root] at h
    simp only [Out.ok.injEq, Prod.mk.injEq] at h
    rw [← h.1] at hs; simp at hs
  · rw [h' root] at h
    simp only [Out.ok.injEq, Prod.mk.injEq] at h
    obtain ⟨w, q, w', c, s, hw, hw', e, h0, hc, ⟨a, ea, x, r', ex, hx⟩, h1, h2, -⟩ := hf.position
    refine ⟨w, q ++ w', c, s, by rw [e]; simp, hw, ?_, hnw hc, ?_, ?_, ?_⟩
    · intro x' r'' e'
      rw [← ea] at ex
      have : x :: r' = x' :: r'' := by rw [← ex, ← e']; simp
      simp only [List.cons.injEq] at this
      rw [← this.1]; exact hnw hx
    · have := hw'.nul_free; simp [h0, this]
    · rw [← h.1]; exact h1
    · rw [← h.1]; exact h2

/-- `[1,` newline, newline, ` x]`: line 3, column 2. -/
example : ∃ r, parseBuffer decOps r [0x5B, 0x31, 0x2C, 0x0A, 0x0A, 0x20, 0x78, 0x5D, 0] =
    .ok (⟨.kExpectedJsonValue, 3, 2⟩, none) := ⟨none, rfl⟩

/-- The full statement of C54: what precedes the reported position can be completed to an accepted document. -/
def C54_statement (N : NumOps D) : Prop :=
  ∀ buf root res root', 3 ≤ buf.length → buf.getLast? = some 0 →
    parseBuffer N root buf = .ok (res, root') → res.status ≠ .kOk →
    ∃ w p rest, buf = w ++ (p ++ rest) ∧ Ws w ∧ (∀ x r, p ++ rest = x :: r → ¬ Ws [x]) ∧
      res.errorLine = lineOf p ∧ res.errorColumn = colOf p ∧
      ∃ ext v, Accepts N (w ++ (p ++ ext) ++ [0]) v

theorem newline_in_string (N : NumOps D) (hN : NegLaw N) (ext : Bytes) (v : Value D) :
    ¬ Accepts N ([0x22, 0x0A] ++ ext ++ [0]) v := by
  intro h
  have h3 : 3 ≤ ([0x22, 0x0A] ++ ext ++ [0] : Bytes).length := by simp
  have hl : ([0x22, 0x0A] ++ ext ++ [0] : Bytes).getLast? = some 0 := List.getLast?_concat
  have := h none
  rw [parseBuffer_root N none h3 hl, parseRoot_unfold N _ _ h3 hl] at this
  obtain ⟨n, hn⟩ : ∃ n, parseFuel ([0x22, 0x0A] ++ ext ++ [0] : Bytes) = n + 1 := ⟨_, rfl⟩
  have hs : parseString ([0x22, 0x0A] ++ ext ++ [0]) =
      .ok (.err .kStringIllegalChar ([0x0A] ++ ext ++ [0])) := by rfl
  have hp : parseAny N (n + 1) ([0x22, 0x0A] ++ ext ++ [0]) =
      .ok (.err .kStringIllegalChar ([0x0A] ++ ext ++ [0])) := by
    rw [parseAny_succ, hs]; rfl
  have hw : skipWs ([0x22, 0x0A] ++ ext ++ [0] : Bytes) = .ok ([0x22, 0x0A] ++ ext ++ [0]) := by rfl
  rw [hw] at this
  simp only [Out.ok_bind, hn, hp] at this
  rw [Out.bind_eq_ok] at this
  obtain ⟨r, hr, hr'⟩ := this
  rw [Out.bind_eq_ok] at hr
  obtain ⟨t, -, hr⟩ := hr
  rw [Out.bind_eq_ok] at hr
  obtain ⟨c, -, hr⟩ := hr
  rw [if_neg (c := Status.kStringIllegalChar = Status.kOk ∧ c ≠ 0) (by simp), if_pos (by decide)] at hr
  simp only [Out.ok.injEq] at hr
  rw [← hr] at hr'
  simp at hr'

/-- **C54 is violated**: for `"`, newline, `"` the reported position is line 2, column 1, past the illegal
newline. -/
theorem C54_violated (N : NumOps D) (hN : NegLaw N) : ¬ C54_statement N := by
  intro H
  obtain ⟨w, p, rest, e, hw, -, h1, h2, ext, v, ha⟩ := H [0x22, 0x0A, 0x22, 0] none
    ⟨.kStringIllegalChar, 2, 1⟩ none (by decide) rfl rfl (by decide)
  have hwn : w = [] := by
    cases w with
    | nil => rfl
    | cons a w =>
      simp only [List.cons_append, List.cons.injEq] at e
      have := hw a (by simp)
      rw [← e.1] at this
      simp at this
  subst hwn
  have hp : ∃ p', p = 0x22 :: 0x0A :: p' := by
    match p, e, h1 with
    | [], e, h1 => simp [lineOf] at h1
    | [a], e, h1 =>
      simp only [List.nil_append, List.cons_append, List.cons.injEq] at e
      rw [← e.1] at h1; simp [lineOf] at h1
    | a :: b :: p', e, h1 =>
      simp only [List.nil_append, List.cons_append, List.cons.injEq] at e
      exact ⟨p', by rw [← e.1, ← e.2.1]⟩
  obtain ⟨p', rfl⟩ := hp
  exact newline_in_string N hN (p' ++ ext) v (by simpa using ha)

/-- **C54, the part that holds**: what precedes the reported position, without the whitespace directly before
it, can be completed to an accepted document: the error is not before that point. Missing: whitespace
skipped at the beginning of a faulty string. -/
theorem C54_viable_partial (N : NumOps D) (hN : NegLaw N) (buf : Bytes) (root : Option (Value D))
    (res : ParseResult) (root' : Option (Value D)) (h3 : 3 ≤ buf.length) (hl : buf.getLast? = some 0)
    (h : parseBuffer N root buf = .ok (res, root')) (hs : res.status ≠ .kOk) :
    ∃ w p w' rest, buf = w ++ (p ++ (w' ++ rest)) ∧ Ws w ∧ Ws w' ∧
      (∀ x r, p ++ (w' ++ rest) = x :: r → ¬ Ws [x]) ∧
      res.errorLine = lineOf (p ++ w') ∧ res.errorColumn = colOf (p ++ w') ∧
      ∃ ext v, Accepts N (w ++ (p ++ ext) ++ [0]) v := by
  rcases parseBuffer_cases N hN buf with h' | h' | ⟨-, -, j, -, h'⟩ | ⟨-, -, -, r, hf, h'⟩
  · have := (h' none).1; omega
  · exact absurd hl (h' none).2.1
  · rw [h' root] at h
    simp only [Out.ok.injEq, Prod.mk.injEq] at h
    rw [← h.1] at hs; simp at hs
  · rw [h' root] at h
    simp only [Out.ok.injEq, Prod.mk.injEq] at h
    obtain ⟨w, q, w', c, s, hw, hw', e, h0, hc, ⟨a, ea, x, r', ex, hx⟩, h1, h2, ext, j, w1, v, w2, hw1, hv,
      hw2, ev⟩ := hf.position
    refine ⟨w, q, w', c :: s, e, hw, hw', ?_, ?_, ?_, ext ++ [0x20], interp N j, ?_⟩
    · intro x' r'' e'
      rw [← ea, e'] at ex
      simp only [List.cons.injEq] at ex
      rw [ex.1]
      intro hw
      have : isWs x = true := (isWs_iff x).2 (by simpa [Ws] using hw)
      rw [hx] at this; simp at this
    · rw [← h.1]; exact h1
    · rw [← h.1]; exact h2
    · refine accepts_of_dial N hN ⟨w1, v, w2 ++ [0x20], hw1, hv, hw2.append (by simp [Ws]), ?_⟩ ?_
      · have : w ++ (q ++ (ext ++ [0x20])) = w ++ (q ++ ext) ++ [0x20] := by simp
        rw [this, ev]; simp
      · obtain ⟨y, s', ey, -⟩ := val_head hv
        have : w ++ (q ++ (ext ++ [0x20])) = w ++ (q ++ ext) ++ [0x20] := by simp
        rw [this, ev, ey]; simp; omega

/-! ## C14 -/

/-- The document held after a history of `Parse` calls on an object that is initially empty, with the result of the
last call. -/
def parseHistory (N : NumOps D) : List Bytes → Out (Option ParseResult × Option (Value D))
  | bufs => bufs.foldl (fun st buf => st >>= fun (_, root) =>
      parseBuffer N root buf >>= fun (res, root') => .ok (some res, root')) (.ok (none, none))

/-- The full statement of C14. -/
def C14_statement (N : NumOps D) : Prop :=
  ∀ bufs res root, parseHistory N bufs = .ok (some res, root) → res.status ≠ .kOk → root = none

/-- **C14 is violated**: after parsing `[]` and then an empty text, the old document is still there; and after
parsing `1 2` the value 1 is there. -/
theorem C14_violated (N : NumOps D) : ¬ C14_statement N := by
  intro H
  have := H [[0x5B, 0x5D, 0], [0]] ⟨.kTextBufferContentsInvalid, 0, 0⟩ (some (.arr [])) rfl (by decide)
  simp at this

theorem C14_violated_trailing (N : NumOps D) :
    parseHistory N [[0x31, 0x20, 0x32, 0]] =
      .ok (some ⟨.kExpectedEndOfFile, 1, 3⟩, some (.num (N.conv false 1 0))) := rfl

/-- **C14, the part that holds**: after a failure other than a short buffer, a missing terminator, or text after
the document, no document is left; after success the document of the last call is installed.
Missing: the three excluded statuses. -/
theorem C14_no_stale_document_partial (N : NumOps D) (hN : NegLaw N) (bufs : List Bytes) (buf : Bytes) :
    ∃ res root, parseHistory N (bufs ++ [buf]) = .ok (some res, root) ∧
      (res.status = .kOk → ∃ v, root = some v ∧ Accepts N buf v) ∧
      (res.status ≠ .kOk → res.status ≠ .kTextBufferContentsInvalid →
        res.status ≠ .kUnterminatedTextBuffer → res.status ≠ .kExpectedEndOfFile → root = none) := by
  have hist : ∀ bufs, ∃ res root, parseHistory N bufs = .ok (res, root) := by
    intro bufs
    have gen : ∀ (bufs : List Bytes) (x : Option ParseResult × Option (Value D)), ∃ y,
        bufs.foldl (fun st buf => st >>= fun (_, root) =>
          parseBuffer N root buf >>= fun (res, root') => .ok (some res, root')) (.ok x) = .ok y := by
      intro bufs
      induction bufs with
      | nil => intro x; exact ⟨x, rfl⟩
      | cons b bufs ih =>
        intro x
        obtain ⟨res, root', h⟩ := C02_parse_returns N hN x.2 b
        simp only [List.foldl_cons, Out.ok_bind, h]
        exact ih _
    obtain ⟨⟨res, root⟩, h⟩ := gen bufs (none, none)
    exact ⟨res, root, h⟩
  obtain ⟨r0, root0, h0⟩ := hist bufs
  have hstep : parseHistory N (bufs ++ [buf]) =
      parseBuffer N root0 buf >>= fun (res, root') => .ok (some res, root') := by
    unfold parseHistory at *
    rw [List.foldl_append, h0]; rfl
  rw [hstep]
  rcases parseBuffer_cases N hN buf with h | h | ⟨-, -, j, -, h⟩ | ⟨-, -, -, r, hf, h⟩
  · rw [(h root0).2]
    exact ⟨_, _, rfl, by simp, by simp⟩
  · rw [(h root0).2.2]
    exact ⟨_, _, rfl, by simp, by simp⟩
  · rw [h root0]
    exact ⟨_, _, rfl, fun _ => ⟨_, rfl, h⟩, by simp⟩
  · rw [h root0]
    refine ⟨_, _, rfl, fun hk => absurd hk hf.status, ?_⟩
    intro _ _ _ he
    rcases hf.root with h' | ⟨h', -⟩
    · exact h'
    · exact absurd h' he

/-- A history that ends with a syntax error. -/
example : parseHistory decOps [[0x5B, 0x5D, 0], [0x5B, 0x31, 0]] =
    .ok (some ⟨.kExpectedClosingSquareBracketsOrComma, 1, 3⟩, none) := rfl

/-! ## C55 -/

/-- The statuses of the enumeration that describe an error in a JSON text. -/
def syntaxStatuses : List Status :=
  [.kTextBufferContentsInvalid, .kUnterminatedTextBuffer, .kExpectedOpeningCurlyBraces,
    .kExpectedClosingCurlyBracesOrComma, .kExpectedOpeningSquareBrackets,
    .kExpectedClosingSquareBracketsOrComma, .kStringIllegalChar, .kStringIllegalEscape, .kExpectedColon,
    .kExpectedBeginingDoubleQuotes, .kExpectedEndingDoubleQuotes, .kFloatInvalid, .kExpectedTrueOrFalse,
    .kExpectedNull, .kExpectedJsonValue, .kExpectedEndOfFile, .kPrematureNullTerminator,
    .kNumbersCannotHaveLeadingZeros]

/-- `Parse` returns this status for the buffer. -/
def ReturnsStatus (N : NumOps D) (buf : Bytes) (st : Status) : Prop :=
  ∀ root, ∃ res root', parseBuffer N root buf = .ok (res, root') ∧ res.status = st

/-- The full statement of C55. -/
def C55_statement (N : NumOps D) : Prop := ∀ st ∈ syntaxStatuses, ∃ buf, ReturnsStatus N buf st

theorem status_set (N : NumOps D) (hN : NegLaw N) (root : Option (Value D)) (buf : Bytes) (res : ParseResult)
    (root' : Option (Value D)) (h : parseBuffer N root buf = .ok (res, root')) :
    res.status ∈ [Status.kOk, .kTextBufferContentsInvalid, .kUnterminatedTextBuffer, .kExpectedEndOfFile,
      .kExpectedJsonValue, .kExpectedClosingSquareBracketsOrComma, .kExpectedClosingCurlyBracesOrComma,
      .kExpectedColon, .kExpectedBeginingDoubleQuotes, .kPrematureNullTerminator, .kStringIllegalChar,
      .kStringIllegalEscape, .kNumbersCannotHaveLeadingZeros] := by
  rcases parseBuffer_cases N hN buf with h' | h' | ⟨-, -, j, -, h'⟩ | ⟨-, -, -, r, hf, h'⟩
  · rw [(h' root).2] at h
    simp only [Out.ok.injEq, Prod.mk.injEq] at h
    rw [← h.1]; decide
  · rw [(h' root).2.2] at h
    simp only [Out.ok.injEq, Prod.mk.injEq] at h
    rw [← h.1]; decide
  · rw [h' root] at h
    simp only [Out.ok.injEq, Prod.mk.injEq] at h
    rw [← h.1]; decide
  · rw [h' root] at h
    simp only [Out.ok.injEq, Prod.mk.injEq] at h
    rw [← h.1]
    rcases hf.code with hc | hc
    · simp only [GoodErr, List.mem_cons, List.not_mem_nil, or_false] at hc
      rcases hc with e | e | e | e | e | e | e | e | e <;> simp [e]
    · simp [hc]

/-- **C55 is violated**: no text is ever rejected with `kFloatInvalid`, although it has its own message. -/
theorem C55_violated (N : NumOps D) (hN : NegLaw N) : ¬ C55_statement N := by
  intro H
  obtain ⟨buf, h⟩ := H .kFloatInvalid (by decide)
  obtain ⟨res, root', h1, h2⟩ := h none
  have := status_set N hN none buf res root' h1
  rw [h2] at this
  revert this; decide

/-- **C55, the part that holds**: the statuses `Parse` returns are exactly these thirteen. Missing: six statuses
of the enumeration (for numbers, literals, the end of a string and opening brackets) that are
never returned. -/
theorem C55_statuses_partial (N : NumOps D) (hN : NegLaw N) (st : Status) :
    (∃ buf, ReturnsStatus N buf st) ↔
      st ∈ [Status.kOk, .kTextBufferContentsInvalid, .kUnterminatedTextBuffer, .kExpectedEndOfFile,
        .kExpectedJsonValue, .kExpectedClosingSquareBracketsOrComma, .kExpectedClosingCurlyBracesOrComma,
        .kExpectedColon, .kExpectedBeginingDoubleQuotes, .kPrematureNullTerminator, .kStringIllegalChar,
        .kStringIllegalEscape, .kNumbersCannotHaveLeadingZeros] := by
  constructor
  · rintro ⟨buf, h⟩
    obtain ⟨res, root', h1, rfl⟩ := h none
    exact status_set N hN none buf res root' h1
  · intro h
    simp only [List.mem_cons, List.not_mem_nil, or_false] at h
    rcases h with rfl | rfl | rfl | rfl | rfl | rfl | rfl | rfl | rfl | rfl | rfl | rfl | rfl
    · exact ⟨[0x5B, 0x5D, 0], fun _ => ⟨_, _, rfl, rfl⟩⟩
    · exact ⟨[0], fun _ => ⟨_, _, rfl, rfl⟩⟩
    · exact ⟨[0x5B, 0x5D, 0x20], fun _ => ⟨_, _, rfl, rfl⟩⟩
    · exact ⟨[0x5B, 0x5D, 0x5D, 0], fun _ => ⟨_, _, rfl, rfl⟩⟩
    · exact ⟨[0x78, 0x79, 0], fun _ => ⟨_, _, rfl, rfl⟩⟩
    · exact ⟨[0x5B, 0x31, 0], fun _ => ⟨_, _, rfl, rfl⟩⟩
    · exact ⟨[0x7B, 0x22, 0x22, 0x3A, 0x31, 0], fun _ => ⟨_, _, rfl, rfl⟩⟩
    · exact ⟨[0x7B, 0x22, 0x22, 0x31, 0], fun _ => ⟨_, _, rfl, rfl⟩⟩
    · exact ⟨[0x7B, 0x31, 0], fun _ => ⟨_, _, rfl, rfl⟩⟩
    · exact ⟨[0x22, 0x61, 0], fun _ => ⟨_, _, rfl, rfl⟩⟩
    · exact ⟨[0x22, 0x01, 0x22, 0], fun _ => ⟨_, _, rfl, rfl⟩⟩
    · exact ⟨[0x22, 0x5C, 0x78, 0x22, 0], fun _ => ⟨_, _, rfl, rfl⟩⟩
    · exact ⟨[0x30, 0x31, 0], fun _ => ⟨_, _, rfl, rfl⟩⟩

/-- A malformed number is reported as "expected a JSON value". -/
example : ReturnsStatus decOps [0x2D, 0x78, 0] .kExpectedJsonValue := fun _ => ⟨_, _, rfl, rfl⟩

end Verif.Props
