import Verif.Lemmas.Counted
import Verif.Props.Forged

/-!
# Texts that forge elements (C185)
-/

namespace Verif.Props

open Verif Verif.Map Verif.Text Verif.Number Verif.Parser Verif.File Verif.Doc Verif.Write Verif.Serial Verif.Spec

variable {D : Type}

theorem serElems_strs (init : D) : ∀ (l : List Bytes) (acc : List (Value D)),
    serElems (fun x => serialize init .str x (createValueFor init .str)) l acc = .ok (.kOk, .arr (acc ++ l.map .str))
  | [], acc => by simp [serElems]
  | s :: l, acc => by
    have e : serialize init .str s (createValueFor init .str) = .ok (.kOk, .str s) := rfl
    simp [serElems, e, serElems_strs init l]

theorem desElems_strs (dflt : (t : Ty) → t.Den D) : ∀ (l : List Bytes) (acc : List Bytes),
    desElems (fun x => deserialize dflt .str x (dflt .str)) (l.map .str) acc = (.kOk, acc ++ l)
  | [], acc => by simp [desElems]
  | s :: l, acc => by
    have e : deserialize dflt .str (.str s) (dflt .str) = (.kOk, s) := rfl
    simp only [List.map_cons, desElems, e, if_true, desElems_strs dflt l]
    simp

theorem desElems_only (dflt : (t : Ty) → t.Den D) (l' : List Bytes) : ∀ (vs : List (Value D)) (acc : List Bytes),
    desElems (fun x => deserialize dflt .str x (dflt .str)) vs acc = (.kOk, l') → ∃ x : List Bytes, vs = x.map .str ∧ l' = acc ++ x
  | [], acc, h => ⟨[], rfl, by simp [desElems] at h; simp [h]⟩
  | v :: vs, acc, h => by
    cases v with
    | str s =>
      have e : deserialize dflt .str (.str s) (dflt .str) = (.kOk, s) := rfl
      simp only [desElems, e, if_true] at h
      obtain ⟨x, hx, hl⟩ := desElems_only dflt l' vs _ h
      exact ⟨s :: x, by simp [hx], by simp [hl]⟩
    | _ => simp [desElems, deserialize] at h

/-- What is known of an array of texts that was saved, accepted and loaded: the file, and the elements of the document that was read. -/
theorem loaded_elems (N : NumOps D) (hN : NegLaw N) (init : D) (dflt : (t : Ty) → t.Den D) (l : List Bytes) (hl : ∀ p ∈ l, (0 : Byte) ∉ p)
    (il : Nat) (ic : Byte) (hic : il = 0 ∨ Ws [ic]) (w : Value D) (out : Bytes) (v : Value D)
    (hs : serializeFrom init (.arr .str) l = .ok (.kOk, w)) (he : Emits N il ic w out) (ha : Accepts N (out ++ [0]) v) (old l' : List Bytes)
    (hd : deserialize dflt (.arr .str) v old = (.kOk, l')) :
    ∃ w1 t w2, Ws w1 ∧ Ws w2 ∧ 0x5B :: 0x0A :: (lines (List.replicate il ic) l ++ [0x5D]) = w1 ++ (0x5B :: (t ++ [0x5D]) ++ w2) ∧
      (Ws t ∧ l' = [] ∨ ∃ L, Elems DialNum DialStr t L ∧ interpL N L = l'.map .str) := by
  have e : serializeFrom init (.arr .str) l = .ok (.kOk, .arr (l.map .str)) := by
    have := serElems_strs init l []
    simpa [serializeFrom, serialize, createValueFor] using this
  rw [hs] at e
  injection e with e
  injection e with _ e
  subst e
  have ho := emits_det he (emits_strs N il ic l hl)
  subst ho
  obtain ⟨-, -, j, hj, rfl⟩ := (accepts_iff N hN _ v).1 ha
  have zi : (0 : Byte) ∉ List.replicate il ic := (ws_replicate hic).nul_free
  rw [cstr_append (by simpa using lines_nul_free zi l hl)] at hj
  obtain ⟨w1, t, w2, h1, ht, h2, et⟩ := hj
  cases j with
  | arr L =>
    have hd : desElems (fun x => deserialize dflt .str x (dflt .str)) (interpL N L) [] = (.kOk, l') := by
      simpa [interp, deserialize] using hd
    obtain ⟨x, hx, rfl⟩ := desElems_only dflt l' _ _ hd
    cases ht with
    | arrEmpty hw =>
      refine ⟨w1, _, w2, h1, h2, et, .inl ⟨hw, ?_⟩⟩
      simpa [interpL] using hx
    | arr hl => exact ⟨w1, _, w2, h1, h2, et, .inr ⟨L, hl, by simpa using hx⟩⟩
  | _ => simp [interp, deserialize] at hd

/-- **C185**: an array of texts that is saved and loaded with success has as many elements as before. -/
def C185_statement : Prop :=
  ∀ (D : Type) (N : NumOps D), NegLaw N → ∀ (init : D) (dflt : (t : Ty) → t.Den D) (l : List Bytes), (∀ p ∈ l, (0 : Byte) ∉ p) →
    ∀ (il : Nat) (ic : Byte), (il = 0 ∨ Ws [ic]) → ∀ (w : Value D) (out : Bytes) (v : Value D),
    serializeFrom init (.arr .str) l = .ok (.kOk, w) → Emits N il ic w out → Accepts N (out ++ [0]) v →
    ∀ old l' : List Bytes, deserialize dflt (.arr .str) v old = (.kOk, l') → l'.length = l.length

/-- **C185, one half**: there are never fewer elements, whatever the texts are. -/
theorem C185_fewer (N : NumOps D) (hN : NegLaw N) (init : D) (dflt : (t : Ty) → t.Den D) (l : List Bytes) (hl : ∀ p ∈ l, (0 : Byte) ∉ p)
    (il : Nat) (ic : Byte) (hic : il = 0 ∨ Ws [ic]) (w : Value D) (out : Bytes) (v : Value D)
    (hs : serializeFrom init (.arr .str) l = .ok (.kOk, w)) (he : Emits N il ic w out) (ha : Accepts N (out ++ [0]) v) (old l' : List Bytes)
    (hd : deserialize dflt (.arr .str) v old = (.kOk, l')) : l.length ≤ l'.length := by
  obtain ⟨w1, t, w2, h1, h2, et, h⟩ := loaded_elems N hN init dflt l hl il ic hic w out v hs he ha old l' hd
  rcases h with ⟨hw, rfl⟩ | ⟨L, hL, hx⟩
  · cases l with
    | nil => simp
    | cons p l =>
      exfalso
      have hm : (0x22 : Byte) ∈ w1 ++ (0x5B :: (t ++ [0x5D]) ++ w2) := by rw [← et]; simp [lines]
      have q1 := ws_quote h1
      have q2 := ws_quote h2
      have q3 := ws_quote hw
      simp [q1, q2, q3] at hm
  · have c1 := (elems_counts N l' hL hx).1 (0x5D :: w2)
    have c2 := lines_pairs (List.replicate il ic) l [0x5D]
    have e1 : pairs (w1 ++ (0x5B :: (t ++ [0x5D]) ++ w2)) = pairs (t ++ 0x5D :: w2) := by
      rw [pairs_skip _ _ (ws_comma h1)]
      simp [pairs]
    have e2 : pairs (0x5D :: w2) = 0 := by
      have := pairs_skip (0x5D :: w2) [] (by simp [ws_comma h2])
      simpa [pairs] using this
    have e3 : pairs (0x5B :: 0x0A :: (lines (List.replicate il ic) l ++ [0x5D])) = pairs (lines (List.replicate il ic) l ++ [0x5D]) := by
      simp [pairs]
    rw [et] at e3
    omega

/-- **C185 for texts without quotation marks**, with backslashes and control characters: the number of elements stays. Missing: the texts with
quotation marks, of which `C185_forged` shows what they can do. -/
theorem C185_partial (N : NumOps D) (hN : NegLaw N) (init : D) (dflt : (t : Ty) → t.Den D) (l : List Bytes) (hl : ∀ p ∈ l, (0 : Byte) ∉ p)
    (hq : ∀ p ∈ l, (0x22 : Byte) ∉ p) (il : Nat) (ic : Byte) (hic : il = 0 ∨ Ws [ic]) (w : Value D) (out : Bytes) (v : Value D)
    (hs : serializeFrom init (.arr .str) l = .ok (.kOk, w)) (he : Emits N il ic w out) (ha : Accepts N (out ++ [0]) v) (old l' : List Bytes)
    (hd : deserialize dflt (.arr .str) v old = (.kOk, l')) : l'.length = l.length := by
  refine Nat.le_antisymm ?_ (C185_fewer N hN init dflt l hl il ic hic w out v hs he ha old l' hd)
  obtain ⟨w1, t, w2, h1, h2, et, h⟩ := loaded_elems N hN init dflt l hl il ic hic w out v hs he ha old l' hd
  rcases h with ⟨-, rfl⟩ | ⟨L, hL, hx⟩
  · simp
  · have c1 := (elems_counts N l' hL hx).2
    have c2 := lines_quotes (ws_quote (ws_replicate hic)) l hq
    have e := congrArg (List.count (0x22 : Byte)) et
    simp [List.count_append, c2] at e
    omega

/-- **C185 for texts without quotation marks, in full**: the file is accepted if and only if each text is a token by itself, and the document
that is read has as its elements what these tokens stand for. -/
theorem C185_tokens_partial (N : NumOps D) (hN : NegLaw N) (init : D) (l : List Bytes) (hl : ∀ p ∈ l, (0 : Byte) ∉ p)
    (hq : ∀ p ∈ l, (0x22 : Byte) ∉ p) (il : Nat) (ic : Byte) (hic : il = 0 ∨ Ws [ic]) (w : Value D) (out : Bytes)
    (hs : serializeFrom init (.arr .str) l = .ok (.kOk, w)) (he : Emits N il ic w out) (v : Value D) :
    Accepts N (out ++ [0]) v ↔ ∃ l', ReadAs l l' ∧ v = .arr (l'.map .str) := by
  have e : serializeFrom init (.arr .str) l = .ok (.kOk, .arr (l.map .str)) := by
    have := serElems_strs init l []
    simpa [serializeFrom, serialize, createValueFor] using this
  rw [hs] at e
  injection e with e
  injection e with _ e
  subst e
  have ho := emits_det he (emits_strs N il ic l hl)
  subst ho
  have hi : Ws (List.replicate il ic) := ws_replicate hic
  have nl : Ws [0x0A] := by simp [Ws]
  constructor
  · intro ha
    obtain ⟨-, -, j, hj, rfl⟩ := (accepts_iff N hN _ v).1 ha
    rw [cstr_append (by simpa using lines_nul_free hi.nul_free l hl)] at hj
    obtain ⟨w1, t, w2, h1, ht, h2, et⟩ := hj
    obtain ⟨c, u, hc', hc, -⟩ := val_head ht
    obtain ⟨-, hx, et⟩ := ws_first (a := []) (x := 0x5B) (y := c) Ws.nil h1 (by simp [Ws]) (nws hc) (by simpa [hc'] using et)
    subst hx
    cases ht with
    | arr h =>
      simp only [List.cons.injEq, true_and] at hc'
      subst hc'
      obtain ⟨l', hr, rfl⟩ := elems_readAs hi l hq w2 [] h (by simpa using et.symm)
      exact ⟨l', hr, by simp [interp, interp_strs]⟩
    | arrEmpty h =>
      simp only [List.cons.injEq, true_and] at hc'
      subst hc'
      cases l with
      | nil => exact ⟨[], .nil, by simp [interp, interpL]⟩
      | cons p l =>
        have := ws_first (a := 0x0A :: List.replicate il ic) (x := 0x22) (y := 0x5D) (nl.append hi) h (by simp [Ws]) (by simp [Ws])
          (by simpa [lines] using et)
        exact absurd this.2.1 (by decide)
    | str h => obtain ⟨r, hr⟩ := h.head; rw [hr] at hc'; simp at hc'
    | num h =>
      obtain ⟨c, s, hs, hc⟩ := dialNum_head h
      rw [hs] at hc'
      simp only [List.cons.injEq] at hc'
      rw [hc'.1] at hc
      exact absurd hc (by simp [NumChar, Digit])
    | _ => simp at hc'
  · rintro ⟨l', hr, rfl⟩
    have hdoc : Val DialNum DialStr (0x5B :: 0x0A :: (lines (List.replicate il ic) l ++ [0x5D])) (.arr (strs l')) := by
      cases hr with
      | nil => simpa [lines, strs] using Val.arrEmpty (numTok := DialNum) (strTok := DialStr) nl
      | cons h hr => simpa using Val.arr (readAs_elems hi (.cons h hr) (by simp))
    have := accepts_of_dial N hN ⟨[], _, [], Ws.nil, hdoc, Ws.nil, rfl⟩ (by simp)
    simpa [interp, interp_strs] using this

/-- **C185, the code does otherwise.** For all texts `ss` (at least one) there is one text `p` so that an array with `p` among other texts is
loaded with `ss` in its place. -/
theorem C185_forged (N : NumOps D) (hN : NegLaw N) (init : D) (ss : List Bytes) (hne : ss ≠ []) (hss : ∀ s ∈ ss, ReadableText s) :
    ∃ p, (0 : Byte) ∉ p ∧ ∀ a b : List Bytes, (∀ s ∈ a, ReadableText s) → (∀ s ∈ b, ReadableText s) → ∀ il ic, (il = 0 ∨ Ws [ic]) →
      ∃ w out v, serializeFrom init (.arr .str) (a ++ p :: b) = .ok (.kOk, w) ∧ Emits N il ic w out ∧ Accepts N (out ++ [0]) v ∧
        ∀ (dflt : (t : Ty) → t.Den D) (old : List Bytes), deserialize dflt (.arr .str) v old = (.kOk, a ++ (ss ++ b)) := by
  have zp := joined_nul_free ss fun s hs => (hss s hs).nul_free
  refine ⟨joined ss, zp, fun a b ha hb il ic hic => ?_⟩
  have z : ∀ p ∈ a ++ joined ss :: b, (0 : Byte) ∉ p := by
    intro p hp
    simp only [List.mem_append, List.mem_cons] at hp
    rcases hp with hp | rfl | hp
    · exact (ha p hp).nul_free
    · exact zp
    · exact (hb p hp).nul_free
  have doc := Val.arr (forged_elems (ws_replicate hic) ss b hne hss hb a ha)
  refine ⟨_, _, _, ?_, emits_strs N il ic _ z, accepts_of_dial N hN ⟨[], _, [], Ws.nil, doc, Ws.nil, by simp⟩ (by simp), fun dflt old => ?_⟩
  · have := serElems_strs init (a ++ joined ss :: b) []
    simpa [serializeFrom, serialize, createValueFor] using this
  · have := desElems_strs dflt (a ++ (ss ++ b)) []
    rw [interp, interp_strs]
    exact this

/-- The negation: the text `","` is loaded as two empty texts. -/
theorem C185_violated : ¬ C185_statement := by
  intro h
  obtain ⟨p, hp, hf⟩ := C185_forged natOps natOps_neg ⟨false, 0, 0⟩ [[], []] (by simp) (by simp [readable_nil])
  obtain ⟨w, out, v, a, b, c, e⟩ := hf [] [] (by simp) (by simp) 0 0x20 (.inl rfl)
  have := h Dec natOps natOps_neg ⟨false, 0, 0⟩ (blank ⟨false, 0, 0⟩) [p] (by simpa using hp) 0 0x20 (.inl rfl) w out v a b c [] _ (e _ _)
  simp at this

/-- The texts `a`, `x","y` and `b`: four texts are loaded. -/
example : ∃ w out v, serializeFrom (D := Dec) ⟨false, 0, 0⟩ (.arr .str) [[0x61], [0x78, 0x22, 0x2C, 0x22, 0x79], [0x62]] = .ok (.kOk, w) ∧
    Emits natOps 1 0x09 w out ∧ Accepts natOps (out ++ [0]) v ∧
    ∀ dflt, deserialize dflt (.arr .str) v [] = (.kOk, [[0x61], [0x78], [0x79], [0x62]]) :=
  ⟨_, _, _, rfl, ⟨3, _, rfl, rfl, rfl⟩, fun _ => rfl, fun _ => rfl⟩

/-- The texts `\n` and `b`, with a backslash and without quotation marks: two texts are loaded, the first one changed to a line break. -/
example : ∃ w out v, serializeFrom (D := Dec) ⟨false, 0, 0⟩ (.arr .str) [[0x5C, 0x6E], [0x62]] = .ok (.kOk, w) ∧
    Emits natOps 1 0x09 w out ∧ Accepts natOps (out ++ [0]) v ∧
    ∀ dflt, deserialize dflt (.arr .str) v [] = (.kOk, [[0x0A], [0x62]]) :=
  ⟨_, _, _, rfl, ⟨3, _, rfl, rfl, rfl⟩, fun _ => rfl, fun _ => rfl⟩

/-- The second text ends with a backslash, so it is no token and the file is rejected. -/
example : ∃ w out, serializeFrom (D := Dec) ⟨false, 0, 0⟩ (.arr .str) [[0x61], [0x62, 0x5C], [0x63]] = .ok (.kOk, w) ∧
    Emits natOps 1 0x09 w out ∧ Rejects natOps (out ++ [0]) :=
  ⟨_, _, rfl, ⟨3, _, rfl, rfl, rfl⟩, fun _ => ⟨_, _, rfl, by decide⟩⟩

end Verif.Props
