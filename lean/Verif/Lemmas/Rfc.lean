import Verif.Lemmas.Walk
import Verif.Spec.Rfc

/-! # RFC 8259 tokens and dialect tokens -/

namespace Verif.Parser

open Verif Verif.Text Verif.Number Verif.Map Verif.Spec Verif.Doc

theorem val_mono {n n' : Bytes → Dec → Prop} {s s' : Bytes → Bytes → Prop}
    (hn : ∀ t d, n t d → n' t d) (hs : ∀ t x, s t x → s' t x) {t : Bytes} {j : J} (h : Val n s t j) :
    Val n' s' t j := by
  refine Val.rec (motive_1 := fun t j _ => Val n' s' t j) (motive_2 := fun t l _ => Elems n' s' t l)
    (motive_3 := fun t m _ => Members n' s' t m) ?_ ?_ ?_ ?_ ?_ ?_ ?_ ?_ ?_ ?_ ?_ ?_ ?_ h
  · exact .null
  · exact .true
  · exact .false
  · intro t d h; exact .num (hn _ _ h)
  · intro t x h; exact .str (hs _ _ h)
  · intro w h; exact .arrEmpty h
  · intro t l _ h; exact .arr h
  · intro w h; exact .objEmpty h
  · intro t m _ h; exact .obj h
  · intro w1 t w2 j h1 _ h2 h; exact .one h1 h h2
  · intro w1 t w2 j ts l h1 _ h2 _ h h'; exact .cons h1 h h2 h'
  · intro w1 n w2 w3 t w4 s j h1 hx h2 h3 _ h4 h; exact .one h1 (hs _ _ hx) h2 h3 h h4
  · intro w1 n w2 w3 t w4 s j ts m h1 hx h2 h3 _ h4 _ h h'; exact .cons h1 (hs _ _ hx) h2 h3 h h4 h'

/-- Strings of a value come from string tokens. -/
theorem val_strs {n : Bytes → Dec → Prop} {s : Bytes → Bytes → Prop} {t : Bytes} {j : J}
    (h : Val n s t j) : ∀ x ∈ j.strs, ∃ tok, s tok x := by
  refine Val.rec (motive_1 := fun t j _ => ∀ x ∈ j.strs, ∃ tok, s tok x)
    (motive_2 := fun t l _ => ∀ x ∈ l.strs, ∃ tok, s tok x)
    (motive_3 := fun t m _ => ∀ x ∈ m.strs, ∃ tok, s tok x) ?_ ?_ ?_ ?_ ?_ ?_ ?_ ?_ ?_ ?_ ?_ ?_ ?_ h
  · simp [J.strs]
  · simp [J.strs]
  · simp [J.strs]
  · intros; simp_all [J.strs]
  · intro t x h y hy
    simp only [J.strs, List.mem_singleton] at hy
    subst hy; exact ⟨t, h⟩
  · simp [J.strs, JL.strs]
  · intro t l _ h; simpa [J.strs] using h
  · simp [J.strs, JM.strs]
  · intro t m _ h; simpa [J.strs] using h
  · intro w1 t w2 j h1 _ h2 h; simpa [JL.strs] using h
  · intro w1 t w2 j ts l h1 _ h2 _ h h' x hx
    simp only [JL.strs, List.mem_append] at hx
    exact hx.elim (h x) (h' x)
  · intro w1 n w2 w3 t w4 s j h1 hx h2 h3 _ h4 h x hm
    simp only [JM.strs, List.mem_append, List.mem_cons, List.not_mem_nil, or_false] at hm
    rcases hm with rfl | hm
    · exact ⟨_, hx⟩
    · exact h x hm
  · intro w1 n w2 w3 t w4 s j ts m h1 hx h2 h3 _ h4 _ h h' x hm
    simp only [JM.strs, List.mem_append, List.mem_cons] at hm
    rcases hm with rfl | hm | hm
    · exact ⟨_, hx⟩
    · exact h x hm
    · exact h' x hm

theorem get_strs (l : JL) (i : Nat) {j : J} (h : l.get i = some j) : j.strs ⊆ l.strs := by
  induction l using jl_ind generalizing i with
  | nil => simp [JL.get] at h
  | cons j' l ih =>
    cases i with
    | zero => simp only [JL.get, Option.some.injEq] at h; subst h; simp [JL.strs]
    | succ i =>
      simp only [JL.get] at h
      exact fun x hx => by simp only [JL.strs, List.mem_append]; exact .inr (ih i h hx)

theorem first_strs (m : JM) (k : Bytes) {j : J} (h : m.first k = some j) : j.strs ⊆ m.strs := by
  induction m using jm_ind with
  | nil => simp [JM.first] at h
  | cons k' j' m ih =>
    simp only [JM.first] at h
    intro x hx
    simp only [JM.strs, List.mem_cons, List.mem_append]
    split at h
    · simp only [Option.some.injEq] at h; subst h; exact .inr (.inl hx)
    · exact .inr (.inr (ih h hx))

theorem names_strs (m : JM) : m.names ⊆ m.strs := by
  induction m using jm_ind with
  | nil => simp [JM.names]
  | cons k' j' m ih =>
    intro x hx
    simp only [JM.names, List.mem_cons] at hx
    simp only [JM.strs, List.mem_cons, List.mem_append]
    exact hx.elim .inl fun h => .inr (.inr (ih h))

theorem walk_strs (j : J) (p : List Step) {j' : J} (h : j.walk p = some j') : j'.strs ⊆ j.strs := by
  induction p generalizing j with
  | nil => simp only [J.walk, Option.some.injEq] at h; subst h; exact fun _ h => h
  | cons s p ih =>
    simp only [J.walk, Option.bind_eq_some_iff] at h
    obtain ⟨j1, h1, h2⟩ := h
    refine fun x hx => ?_
    have := ih j1 h2 hx
    cases j <;> cases s <;> simp only [J.step, reduceCtorEq] at h1
    · exact get_strs _ _ h1 this
    · exact first_strs _ _ h1 this

/-! ## Strings -/

theorem safeItem_dial {i : SItem} (h : SafeItem i) : DialItem i := by
  obtain ⟨⟨⟨c, hc⟩, hi⟩, hdel, h0⟩ := h
  cases i with
  | lit cp =>
    simp only at hi
    refine ⟨?_, hi.2.1, hi.2.2.1, hi.2.2.2, fun e => hdel (by rw [e])⟩
    have := hi.1; unfold IsScalar at this; omega
  | esc c' => exact ⟨c, hc⟩
  | uni a b c' d =>
    refine ⟨c, hc, ?_⟩
    rintro rfl
    simp only [SItem.uniIn] at h0
    rw [hc] at h0
    simp at h0

theorem rfcCodes_plain (items : List SItem) (h : ∀ i ∈ items, i.uniIn 0xD800 0xDC00 = none) :
    rfcCodes items = plainCodes items := by
  induction items with
  | nil => rfl
  | cons i is ih =>
    cases is with
    | nil => rfl
    | cons i' is =>
      have h1 := h i (by simp)
      have := ih (fun x hx => h x (by simp [hx]))
      rw [rfcCodes, h1]
      rw [this]; rfl

theorem safeStr_dial {t s : Bytes} (h : SafeStr t s) : DialStr t s := by
  obtain ⟨items, hi, e, es⟩ := h
  refine ⟨items, fun i hx => safeItem_dial (hi i hx).1, e, ?_⟩
  rw [es, rfcCodes_plain items fun i hx => (hi i hx).2]

/-! ## Numbers -/

theorem rfcExp_chars {t : Bytes} {e : Int} (h : RfcExp t e) : ∀ c ∈ t, NumChar c := by
  cases h with
  | none => simp
  | unsigned hc hne hd =>
    intro x hx; simp only [List.mem_cons] at hx
    rcases hx with rfl | hx
    · rcases hc with rfl | rfl <;> simp [NumChar]
    · exact .inl (hd x hx)
  | plus hc hne hd =>
    intro x hx; simp only [List.mem_cons] at hx
    rcases hx with rfl | rfl | hx
    · rcases hc with rfl | rfl <;> simp [NumChar]
    · simp [NumChar]
    · exact .inl (hd x hx)
  | minus hc hne hd =>
    intro x hx; simp only [List.mem_cons] at hx
    rcases hx with rfl | rfl | hx
    · rcases hc with rfl | rfl <;> simp [NumChar]
    · simp [NumChar]
    · exact .inl (hd x hx)

theorem rfcFrac_chars {t ds : Bytes} (h : RfcFrac t ds) :
    (∀ c ∈ t, NumChar c) ∧ (∀ d ∈ ds, Digit d) ∧ (t = [] ∧ ds = [] ∨ t = 0x2E :: ds) := by
  cases h with
  | none => simp
  | some hne hd =>
    refine ⟨?_, hd, .inr rfl⟩
    intro x hx; simp only [List.mem_cons] at hx
    rcases hx with rfl | hx
    · simp [NumChar]
    · exact .inl (hd x hx)

theorem rfcInt_digits {t : Bytes} (h : RfcInt t) : (∀ d ∈ t, Digit d) ∧ ∃ c r, t = c :: r ∧
    (c = 0x30 → r = []) := by
  cases h with
  | zero => exact ⟨by simp [Digit], _, _, rfl, fun _ => rfl⟩
  | pos hc h0 hd =>
    refine ⟨?_, _, _, rfl, fun e => absurd e h0⟩
    intro x hx; simp only [List.mem_cons] at hx
    rcases hx with rfl | hx
    · exact hc
    · exact hd x hx

/-- The unsigned part of an RFC number is a run `strtod` reads to its end. -/
theorem rfc_run {i ft fd et : Bytes} {e : Int} (hi : RfcInt i) (hf : RfcFrac ft fd) (he : RfcExp et e) :
    (∀ c ∈ i ++ (ft ++ et), NumChar c) ∧
    LongestNum (i ++ (ft ++ et)) ⟨false, decimal (i ++ fd), e - fd.length⟩ ∧
    (∀ r, i ++ (ft ++ et) ≠ 0x2B :: r) ∧ (∀ r, i ++ (ft ++ et) ≠ 0x2D :: r) := by
  obtain ⟨hid, c, r, rfl, -⟩ := rfcInt_digits hi
  obtain ⟨hfc, hfd, hff⟩ := rfcFrac_chars hf
  have hec := rfcExp_chars he
  have hc := hid c (by simp)
  refine ⟨?_, ?_, ?_, ?_⟩
  · intro x hx
    simp only [List.mem_append] at hx
    rcases hx with hx | hx | hx
    · exact .inl (hid x hx)
    · exact hfc x hx
    · exact hec x hx
  · refine ⟨_, [], by simp, .mk (sg := []) (.inl ⟨rfl, rfl⟩) hid hfd hff (by simp) he, ?_⟩
    intro p' junk' d' e' _
    have := congrArg List.length e'
    simp only [List.length_append] at this
    simp only [List.nil_append, List.length_append]
    omega
  · intro r' e'
    simp only [List.cons_append, List.cons.injEq] at e'
    rw [e'.1] at hc; simp [Digit] at hc
  · intro r' e'
    simp only [List.cons_append, List.cons.injEq] at e'
    rw [e'.1] at hc; simp [Digit] at hc

theorem rfc_zero {i ft fd et : Bytes} {e : Int} (hi : RfcInt i) (hf : RfcFrac ft fd) (he : RfcExp et e)
    (hz : ∀ c r, (c = 0x65 ∨ c = 0x45) → i ++ (ft ++ et) ≠ 0x30 :: c :: r) :
    ∀ c r, i ++ (ft ++ et) = 0x30 :: c :: r → c = 0x2E := by
  obtain ⟨hid, c0, r0, rfl, h0⟩ := rfcInt_digits hi
  intro c r h
  simp only [List.cons_append, List.cons.injEq] at h
  obtain ⟨rfl, h⟩ := h
  have := h0 rfl; subst this
  simp only [List.nil_append] at h
  cases hf with
  | some hne hd =>
    simp only [List.cons_append, List.cons.injEq] at h
    exact h.1.symm
  | none =>
    simp only [List.nil_append] at h
    cases he with
    | none => simp at h
    | unsigned hc hne hd =>
      simp only [List.cons.injEq] at h
      exact absurd (by rw [← h.1, ← h.2]; rfl) (hz c r (h.1 ▸ hc))
    | plus hc hne hd =>
      simp only [List.cons.injEq] at h
      exact absurd (by rw [← h.1, ← h.2]; rfl) (hz c r (h.1 ▸ hc))
    | minus hc hne hd =>
      simp only [List.cons.injEq] at h
      exact absurd (by rw [← h.1, ← h.2]; rfl) (hz c r (h.1 ▸ hc))

theorem safeNum_dial {t : Bytes} {d : Dec} (h : SafeNum t d) : DialNum t d := by
  obtain ⟨h, hz⟩ := h
  cases h with
  | pos hi hf he =>
    obtain ⟨h1, h2, h3, h4⟩ := rfc_run hi hf he
    refine .plain h1 h2 h3 h4 (rfc_zero hi hf he ?_)
    intro c r hc e
    exact hz ⟨[], c, r, .inl rfl, hc, by simpa using e⟩
  | neg hi hf he =>
    obtain ⟨h1, h2, h3, h4⟩ := rfc_run hi hf he
    refine .minus (w := []) Ws.nil h1 h2 (rfc_zero hi hf he ?_)
    intro c r hc e
    exact hz ⟨[0x2D], c, r, .inr rfl, hc, by simpa using e⟩

theorem safe_dial {t : Bytes} {j : J} (h : SafeText t j) : DialText t j := by
  obtain ⟨w1, v, w2, h1, hv, h2, e⟩ := h
  exact ⟨w1, v, w2, h1, val_mono (fun _ _ => safeNum_dial) (fun _ _ => safeStr_dial) hv, h2, e⟩

end Verif.Parser
