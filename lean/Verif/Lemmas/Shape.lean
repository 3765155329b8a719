import Verif.Spec.Shape
import Verif.Lemmas.Counted
import Verif.Lemmas.Faults

/-!
# Documents whose texts have no quotation marks keep their shape

A written row of a document and a value of the grammar that begins at the same place are the same text (used by C186).
-/

namespace Verif.Parser

open Verif Verif.Map Verif.Text Verif.Number Verif.Doc Verif.Write Verif.Serial Verif.Spec

variable {D : Type}

/-- What follows a row. -/
def Brk (S : Bytes) : Prop := ∃ a m, S = a ++ 0x0A :: m ∧ (a = [] ∨ a = [0x2C])

/-- The row `r` stands for a value of the shape of `a`: a value of the grammar that begins where the row begins, is the row. -/
structure Fits (N : NumOps D) (r : Bytes) (a : Value D) : Prop where
  head : ∃ c s, r = c :: s ∧ isWs c = false ∧ c ≠ 0x5D
  nul : (0 : Byte) ∉ r
  fit : ∀ tok j R S, DVal tok j → tok ++ R = r ++ S → Brk S → Ends j R → tok = r ∧ SameShape a (interp N j)

theorem plain_of {s : Bytes} (h : ReadableText s) : (0x22 : Byte) ∉ s ∧ (0x5C : Byte) ∉ s := by
  obtain ⟨cps, hc, rfl⟩ := h
  constructor <;>
  · intro hm
    simp only [utf8s, List.mem_flatten, List.mem_map] at hm
    obtain ⟨_, ⟨cp, hcp, rfl⟩, hm⟩ := hm
    have := utf8_byte (hc cp hcp).1 (by decide) hm
    have h' := hc cp hcp
    revert this
    simp only [UInt8.reduceToNat]
    omega

theorem readable_value {k s : Bytes} (h : ReadableText k) (hs : DialStr (0x22 :: (k ++ [0x22])) s) : s = k := by
  have h1 := parseString_complete _ _ [0] hs (by simp [Term])
  have h2 := parseString_complete _ _ [0] (token_of h) (by simp [Term])
  rw [h1] at h2
  injection h2 with h2
  injection h2

theorem ends_blank {j : J} {w : Bytes} (hw : Ws w) {c : Byte} (hc : ¬ NumChar c) (R : Bytes) : Ends j (w ++ c :: R) := by
  intro d _ c' r e hn
  cases w with
  | nil =>
    simp only [List.nil_append, List.cons.injEq] at e
    rw [← e.1] at hn; exact hc hn
  | cons x w =>
    simp only [List.cons_append, List.cons.injEq] at e
    rw [← e.1] at hn
    have := hw x (by simp)
    rcases this with rfl | rfl | rfl | rfl <;> simp [NumChar, Digit] at hn

theorem val_quote {tok : Bytes} {j : J} {c : Byte} {u : Bytes} (h : DVal tok j) (e : tok = c :: u) (h34 : c ≠ 0x22) (hn : ¬ NumChar c) :
    (∀ s, j ≠ .str s) ∧ ∀ d, j ≠ .num d := by
  constructor
  · rintro s rfl
    cases h with
    | str h => obtain ⟨r, hr⟩ := h.head; rw [hr] at e; simp only [List.cons.injEq] at e; exact h34 e.1.symm
  · rintro d rfl
    cases h with
    | num h =>
      obtain ⟨c', s, hs, hc⟩ := dialNum_head h
      rw [hs] at e; simp only [List.cons.injEq] at e; rw [e.1] at hc; exact hn hc

theorem fits_str (N : NumOps D) {p : Bytes} (hp : (0x22 : Byte) ∉ p) (hz : (0 : Byte) ∉ p) : Fits N (0x22 :: (p ++ [0x22])) (.str p) := by
  refine ⟨⟨_, _, rfl, by decide, by decide⟩, by simp [hz], fun tok j R S hv e hb _ => ?_⟩
  obtain ⟨c, u, hc', -⟩ := val_head hv
  have hc : c = 0x22 := by rw [hc'] at e; simp at e; exact e.1
  subst hc
  obtain ⟨s, hs, rfl⟩ := quote_value hv hc'
  obtain ⟨a, m, rfl, ha⟩ := hb
  obtain ⟨e1, -⟩ := token_end (rest := R) (q := p) (more := a ++ 0x0A :: m) hs hp
    (.inr ⟨a, m, rfl, by rcases ha with rfl | rfl <;> simp⟩) (by simpa using e)
  exact ⟨e1, .str _ _⟩

theorem brk_head {S : Bytes} (h : Brk S) : ∃ c s, S = c :: s ∧ ¬ NumChar c ∧ (c = 0x0A ∨ c = 0x2C) := by
  obtain ⟨a, m, rfl, rfl | rfl⟩ := h
  · exact ⟨_, _, rfl, by simp [NumChar, Digit], .inl rfl⟩
  · exact ⟨_, _, rfl, by simp [NumChar, Digit], .inr rfl⟩

theorem fits_word (N : NumOps D) {r : Bytes} {a : J} (h : r = [0x6E, 0x75, 0x6C, 0x6C] ∧ a = .null ∨
    r = [0x74, 0x72, 0x75, 0x65] ∧ a = .bool true ∨ r = [0x66, 0x61, 0x6C, 0x73, 0x65] ∧ a = .bool false) : Fits N r (interp N a) := by
  rcases h with ⟨rfl, rfl⟩ | ⟨rfl, rfl⟩ | ⟨rfl, rfl⟩
  all_goals
    refine ⟨⟨_, _, rfl, by decide, by decide⟩, by decide, fun tok j R S hv e hb _ => ?_⟩
    obtain ⟨c, u, hc', -⟩ := val_head hv
    have hc := e
    rw [hc'] at hc
    simp only [List.cons_append, List.cons.injEq] at hc
    have hq := val_quote hv hc' (by rw [hc.1]; decide) (by rw [hc.1]; simp [NumChar, Digit])
    cases hv <;> simp_all [interp]
    constructor

theorem num_all {tok r R S : Bytes} {d d' : Dec} (h : DialNum tok d) (hr : ∀ c ∈ r, NumChar c) (h' : DialNum r d')
    (e : tok ++ R = r ++ S) : ∀ c ∈ tok, NumChar c := by
  have key : ∀ (x : Byte) (w run : Bytes) (d : Dec), tok = x :: (w ++ run) → NumChar x → (x = 0x2B ∨ x = 0x2D) → Ws w →
      (∀ c ∈ run, NumChar c) → LongestNum run d → ∀ c ∈ tok, NumChar c := by
    intro x w run d e1 hx hx' hw hrun hl
    subst e1
    suffices w = [] by
      subst this
      intro c hc
      simp only [List.nil_append, List.mem_cons] at hc
      rcases hc with rfl | hc
      · exact hx
      · exact hrun c hc
    cases w with
    | nil => rfl
    | cons y w =>
      exfalso
      have hy := hw y (by simp)
      have two : ∃ z q, r = x :: z :: q := by
        have one : ∃ q, r = x :: q := by
          obtain ⟨c, s, hs, -⟩ := dialNum_head h'
          subst hs
          simp only [List.cons_append, List.cons.injEq] at e
          exact ⟨s, by rw [e.1]⟩
        obtain ⟨q, rfl⟩ := one
        cases q with
        | cons z q => exact ⟨z, q, rfl⟩
        | nil =>
          exfalso
          generalize e0 : [x] = r0 at h'
          cases h' with
          | plain _ _ h1 h2 _ =>
            rcases hx' with rfl | rfl
            · exact h1 _ e0.symm
            · exact h2 _ e0.symm
          | plus _ _ hl _ =>
            simp only [List.cons.injEq, List.nil_eq, List.append_eq_nil_iff] at e0
            exact longest_ne_nil hl e0.2.2
          | minus _ _ hl _ =>
            simp only [List.cons.injEq, List.nil_eq, List.append_eq_nil_iff] at e0
            exact longest_ne_nil hl e0.2.2
      obtain ⟨z, q, rfl⟩ := two
      simp only [List.cons_append, List.cons.injEq, true_and] at e
      have hz := hr z (by simp)
      rw [← e.1] at hz
      rcases hy with rfl | rfl | rfl | rfl <;> simp [NumChar, Digit] at hz
  cases h with
  | plain h _ _ _ _ => exact h
  | plus hw h hl _ => exact key _ _ _ _ rfl (by simp [NumChar]) (.inl rfl) hw h hl
  | minus hw h hl _ => exact key _ _ _ _ rfl (by simp [NumChar]) (.inr rfl) hw h hl

theorem fits_digits (N : NumOps D) {r : Bytes} (h : (∀ c ∈ r, NumChar c) ∧ ∃ d, DialNum r d) (x : D) : Fits N r (.num x) := by
  obtain ⟨hr, d', h'⟩ := h
  obtain ⟨c, s, hs, hc⟩ := dialNum_head h'
  have hw : isWs c = false := by
    cases hx : isWs c with
    | false => rfl
    | true =>
      exfalso
      have := (isWs_iff c).1 hx
      rcases this with rfl | rfl | rfl | rfl <;> simp [NumChar, Digit] at hc
  refine ⟨⟨c, s, hs, hw, by rintro rfl; simp [NumChar, Digit] at hc⟩, dialNum_nul_free h', fun tok j R S hv e hb he => ?_⟩
  obtain ⟨c1, u, hc', -⟩ := val_head hv
  have hcc : c1 = c := by rw [hc', hs] at e; simp at e; exact e.1
  subst hcc
  obtain ⟨d, rfl⟩ : ∃ d, j = .num d := by
    cases hv with
    | num h => exact ⟨_, rfl⟩
    | str h => obtain ⟨q, hq⟩ := h.head; rw [hq] at hc'; simp only [List.cons.injEq] at hc'; rw [← hc'.1] at hc; simp [NumChar, Digit] at hc
    | _ => simp only [List.cons.injEq] at hc'; rw [← hc'.1] at hc; simp [NumChar, Digit] at hc
  cases hv with
  | num hd =>
    have ht := num_all hd hr h' e
    obtain ⟨cS, sS, rfl, hcS, -⟩ := brk_head hb
    refine ⟨?_, .num _ _⟩
    obtain ⟨x, hx⟩ := run_prefix hcS ht e.symm
    cases R with
    | nil =>
      exfalso
      have := congrArg List.length e
      rw [hx] at this
      simp at this
    | cons cR sR =>
      obtain ⟨y, hy⟩ := run_prefix (he d rfl cR sR rfl) hr e
      have h1 := congrArg List.length hx
      have h2 := congrArg List.length hy
      simp at h1 h2
      have : y = [] := List.eq_nil_of_length_eq_zero (by omega)
      rw [hy, this, List.append_nil]

theorem rows_cons (ind r r' : Bytes) (rs : List Bytes) : rows ind (r :: r' :: rs) = ind ++ (r ++ 0x2C :: 0x0A :: rows ind (r' :: rs)) := rfl

theorem rows_nul_free {ind : Bytes} (hi : (0 : Byte) ∉ ind) : ∀ rs : List Bytes, (∀ r ∈ rs, (0 : Byte) ∉ r) → (0 : Byte) ∉ rows ind rs
  | [], _ => by simp [rows]
  | [r], h => by have := h r (by simp); simp [rows, hi, this]
  | r :: r' :: rs, h => by
    have h1 := h r (by simp)
    have ih := rows_nul_free hi (r' :: rs) fun q hq => h q (by simp only [List.mem_cons] at *; exact .inr hq)
    rw [rows_cons]
    simp [hi, h1, ih]

/-- One row of an array: what follows the value is what follows the row. -/
theorem row_value {N : NumOps D} {ind w1 tok X r rest : Bytes} {a : Value D} {j : J} (hi : Ws ind) (hf : Fits N r a) (h1 : Ws w1)
    (hv : DVal tok j) (e : w1 ++ (tok ++ X) = ind ++ (r ++ rest)) (hb : Brk rest) (he : Ends j X) :
    w1 = ind ∧ tok = r ∧ X = rest ∧ SameShape a (interp N j) := by
  obtain ⟨c, u, hc', hc, -⟩ := val_head hv
  obtain ⟨c', s, hs, hw, -⟩ := hf.head
  obtain ⟨e1, e2, e3⟩ := ws_first (x := c) (y := c') (l := u ++ X) (m := s ++ rest) h1 hi (nws hc) (nws hw) (by rw [hc', hs] at e; simpa using e)
  have e4 : tok ++ X = r ++ rest := by rw [hc', hs, e2]; simp [e3]
  obtain ⟨e5, h⟩ := hf.fit tok j X rest hv e4 hb he
  subst e5
  exact ⟨e1, rfl, List.append_cancel_left e4, h⟩

theorem ws_sep {w w' R S : Bytes} {x y : Byte} (hw : Ws w) (hw' : Ws w') (hx : ¬ Ws [x]) (hy : ¬ Ws [y]) (hne : x ≠ y)
    (e : w ++ x :: R = w' ++ y :: S) : False := hne (ws_first hw hw' hx hy e).2.1

/-- The elements that make up rows are the rows. -/
theorem elems_fit (N : NumOps D) {ind end_ : Bytes} (hi : Ws ind) (hend : Ws end_) (num : Dec → Bytes) (u : Bytes) : ∀ (l : JL),
    (∀ i j, l.get i = some j → Fits N (j.layout num u ind) (interp N j)) → ∀ (lays : List Bytes), lays = l.layouts num u ind → lays ≠ [] →
    ∀ {t : Bytes} {L : JL} (R S : Bytes), Elems DialNum DialStr t L →
    t ++ 0x5D :: R = 0x0A :: (rows ind lays ++ (end_ ++ 0x5D :: S)) →
    t = 0x0A :: (rows ind lays ++ end_) ∧ (interpL N l).length = (interpL N L).length ∧
      ∀ (i : Nat) a b, (interpL N l)[i]? = some a → (interpL N L)[i]? = some b → SameShape a b
  | .nil, _, _, e, hne, _, _, _, _, _, _ => absurd (by simpa [JL.layouts] using e) hne
  | .cons j0 l, hf, lays, hl, _, t, L, R, S, h, e => by
    have hnl : Ws (0x0A :: ind) := by simpa [Ws] using hi
    have hne : Ws (0x0A :: end_) := by simpa [Ws] using hend
    have f0 := hf 0 j0 rfl
    have fl : ∀ i j, l.get i = some j → Fits N (j.layout num u ind) (interp N j) := fun i j hj => hf (i + 1) j hj
    cases h with
    | one h1 hv h2 =>
      rename_i w1 tok w2 j
      cases l with
      | nil =>
        simp only [JL.layouts] at hl
        subst hl
        obtain ⟨e1, e2, e3, hs⟩ := row_value (X := w2 ++ 0x5D :: R) (rest := 0x0A :: (end_ ++ 0x5D :: S)) hnl f0 h1 hv
          (by simpa [rows] using e) ⟨[], _, rfl, .inl rfl⟩ (ends_blank h2 (by simp [NumChar, Digit]) _)
        obtain ⟨e4, -, -⟩ := ws_first (b := 0x0A :: end_) (x := 0x5D) (y := 0x5D) h2 hne (by simp [Ws]) (by simp [Ws]) (by simpa using e3)
        refine ⟨by rw [e1, e2, e4]; simp [rows], rfl, ?_⟩
        intro i a b ha hb
        cases i with
        | zero => simp [interpL] at ha hb; rw [← ha, ← hb]; exact hs
        | succ i => simp [interpL] at ha
      | cons j1 l =>
        exfalso
        simp only [JL.layouts] at hl
        subst hl
        obtain ⟨e1, e2, e3, hs⟩ := row_value (X := w2 ++ 0x5D :: R) hnl f0 h1 hv
          (by simpa [rows_cons] using e) ⟨[0x2C], _, rfl, .inr rfl⟩ (ends_blank h2 (by simp [NumChar, Digit]) _)
        exact ws_sep (w' := []) (x := 0x5D) (y := 0x2C) h2 Ws.nil (by simp [Ws]) (by simp [Ws]) (by decide) e3
    | cons h1 hv h2 hL =>
      rename_i w1 tok w2 j ts L
      cases l with
      | nil =>
        exfalso
        simp only [JL.layouts] at hl
        subst hl
        obtain ⟨e1, e2, e3, hs⟩ := row_value (X := w2 ++ 0x2C :: (ts ++ 0x5D :: R)) (rest := 0x0A :: (end_ ++ 0x5D :: S)) hnl f0 h1 hv
          (by simpa [rows] using e) ⟨[], _, rfl, .inl rfl⟩ (ends_blank h2 (by simp [NumChar, Digit]) _)
        exact ws_sep (w' := 0x0A :: end_) (x := 0x2C) (y := 0x5D) h2 hne (by simp [Ws]) (by simp [Ws]) (by decide) (by simpa using e3)
      | cons j1 l =>
        simp only [JL.layouts] at hl
        subst hl
        obtain ⟨e1, e2, e3, hs⟩ := row_value (X := w2 ++ 0x2C :: (ts ++ 0x5D :: R)) hnl f0 h1 hv
          (by simpa [rows_cons] using e) ⟨[0x2C], _, rfl, .inr rfl⟩ (ends_blank h2 (by simp [NumChar, Digit]) _)
        obtain ⟨e4, -, e5⟩ := ws_first (b := []) (x := 0x2C) (y := 0x2C) h2 Ws.nil (by simp [Ws]) (by simp [Ws]) e3
        obtain ⟨i1, i2, i3⟩ := elems_fit N hi hend num u (.cons j1 l) fl _ rfl (by simp [JL.layouts]) R S hL e5
        refine ⟨by rw [e1, e2, e4, i1]; simp [rows_cons, JL.layouts], ?_, ?_⟩
        · rw [interpL, List.length_cons, i2]; simp [interpL]
        · intro i a b ha hb
          cases i with
          | zero => simp [interpL] at ha hb; rw [← ha, ← hb]; exact hs
          | succ i =>
            rw [interpL, List.getElem?_cons_succ] at ha hb
            exact i3 i a b ha hb

/-- The members that make up rows are the rows. `body k` is what is written for the name `k`, and `A k` the value it stands for. -/
theorem members_fit (N : NumOps D) {ind end_ : Bytes} (hi : Ws ind) (hend : Ws end_) (body : Bytes → Bytes) (A : Bytes → Value D) :
    ∀ (ks : List Bytes), ks ≠ [] → (∀ k ∈ ks, ReadableText k ∧ Fits N (body k) (A k)) →
    ∀ {t : Bytes} {M : JM} (R S : Bytes), Members DialNum DialStr t M →
    t ++ 0x7D :: R = 0x0A :: (rows ind (ks.map fun k => 0x22 :: (k ++ 0x22 :: 0x20 :: 0x3A :: 0x20 :: body k)) ++ (end_ ++ 0x7D :: S)) →
    t = 0x0A :: (rows ind (ks.map fun k => 0x22 :: (k ++ 0x22 :: 0x20 :: 0x3A :: 0x20 :: body k)) ++ end_) ∧ M.names = ks ∧
      ∀ k b, M.first k = some b → SameShape (A k) (interp N b)
  | [], h, _, _, _, _, _, _, _ => absurd rfl h
  | k :: ks, _, hf, t, M, R, S, h, e => by
    have hnl : Ws (0x0A :: ind) := by simpa [Ws] using hi
    have hne : Ws (0x0A :: end_) := by simpa [Ws] using hend
    have hsp : Ws [0x20] := by simp [Ws]
    obtain ⟨hk, f0⟩ := hf k (by simp)
    have fl : ∀ k ∈ ks, ReadableText k ∧ Fits N (body k) (A k) := fun k hk => hf k (by simp [hk])
    have key : ∀ (w1 n w2 w3 tok X rest s : Bytes) (j : J), Ws w1 → DialStr n s → Ws w2 → Ws w3 → DVal tok j →
        w1 ++ (n ++ (w2 ++ 0x3A :: (w3 ++ (tok ++ X)))) =
          (0x0A :: ind) ++ (0x22 :: (k ++ 0x22 :: 0x20 :: 0x3A :: 0x20 :: (body k ++ rest))) → Brk rest → Ends j X →
        w1 = 0x0A :: ind ∧ n = 0x22 :: (k ++ [0x22]) ∧ w2 = [0x20] ∧ w3 = [0x20] ∧ tok = body k ∧ s = k ∧ X = rest ∧
          SameShape (A k) (interp N j) := by
      intro w1 n w2 w3 tok X rest s j h1 hn h2 h3 hv e hb he
      obtain ⟨q, hq⟩ := hn.head
      obtain ⟨e1, -, e⟩ := ws_first (x := 0x22) (y := 0x22) h1 hnl (by simp [Ws]) (by simp [Ws]) (by rw [hq] at e; simpa using e)
      obtain ⟨e2, e⟩ := token_end (rest := w2 ++ 0x3A :: (w3 ++ (tok ++ X))) (q := k) (more := 0x20 :: 0x3A :: 0x20 :: (body k ++ rest)) hn
        (plain_of hk).1 (.inl (plain_of hk).2) (by rw [hq]; simpa using e)
      obtain ⟨e3, -, e⟩ := ws_first (b := [0x20]) (x := 0x3A) (y := 0x3A) h2 hsp (by simp [Ws]) (by simp [Ws]) (by simpa using e)
      obtain ⟨e4, e5, e6, hs⟩ := row_value (X := X) (rest := rest) hsp f0 h3 hv (by simpa using e) hb he
      rw [e2] at hn
      exact ⟨e1, e2, e3, e4, e5, readable_value hk hn, e6, hs⟩
    cases h with
    | one h1 hn h2 h3 hv h4 =>
      rename_i w1 n w2 w3 tok w4 s j
      cases ks with
      | nil =>
        obtain ⟨rfl, rfl, rfl, rfl, rfl, rfl, e3, hs⟩ := key _ _ _ _ _ (w4 ++ 0x7D :: R) (0x0A :: (end_ ++ 0x7D :: S)) _ _ h1 hn h2 h3 hv
          (by simpa [rows] using e) ⟨[], _, rfl, .inl rfl⟩ (ends_blank h4 (by simp [NumChar, Digit]) _)
        obtain ⟨e4, -, -⟩ := ws_first (b := 0x0A :: end_) (x := 0x7D) (y := 0x7D) h4 hne (by simp [Ws]) (by simp [Ws]) (by simpa using e3)
        refine ⟨by rw [e4]; simp [rows], rfl, ?_⟩
        intro k b hb
        simp only [JM.first] at hb
        split at hb
        · rename_i h; subst h; simp only [Option.some.injEq] at hb; rw [← hb]; exact hs
        · exact nomatch hb
      | cons k1 ks =>
        exfalso
        obtain ⟨rfl, rfl, rfl, rfl, rfl, rfl, e3, hs⟩ := key _ _ _ _ _ (w4 ++ 0x7D :: R) (0x2C :: 0x0A :: (rows ind ((k1 :: ks).map fun k =>
            0x22 :: (k ++ 0x22 :: 0x20 :: 0x3A :: 0x20 :: body k)) ++ (end_ ++ 0x7D :: S))) _ _ h1 hn h2 h3 hv
          (by simpa [rows_cons] using e) ⟨[0x2C], _, rfl, .inr rfl⟩ (ends_blank h4 (by simp [NumChar, Digit]) _)
        exact ws_sep (w' := []) (x := 0x7D) (y := 0x2C) h4 Ws.nil (by simp [Ws]) (by simp [Ws]) (by decide) e3
    | cons h1 hn h2 h3 hv h4 hM =>
      rename_i w1 n w2 w3 tok w4 s j ts M
      cases ks with
      | nil =>
        exfalso
        obtain ⟨rfl, rfl, rfl, rfl, rfl, rfl, e3, hs⟩ := key _ _ _ _ _ (w4 ++ 0x2C :: (ts ++ 0x7D :: R)) (0x0A :: (end_ ++ 0x7D :: S)) _ _ h1 hn h2
          h3 hv (by simpa [rows] using e) ⟨[], _, rfl, .inl rfl⟩ (ends_blank h4 (by simp [NumChar, Digit]) _)
        exact ws_sep (w' := 0x0A :: end_) (x := 0x2C) (y := 0x7D) h4 hne (by simp [Ws]) (by simp [Ws]) (by decide) (by simpa using e3)
      | cons k1 ks =>
        obtain ⟨rfl, rfl, rfl, rfl, rfl, rfl, e3, hs⟩ := key _ _ _ _ _ (w4 ++ 0x2C :: (ts ++ 0x7D :: R)) (0x2C :: 0x0A :: (rows ind
            ((k1 :: ks).map fun k => 0x22 :: (k ++ 0x22 :: 0x20 :: 0x3A :: 0x20 :: body k)) ++ (end_ ++ 0x7D :: S))) _ _ h1 hn h2 h3 hv
          (by simpa [rows_cons] using e) ⟨[0x2C], _, rfl, .inr rfl⟩ (ends_blank h4 (by simp [NumChar, Digit]) _)
        obtain ⟨e4, -, e5⟩ := ws_first (b := []) (x := 0x2C) (y := 0x2C) h4 Ws.nil (by simp [Ws]) (by simp [Ws]) e3
        obtain ⟨i1, i2, i3⟩ := members_fit N hi hend body A (k1 :: ks) (by simp) fl R S hM e5
        refine ⟨by rw [e4, i1]; simp [rows_cons], by rw [JM.names, i2], ?_⟩
        intro k b hb
        simp only [JM.first] at hb
        split at hb
        · rename_i h; subst h; simp only [Option.some.injEq] at hb; rw [← hb]; exact hs
        · exact i3 k b hb

theorem layouts_names (num : Dec → Bytes) (u ind : Bytes) (f : Bytes → Bytes) (m : JM) :
    (m.layouts num u ind).map (fun e => f e.1) = m.names.map f := by
  induction m using jm_ind with
  | nil => rfl
  | cons k j m ih => simp [JM.layouts, JM.names, ih]

theorem fits_arr (N : NumOps D) (num : Dec → Bytes) {u ind : Bytes} (hu : Ws u) (hi : Ws ind) (l : JL)
    (h : ∀ i j, l.get i = some j → Fits N (j.layout num u (ind ++ u)) (interp N j)) (hz : ∀ r ∈ l.layouts num u (ind ++ u), (0 : Byte) ∉ r) :
    Fits N (J.layout num u ind (.arr l)) (interp N (.arr l)) := by
  have hw : Ws (ind ++ u) := hi.append hu
  have nl : Ws (0x0A :: ind) := by simpa [Ws] using hi
  refine ⟨⟨_, _, by rw [J.layout], by decide, by decide⟩, ?_, fun tok j R S hv e hb hends => ?_⟩
  · have := rows_nul_free hw.nul_free _ hz
    have := hi.nul_free
    simp only [J.layout, List.mem_cons, List.mem_append, not_or]
    exact ⟨by decide, by decide, by assumption, by assumption, by decide, by simp⟩
  · obtain ⟨c, v, hc', -⟩ := val_head hv
    have hc := e
    rw [hc', J.layout] at hc
    simp only [List.cons_append, List.cons.injEq] at hc
    obtain ⟨rfl, hc⟩ := hc
    have hq := val_quote hv hc' (by decide) (by simp [NumChar, Digit])
    cases hv with
    | num _ => exact absurd rfl (hq.2 _)
    | str _ => exact absurd rfl (hq.1 _)
    | @arrEmpty w hw' =>
      rw [J.layout] at e ⊢
      cases l with
      | nil =>
        obtain ⟨e1, -, -⟩ := ws_first (a := w) (b := 0x0A :: ind) (x := 0x5D) (y := 0x5D) hw' nl (by simp [Ws]) (by simp [Ws])
          (by simpa [JL.layouts, rows] using e)
        refine ⟨by simp [e1, JL.layouts, rows], ?_⟩
        exact .arr rfl (by intro i a b ha; simp [interpL] at ha)
      | cons j l =>
        exfalso
        obtain ⟨c, s, hs, hcw, hcn⟩ := (h 0 j rfl).head
        have hstart : ∃ X, 0x0A :: (rows (ind ++ u) (JL.layouts num u (ind ++ u) (.cons j l)) ++ (ind ++ 0x5D :: S)) =
            (0x0A :: (ind ++ u)) ++ c :: X := by
          cases l with
          | nil => exact ⟨_, by simp only [JL.layouts, rows, hs]; simp; rfl⟩
          | cons j' l => exact ⟨_, by simp only [JL.layouts, rows, hs]; simp; rfl⟩
        obtain ⟨X, hX⟩ := hstart
        have e' : w ++ 0x5D :: R = (0x0A :: (ind ++ u)) ++ c :: X := by rw [← hX]; simpa using e
        obtain ⟨-, hx, -⟩ := ws_first (x := 0x5D) (y := c) hw' (by simpa [Ws] using hw) (by simp [Ws]) (nws hcw) e'
        exact hcn hx.symm
    | @arr t L hL =>
      rw [J.layout] at e ⊢
      cases l with
      | nil =>
        exfalso
        have key : ∀ (w1 tok r : Bytes) (j : J), Ws w1 → DVal tok j → w1 ++ (tok ++ r) = 0x0A :: (ind ++ 0x5D :: S) → False := by
          intro w1 tok r j h1 hv e
          obtain ⟨c, u, rfl, hc, h5⟩ := val_head hv
          exact h5.1 (ws_first (b := 0x0A :: ind) (x := c) (y := 0x5D) h1 nl (nws hc) (by simp [Ws]) (by simpa using e)).2.1
        cases hL with
        | one h1 hv h2 => exact key _ _ _ _ h1 hv (by simpa [JL.layouts, rows] using e)
        | cons h1 hv h2 hl => exact key _ _ _ _ h1 hv (by simpa [JL.layouts, rows] using e)
      | cons j l =>
        obtain ⟨e1, e2, e3⟩ := elems_fit N hw hi num u (.cons j l) h _ rfl (by simp [JL.layouts]) R S hL (by simpa using e)
        exact ⟨by rw [e1]; simp, .arr e2 e3⟩
    | _ => simp at hc'

theorem names_of_first {m : JM} {k : Bytes} : k ∈ m.names ↔ ∃ j, m.first k = some j := by
  rw [← first_isSome, Option.isSome_iff_exists]

theorem fits_obj (N : NumOps D) (num : Dec → Bytes) {u ind : Bytes} (hu : Ws u) (hi : Ws ind) (m : JM) (hn : ∀ k ∈ m.names, ReadableText k)
    (h : ∀ k j, m.first k = some j → Fits N (j.layout num u (ind ++ u)) (interp N j)) :
    Fits N (J.layout num u ind (.obj m)) (interp N (.obj m)) := by
  have hw : Ws (ind ++ u) := hi.append hu
  have nl : Ws (0x0A :: ind) := by simpa [Ws] using hi
  let body : Bytes → Bytes := fun k => firstRow k (m.layouts num u (ind ++ u))
  let A : Bytes → Value D := fun k => ((m.first k).map (interp N)).getD .null
  have hf : ∀ k ∈ m.names, ReadableText k ∧ Fits N (body k) (A k) := by
    intro k hk
    obtain ⟨j, hj⟩ := names_of_first.1 hk
    refine ⟨hn k hk, ?_⟩
    have e1 : body k = j.layout num u (ind ++ u) := firstRow_layouts num u (ind ++ u) m k j hj
    have e2 : A k = interp N j := by simp [A, hj]
    rw [e1, e2]
    exact h k j hj
  have lay : J.layout num u ind (.obj m) = 0x7B :: 0x0A :: (rows (ind ++ u) (m.names.map fun k =>
      0x22 :: (k ++ 0x22 :: 0x20 :: 0x3A :: 0x20 :: body k)) ++ (ind ++ [0x7D])) := by
    rw [J.layout]
    simp only [layouts_names num u (ind ++ u) (fun k => 0x22 :: (k ++ 0x22 :: 0x20 :: 0x3A :: 0x20 :: body k)) m, body]
  rw [lay]
  refine ⟨⟨_, _, rfl, by decide, by decide⟩, ?_, fun tok j R S hv e hb hends => ?_⟩
  · have h1 := rows_nul_free hw.nul_free (m.names.map fun k => 0x22 :: (k ++ 0x22 :: 0x20 :: 0x3A :: 0x20 :: body k)) (by
      intro r hr
      simp only [List.mem_map] at hr
      obtain ⟨k, hk, rfl⟩ := hr
      have := (hf k hk).1.nul_free
      have := (hf k hk).2.nul
      simp [*])
    have h2 := hi.nul_free
    simp only [List.mem_cons, List.mem_append, not_or]
    exact ⟨by decide, by decide, h1, h2, by decide, by simp⟩
  · obtain ⟨c, v, hc', -⟩ := val_head hv
    have hc := e
    rw [hc'] at hc
    simp only [List.cons_append, List.cons.injEq] at hc
    obtain ⟨rfl, hc⟩ := hc
    have hq := val_quote hv hc' (by decide) (by simp [NumChar, Digit])
    have shape : ∀ M : JM, M.names = m.names → (∀ k b, M.first k = some b → SameShape (A k) (interp N b)) →
        SameShape (interp N (.obj m)) (interp N (.obj M)) := by
      intro M e1 e2
      rw [interp, interp, e1]
      refine .obj ?_ ?_
      · intro k
        have : (m.first k).isSome = (M.first k).isSome := by
          have h1 := first_isSome (m := m) (k := k)
          have h2 := first_isSome (m := M) (k := k)
          rw [e1] at h2
          exact Bool.eq_iff_iff.2 (h1.trans h2.symm)
        rw [find_interpM, find_interpM]
        simpa using this
      · intro k k1 k2 a b ha hb
        rw [find_interpM] at ha hb
        simp only [Option.map_eq_some_iff, Prod.mk.injEq] at ha hb
        obtain ⟨ja, hja, -, rfl⟩ := ha
        obtain ⟨jb, hjb, -, rfl⟩ := hb
        have := e2 k jb hjb
        simpa [A, hja] using this
    cases hv with
    | num _ => exact absurd rfl (hq.2 _)
    | str _ => exact absurd rfl (hq.1 _)
    | @objEmpty w hw' =>
      generalize hks : m.names = ks at e
      cases ks with
      | nil =>
        obtain ⟨e1, -, -⟩ := ws_first (a := w) (b := 0x0A :: ind) (x := 0x7D) (y := 0x7D) hw' nl (by simp [Ws]) (by simp [Ws])
          (by simpa [rows] using e)
        exact ⟨by simp [e1, rows], shape .nil (by rw [hks]; rfl) (by intro k b hb; simp [JM.first] at hb)⟩
      | cons k ks =>
        exfalso
        have hstart : ∃ X, 0x0A :: (rows (ind ++ u) ((k :: ks).map fun k => 0x22 :: (k ++ 0x22 :: 0x20 :: 0x3A :: 0x20 :: body k)) ++
            (ind ++ 0x7D :: S)) = (0x0A :: (ind ++ u)) ++ 0x22 :: X := by
          cases ks with
          | nil => exact ⟨_, by simp only [List.map_cons, List.map_nil, rows]; simp; rfl⟩
          | cons j' l => exact ⟨_, by simp only [List.map_cons, rows]; simp; rfl⟩
        obtain ⟨X, hX⟩ := hstart
        have e' : w ++ 0x7D :: R = (0x0A :: (ind ++ u)) ++ 0x22 :: X := by rw [← hX]; simpa using e
        exact ws_sep hw' (by simpa [Ws] using hw) (by simp [Ws]) (by simp [Ws]) (by decide) e'
    | @obj t M hM =>
      generalize hks : m.names = ks at e
      cases ks with
      | nil =>
        exfalso
        have key : ∀ (w1 n r s : Bytes), Ws w1 → DialStr n s → w1 ++ (n ++ r) = 0x0A :: (ind ++ 0x7D :: S) → False := by
          intro w1 n r s h1 hn e
          obtain ⟨q, hq⟩ := hn.head
          rw [hq] at e
          exact ws_sep (x := 0x22) (y := 0x7D) (R := q ++ r) h1 nl (by simp [Ws]) (by simp [Ws]) (by decide) (by simpa using e)
        cases hM with
        | one h1 hn h2 h3 hv h4 => exact key _ _ _ _ h1 hn (by simpa [rows] using e)
        | cons h1 hn h2 h3 hv h4 hl => exact key _ _ _ _ h1 hn (by simpa [rows] using e)
      | cons k ks =>
        rw [hks] at hf
        obtain ⟨e1, e2, e3⟩ := members_fit N hw hi body A (k :: ks) (by simp) hf R S hM (by simpa using e)
        exact ⟨by rw [e1]; simp, shape M (by rw [e2, hks]) e3⟩
    | _ => simp at hc'

/-- No value begins with `i`. -/
theorem not_i {tok R S : Bytes} {j : J} (h : DVal tok j) (e : tok ++ R = 0x69 :: S) : False := by
  obtain ⟨c, u, hc', -⟩ := val_head h
  rw [hc'] at e
  simp only [List.cons_append, List.cons.injEq] at e
  obtain ⟨rfl, -⟩ := e
  cases h with
  | num h => obtain ⟨c, s, hs, hc⟩ := dialNum_head h; rw [hs] at hc'; simp only [List.cons.injEq] at hc'; rw [hc'.1] at hc; simp [NumChar, Digit] at hc
  | str h => obtain ⟨q, hq⟩ := h.head; rw [hq] at hc'; simp at hc'
  | _ => simp at hc'

/-- No value begins with `-i`. -/
theorem not_minus_i {tok R S : Bytes} {j : J} (h : DVal tok j) (e : tok ++ R = 0x2D :: 0x69 :: S) : False := by
  obtain ⟨c, u, hc', -⟩ := val_head h
  have e' := e
  rw [hc'] at e
  simp only [List.cons_append, List.cons.injEq] at e
  obtain ⟨rfl, -⟩ := e
  cases h with
  | num h =>
    cases h with
    | plain h1 h2 h3 h4 => exact h4 u hc'
    | plus => simp at hc'
    | @minus w run _ _ _ hw h1 h2 =>
      simp only [List.cons_append, List.cons.injEq, true_and] at e'
      cases w with
      | cons x w =>
        simp only [List.cons_append, List.cons.injEq] at e'
        have := hw x (by simp)
        rw [e'.1] at this
        simp at this
      | nil =>
        cases run with
        | nil => exact longest_ne_nil h2 rfl
        | cons x run =>
          simp only [List.nil_append, List.cons_append, List.cons.injEq] at e'
          have := h1 x (by simp)
          rw [e'.1] at this
          simp [NumChar, Digit] at this
  | str h => obtain ⟨q, hq⟩ := h.head; rw [hq] at hc'; simp at hc'
  | _ => simp at hc'

theorem fits_num (N : NumOps D) {r : Bytes} (h : IsNumber r) (x : D) : Fits N r (.num x) := by
  rcases h with h | rfl | rfl
  · exact fits_digits N h x
  · exact ⟨⟨_, _, rfl, by decide, by decide⟩, by decide, fun tok j R S hv e _ _ => (not_i hv e).elim⟩
  · exact ⟨⟨_, _, rfl, by decide, by decide⟩, by decide, fun tok j R S hv e _ _ => (not_minus_i hv e).elim⟩

mutual
/-- Every document with tame texts fits its layout. -/
theorem fits_layout (N : NumOps D) (num : Dec → Bytes) (hn : ∀ d, IsNumber (num d)) {u : Bytes} (hu : Ws u) : ∀ (j : J) {ind : Bytes}, Ws ind → j.Tame →
    (∀ s ∈ j.strs, (0 : Byte) ∉ s) → Fits N (j.layout num u ind) (interp N j)
  | .null, _, _, _, _ => by rw [J.layout]; exact fits_word N (.inl ⟨rfl, rfl⟩)
  | .bool true, _, _, _, _ => by rw [J.layout]; exact fits_word N (.inr (.inl ⟨rfl, rfl⟩))
  | .bool false, _, _, _, _ => by rw [J.layout]; exact fits_word N (.inr (.inr ⟨rfl, rfl⟩))
  | .num d, _, _, _, _ => by rw [J.layout, interp]; exact fits_num N (hn d) _
  | .str s, _, _, h, hz => by
    rw [J.layout, interp]
    exact fits_str N (by simpa [J.Tame] using h) (hz s (by simp [J.strs]))
  | .arr l, ind, hi, h, hz => by
    have hl := fits_layouts N num hn hu l (hi.append hu) (by simpa [J.Tame] using h) (by simpa [J.strs] using hz)
    exact fits_arr N num hu hi l hl.1 hl.2
  | .obj m, ind, hi, h, hz => by
    have hm := fits_rows N num hn hu m (hi.append hu) (by simpa [J.Tame] using h) (by simpa [J.strs] using hz)
    exact fits_obj N num hu hi m hm.1 hm.2
theorem fits_layouts (N : NumOps D) (num : Dec → Bytes) (hn : ∀ d, IsNumber (num d)) {u : Bytes} (hu : Ws u) : ∀ (l : JL) {ind : Bytes}, Ws ind → l.Tame →
    (∀ s ∈ l.strs, (0 : Byte) ∉ s) →
    (∀ i j, l.get i = some j → Fits N (j.layout num u ind) (interp N j)) ∧ ∀ r ∈ l.layouts num u ind, (0 : Byte) ∉ r
  | .nil, _, _, _, _ => ⟨by intro i j h; simp [JL.get] at h, by simp [JL.layouts]⟩
  | .cons j l, ind, hi, h, hz => by
    simp only [JL.Tame] at h
    simp only [JL.strs, List.mem_append] at hz
    have h1 := fits_layout N num hn hu j hi h.1 fun s hs => hz s (.inl hs)
    have h2 := fits_layouts N num hn hu l hi h.2 fun s hs => hz s (.inr hs)
    refine ⟨?_, ?_⟩
    · intro i j' hj
      cases i with
      | zero => simp only [JL.get, Option.some.injEq] at hj; rw [← hj]; exact h1
      | succ i => exact h2.1 i j' hj
    · intro r hr
      simp only [JL.layouts, List.mem_cons] at hr
      rcases hr with rfl | hr
      · exact h1.nul
      · exact h2.2 r hr
theorem fits_rows (N : NumOps D) (num : Dec → Bytes) (hn : ∀ d, IsNumber (num d)) {u : Bytes} (hu : Ws u) : ∀ (m : JM) {ind : Bytes}, Ws ind → m.Tame →
    (∀ s ∈ m.strs, (0 : Byte) ∉ s) →
    (∀ k ∈ m.names, ReadableText k) ∧ ∀ k j, m.first k = some j → Fits N (j.layout num u ind) (interp N j)
  | .nil, _, _, _, _ => ⟨by simp [JM.names], by intro k j h; simp [JM.first] at h⟩
  | .cons k j m, ind, hi, h, hz => by
    simp only [JM.Tame] at h
    have h1 := fits_layout N num hn hu j hi h.2.1 fun s hs => hz s (by simp [JM.strs, hs])
    have h2 := fits_rows N num hn hu m hi h.2.2 fun s hs => hz s (by simp [JM.strs, hs])
    refine ⟨?_, ?_⟩
    · intro k' hk
      simp only [JM.names, List.mem_cons] at hk
      rcases hk with rfl | hk
      · exact h.1
      · exact h2.1 k' hk
    · intro k' j' hj
      simp only [JM.first] at hj
      split at hj
      · simp only [Option.some.injEq] at hj; rw [← hj]; exact h1
      · exact h2.2 k' j' hj
end

end Verif.Parser
