import Verif.Lemmas.NoQuote
import Verif.Props.NotFinite

/-!
# Counting the elements of a file

The file of an array of texts, and two counts over the texts of the grammar that bound the number of elements (used by C185).
-/

namespace Verif.Parser

open Verif Verif.Map Verif.Text Verif.Number Verif.Doc Verif.Write Verif.Serial Verif.Spec

variable {D : Type}

/-- The lines of the file of an array of texts. -/
def lines (ind : Bytes) : List Bytes → Bytes
  | [] => []
  | p :: ps => ind ++ 0x22 :: (p ++ 0x22 :: ((if ps.isEmpty then [] else [0x2C]) ++ 0x0A :: lines ind ps))

theorem writeElems_strs (N : NumOps D) (il : Nat) (ic : Byte) (n : Nat) (ind : Bytes) : ∀ l : List Bytes, (∀ p ∈ l, (0 : Byte) ∉ p) →
    ∃ ch, writeElems (writeValue N il ic (n + 1)) (l.map .str) ind = .ok ⟨.kOk, ch, ind⟩ ∧ ch.flatten = lines ind l
  | [], _ => ⟨[], rfl, rfl⟩
  | p :: ps, h => by
    obtain ⟨ch, e, f⟩ := writeElems_strs N il ic n ind ps fun q hq => h q (by simp [hq])
    have ws : writeValue N il ic (n + 1) ind (.str p) = .ok ⟨.kOk, [[0x22], cText p, [0x22]], ind⟩ := rfl
    simp only [List.map_cons, writeElems, ws, Out.ok_bind, e, cText_nul_free (h p (by simp))]
    refine ⟨_, rfl, ?_⟩
    simp [lines, f, apply_ite]

/-- The file of an array of texts. -/
theorem emits_strs (N : NumOps D) (il : Nat) (ic : Byte) (l : List Bytes) (h : ∀ p ∈ l, (0 : Byte) ∉ p) :
    Props.Emits N il ic (.arr (l.map .str)) (0x5B :: 0x0A :: (lines (List.replicate il ic) l ++ [0x5D])) := by
  obtain ⟨ch, e, f⟩ := writeElems_strs N il ic 0 (List.replicate il ic) l h
  refine ⟨2, ⟨.kOk, [0x5B, 0x0A] :: (ch ++ [[], [0x5D]]), []⟩, ?_, rfl, by simp [f]⟩
  rw [writeValue]
  simp [e]

theorem lines_nul_free {ind : Bytes} (hi : (0 : Byte) ∉ ind) : ∀ l : List Bytes, (∀ p ∈ l, (0 : Byte) ∉ p) → (0 : Byte) ∉ lines ind l
  | [], _ => by simp [lines]
  | p :: ps, h => by
    have := lines_nul_free hi ps fun q hq => h q (by simp [hq])
    have := h p (by simp)
    cases ps <;> simp_all [lines]

/-- How often a comma is followed by a line break. -/
def pairs : Bytes → Nat
  | [] => 0
  | a :: r => (if a = 0x2C ∧ r.head? = some 0x0A then 1 else 0) + pairs r

theorem pairs_skip : ∀ (a r : Bytes), (0x2C : Byte) ∉ a → pairs (a ++ r) = pairs r
  | [], _, _ => rfl
  | x :: a, r, h => by
    simp only [List.mem_cons, not_or] at h
    have := pairs_skip a r h.2
    simp [pairs, this, Ne.symm h.1]

theorem pairs_le : ∀ (a r : Bytes), pairs r ≤ pairs (a ++ r)
  | [], _ => Nat.le_refl _
  | x :: a, r => by
    have := pairs_le a r
    simp only [List.cons_append, pairs]
    omega

theorem pairs_line : ∀ (a r : Bytes), (0x0A : Byte) ∉ a → pairs (a ++ 0x22 :: r) = pairs r
  | [], _, _ => by simp [pairs]
  | x :: a, r, h => by
    simp only [List.mem_cons, not_or] at h
    have ih := pairs_line a r h.2
    have : (a ++ 0x22 :: r).head? ≠ some 0x0A := by
      cases a with
      | nil => simp
      | cons y a => simp only [List.mem_cons, not_or] at h; simpa using Ne.symm h.2.1
    rw [List.cons_append, pairs, ih, if_neg (fun h => this h.2), Nat.zero_add]

theorem dialStr_break {t s : Bytes} (h : DialStr t s) : ∃ b, t = 0x22 :: (b ++ [0x22]) ∧ (0x0A : Byte) ∉ b := by
  obtain ⟨items, hi, rfl, -⟩ := h
  refine ⟨_, rfl, ?_⟩
  simp only [List.mem_flatten, List.mem_map, not_exists, not_and]
  rintro _ ⟨i, him, rfl⟩
  exact item_break (hi i him)

theorem ws_comma {w : Bytes} (h : Ws w) : (0x2C : Byte) ∉ w := fun hm => by simpa using h _ hm

theorem ws_quote {w : Bytes} (h : Ws w) : (0x22 : Byte) ∉ w := fun hm => by simpa using h _ hm

theorem tok_pairs {t s : Bytes} (h : DialStr t s) (r : Bytes) : pairs (t ++ r) = pairs r := by
  obtain ⟨b, rfl, hb⟩ := dialStr_break h
  have := pairs_line (0x22 :: b) r (by simp [hb])
  simpa using this

theorem tok_quotes {t s : Bytes} (h : DialStr t s) : 2 ≤ t.count 0x22 := by
  obtain ⟨b, rfl, -⟩ := dialStr_break h
  simp only [List.count_cons, List.count_append, beq_self_eq_true, if_true, List.count_nil]
  omega

theorem interp_str {N : NumOps D} {j : J} {s : Bytes} (h : interp N j = .str s) : j = .str s := by
  cases j <;> simp_all [interp]

/-- Elements that are all texts: each but the last is followed by a comma that can be followed by a line break, and there are two quotation
marks at each. -/
theorem elems_counts (N : NumOps D) : ∀ (x : List Bytes) {t : Bytes} {L : JL}, Elems DialNum DialStr t L → interpL N L = x.map .str →
    (∀ r, pairs (t ++ r) + 1 ≤ x.length + pairs r) ∧ 2 * x.length ≤ t.count 0x22
  | [], _, L, h, e => by
    cases h <;> simp [interpL] at e
  | s :: x, _, L, h, e => by
    cases h with
    | one h1 hv h2 =>
      simp only [interpL, List.map_cons, List.cons.injEq] at e
      have hj := interp_str e.1
      subst hj
      have hx : x = [] := by
        cases x with
        | nil => rfl
        | cons _ _ => simp at e
      subst hx
      cases hv with
      | str hs =>
        refine ⟨fun r => ?_, ?_⟩
        · rw [List.append_assoc, pairs_skip _ _ (ws_comma h1), List.append_assoc, tok_pairs hs, pairs_skip _ _ (ws_comma h2)]
          simp [Nat.add_comm]
        · have := tok_quotes hs
          simp only [List.count_append, List.length_cons, List.length_nil]
          omega
    | cons h1 hv h2 hl =>
      simp only [interpL, List.map_cons, List.cons.injEq] at e
      have hj := interp_str e.1
      subst hj
      obtain ⟨ih1, ih2⟩ := elems_counts N x hl e.2
      cases hv with
      | str hs =>
        refine ⟨fun r => ?_, ?_⟩
        · have := ih1 r
          rw [List.append_assoc, pairs_skip _ _ (ws_comma h1), List.append_assoc, tok_pairs hs, List.append_assoc,
            pairs_skip _ _ (ws_comma h2), List.cons_append, pairs, List.length_cons]
          split <;> omega
        · have := tok_quotes hs
          simp only [List.count_append, List.count_cons, List.length_cons]
          omega

theorem lines_pairs (ind : Bytes) : ∀ (l : List Bytes) (r : Bytes), l.length ≤ pairs (lines ind l ++ r) + 1
  | [], _ => by simp
  | [_], _ => by simp
  | p :: q :: ps, r => by
    have ih := lines_pairs ind (q :: ps) r
    have e : lines ind (p :: q :: ps) ++ r = (ind ++ 0x22 :: (p ++ [0x22])) ++ 0x2C :: 0x0A :: (lines ind (q :: ps) ++ r) := by
      simp [lines]
    rw [e]
    have := pairs_le (ind ++ 0x22 :: (p ++ [0x22])) (0x2C :: 0x0A :: (lines ind (q :: ps) ++ r))
    have e2 : pairs (0x2C :: 0x0A :: (lines ind (q :: ps) ++ r)) = 1 + pairs (lines ind (q :: ps) ++ r) := by
      simp [pairs]
    rw [List.length_cons]
    omega

theorem lines_quotes {ind : Bytes} (hi : (0x22 : Byte) ∉ ind) : ∀ (l : List Bytes), (∀ p ∈ l, (0x22 : Byte) ∉ p) →
    (lines ind l).count 0x22 = 2 * l.length
  | [], _ => by simp [lines]
  | p :: ps, h => by
    have ih := lines_quotes hi ps fun q hq => h q (by simp [hq])
    have h1 := List.count_eq_zero.2 hi
    have h2 := List.count_eq_zero.2 (h p (by simp))
    cases ps <;> simp_all [lines, List.count_append] <;> omega

theorem nws {x : Byte} (hx : isWs x = false) : ¬ Ws [x] := by
  intro h
  have := h x (by simp)
  rcases this with rfl | rfl | rfl | rfl <;> simp [isWs] at hx

/-- The texts as elements of a document. -/
def strs : List Bytes → JL
  | [] => .nil
  | s :: l => .cons (.str s) (strs l)

theorem interp_strs (N : NumOps D) : ∀ l, interpL N (strs l) = l.map .str
  | [] => rfl
  | s :: l => by simp [strs, interpL, interp, interp_strs N l]

/-- Texts one after the other with `","` between them. -/
def joined : List Bytes → Bytes
  | [] => []
  | [s] => s
  | s :: l => s ++ 0x22 :: 0x2C :: 0x22 :: joined l

theorem joined_nul_free : ∀ l : List Bytes, (∀ p ∈ l, (0 : Byte) ∉ p) → (0 : Byte) ∉ joined l
  | [], _ => by simp [joined]
  | [s], h => by simpa [joined] using h s (by simp)
  | s :: s' :: l, h => by
    have := joined_nul_free (s' :: l) fun q hq => h q (by simp only [List.mem_cons] at *; exact .inr hq)
    have := h s (by simp)
    simp_all [joined]

theorem token_of {s : Bytes} (h : ReadableText s) : DialStr (0x22 :: (s ++ [0x22])) s := by
  have := Props.readable_token h
  rwa [cText_nul_free h.nul_free] at this

/-- Each text is read as the one beside it. -/
inductive ReadAs : List Bytes → List Bytes → Prop
  | nil : ReadAs [] []
  | cons {p s l l'} : DialStr (0x22 :: (p ++ [0x22])) s → ReadAs l l' → ReadAs (p :: l) (s :: l')

theorem readAs_elems {ind : Bytes} (hi : Ws ind) : ∀ {l l' : List Bytes}, ReadAs l l' → l ≠ [] →
    Elems DialNum DialStr (0x0A :: lines ind l) (strs l')
  | _, _, .nil, h => absurd rfl h
  | _, _, .cons (l := []) h .nil, _ => by
    have hw : Ws (0x0A :: ind) := by simpa [Ws] using hi
    have := Elems.one (numTok := DialNum) hw (.str h) (w2 := [0x0A]) (by simp [Ws])
    simpa [lines, strs] using this
  | _, _, .cons (l := q :: l) h hl, _ => by
    have hw : Ws (0x0A :: ind) := by simpa [Ws] using hi
    have := Elems.cons (numTok := DialNum) hw (.str h) Ws.nil (readAs_elems hi hl (by simp))
    rw [lines]
    simpa [strs] using this

/-- Elements that make up the lines of texts without quotation marks are these texts. -/
theorem elems_readAs {ind : Bytes} (hi : Ws ind) : ∀ (l : List Bytes), (∀ p ∈ l, (0x22 : Byte) ∉ p) → ∀ {t : Bytes} {L : JL} (R S : Bytes),
    Elems DialNum DialStr t L → t ++ 0x5D :: R = 0x0A :: (lines ind l ++ 0x5D :: S) → ∃ l', ReadAs l l' ∧ L = strs l'
  | [], _, t, L, R, S, h, e => by
    exfalso
    have nl : Ws [0x0A] := by simp [Ws]
    have key : ∀ (w1 tok r : Bytes) (j : J), Ws w1 → DVal tok j → w1 ++ (tok ++ r) = 0x0A :: 0x5D :: S → False := by
      intro w1 tok r j h1 hv e
      obtain ⟨c, u, rfl, hc, h5⟩ := val_head hv
      obtain ⟨-, hx, -⟩ := ws_first (x := c) (y := 0x5D) h1 nl (nws hc) (by simp [Ws]) (by simpa using e)
      exact h5.1 hx
    cases h with
    | one h1 hv h2 => exact key _ _ _ _ h1 hv (by simpa [lines] using e)
    | cons h1 hv h2 hl => exact key _ _ _ _ h1 hv (by simpa [lines] using e)
  | p :: ps, hq, t, L, R, S, h, e => by
    have hw : Ws (0x0A :: ind) := by simpa [Ws] using hi
    have nl : Ws [0x0A] := by simp [Ws]
    have key : ∀ (w1 tok r : Bytes) (j : J), Ws w1 → DVal tok j → w1 ++ (tok ++ r) = 0x0A :: (lines ind (p :: ps) ++ 0x5D :: S) →
        ∃ s, j = .str s ∧ DialStr (0x22 :: (p ++ [0x22])) s ∧ r = (if ps.isEmpty then [] else [0x2C]) ++ 0x0A :: (lines ind ps ++ 0x5D :: S) := by
      intro w1 tok r j h1 hv e
      obtain ⟨c, u, hc', hc, -⟩ := val_head hv
      obtain ⟨-, hx, e⟩ := ws_first (x := c) (y := 0x22) h1 hw (nws hc) (by simp [Ws]) (by simpa [hc', lines] using e)
      subst hx
      obtain ⟨s, hs, hj⟩ := quote_value hv hc'
      obtain ⟨e1, e2⟩ := token_end (rest := r) (q := p) (more := (if ps.isEmpty then [] else [0x2C]) ++ 0x0A :: (lines ind ps ++ 0x5D :: S)) hs
        (hq p (by simp)) (.inr ⟨_, _, rfl, by split <;> simp⟩) (by rw [hc']; simpa using e)
      rw [e1] at hs
      exact ⟨s, hj, hs, e2⟩
    cases h with
    | one h1 hv h2 =>
      obtain ⟨s, rfl, hs, e⟩ := key _ _ _ _ h1 hv (by simpa using e)
      cases ps with
      | nil => exact ⟨[s], .cons hs .nil, rfl⟩
      | cons q ps =>
        have := ws_first (b := []) (x := 0x5D) (y := 0x2C) h2 Ws.nil (by simp [Ws]) (by simp [Ws]) (by simpa using e)
        exact absurd this.2.1 (by decide)
    | cons h1 hv h2 hl =>
      obtain ⟨s, rfl, hs, e⟩ := key _ _ _ _ h1 hv (by simpa using e)
      cases ps with
      | nil =>
        have := ws_first (b := [0x0A]) (x := 0x2C) (y := 0x5D) h2 nl (by simp [Ws]) (by simp [Ws]) (by simpa [lines] using e)
        exact absurd this.2.1 (by decide)
      | cons q ps =>
        obtain ⟨-, -, e⟩ := ws_first (b := []) (x := 0x2C) (y := 0x2C) h2 Ws.nil (by simp [Ws]) (by simp [Ws]) (by simpa using e)
        obtain ⟨l', hl', rfl⟩ := elems_readAs hi (q :: ps) (fun x hx => hq x (by simp only [List.mem_cons] at *; exact .inr hx)) R S hl e
        exact ⟨s :: l', .cons hs hl', rfl⟩

/-- The elements of the lines of readable texts. -/
theorem lines_elems {ind : Bytes} (hi : Ws ind) : ∀ (l : List Bytes), l ≠ [] → (∀ p ∈ l, ReadableText p) →
    Elems DialNum DialStr (0x0A :: lines ind l) (strs l)
  | [], h, _ => absurd rfl h
  | [s], _, h => by
    have hw : Ws (0x0A :: ind) := by simpa [Ws] using hi
    have := Elems.one (numTok := DialNum) hw (.str (token_of (h s (by simp)))) (w2 := [0x0A]) (by simp [Ws])
    simpa [lines, strs] using this
  | s :: s' :: l, _, h => by
    have hw : Ws (0x0A :: ind) := by simpa [Ws] using hi
    have ih := lines_elems hi (s' :: l) (by simp) fun q hq => h q (by simp only [List.mem_cons] at *; exact .inr hq)
    have := Elems.cons (numTok := DialNum) hw (.str (token_of (h s (by simp)))) Ws.nil ih
    rw [lines]
    simpa [strs] using this

/-- One text that is read as several. -/
theorem joined_elems {ind : Bytes} (hi : Ws ind) (b : List Bytes) (hb : ∀ p ∈ b, ReadableText p) : ∀ (l : List Bytes), l ≠ [] →
    (∀ p ∈ l, ReadableText p) → ∀ w, Ws w → Elems DialNum DialStr (w ++ 0x22 :: (joined l ++ 0x22 ::
      ((if b.isEmpty then [] else [0x2C]) ++ 0x0A :: lines ind b))) (strs (l ++ b))
  | [], h, _, _, _ => absurd rfl h
  | [s], _, h, w, hw => by
    cases b with
    | nil =>
      have := Elems.one (numTok := DialNum) hw (.str (token_of (h s (by simp)))) (w2 := [0x0A]) (by simp [Ws])
      simpa [lines, strs, joined] using this
    | cons q b =>
      have := Elems.cons (numTok := DialNum) hw (.str (token_of (h s (by simp)))) Ws.nil (lines_elems hi (q :: b) (by simp) hb)
      simpa [strs, joined] using this
  | s :: s' :: l, _, h, w, hw => by
    have ih := joined_elems hi b hb (s' :: l) (by simp) (fun q hq => h q (by simp only [List.mem_cons] at *; exact .inr hq)) [] Ws.nil
    have := Elems.cons (numTok := DialNum) hw (.str (token_of (h s (by simp)))) Ws.nil ih
    simpa [strs, joined] using this

/-- The same among other elements. -/
theorem forged_elems {ind : Bytes} (hi : Ws ind) (l b : List Bytes) (hne : l ≠ []) (hl : ∀ p ∈ l, ReadableText p)
    (hb : ∀ p ∈ b, ReadableText p) : ∀ (a : List Bytes), (∀ p ∈ a, ReadableText p) →
    Elems DialNum DialStr (0x0A :: lines ind (a ++ joined l :: b)) (strs (a ++ (l ++ b)))
  | [], _ => by
    have := joined_elems hi b hb l hne hl (0x0A :: ind) (by simpa [Ws] using hi)
    simpa [lines] using this
  | s :: a, h => by
    have ih := forged_elems hi l b hne hl hb a fun q hq => h q (by simp [hq])
    have := Elems.cons (numTok := DialNum) (w1 := 0x0A :: ind) (by simpa [Ws] using hi) (.str (token_of (h s (by simp)))) Ws.nil ih
    rw [List.cons_append, lines]
    simpa [strs] using this

end Verif.Parser
