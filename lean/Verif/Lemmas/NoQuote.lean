import Verif.Lemmas.Parse

/-!
# Texts without quotation marks in a file

A text without quotation marks, written between quotation marks before a comma and a line break, is one token or none (used by C182).
-/

namespace Verif.Parser

open Verif Verif.Text Verif.Number Verif.Spec

theorem hexVal_plain {c : Byte} {x : Nat} (h : hexVal c = some x) : c ≠ 0x22 ∧ c ≠ 0x0A := by
  constructor <;> (rintro rfl; simp [hexVal] at h)

theorem uni_plain {a b c d : Byte} {x : Nat} (h : (SItem.uni a b c d).code = some x) :
    (a ≠ 0x22 ∧ a ≠ 0x0A) ∧ (b ≠ 0x22 ∧ b ≠ 0x0A) ∧ (c ≠ 0x22 ∧ c ≠ 0x0A) ∧ d ≠ 0x22 ∧ d ≠ 0x0A := by
  simp only [SItem.code] at h
  cases ha : hexVal a with
  | none => simp [ha] at h
  | some _ =>
    cases hb : hexVal b with
    | none => simp [ha, hb] at h
    | some _ =>
      cases hc : hexVal c with
      | none => simp [ha, hb, hc] at h
      | some _ =>
        cases hd : hexVal d with
        | none => simp [ha, hb, hc, hd] at h
        | some _ => exact ⟨hexVal_plain ha, hexVal_plain hb, hexVal_plain hc, hexVal_plain hd⟩

/-- A quotation mark or a line break is not among the bytes of another character. -/
theorem utf8_byte {cp : Nat} (h : cp < 0x110000) {b : Byte} (hb : b.toNat < 0x80) (hm : b ∈ utf8 cp) : cp = b.toNat := by
  rcases utf8_cases cp h with ⟨-, a, e, ha⟩ | ⟨-, -, a, a2, e, ha, h2⟩ | ⟨-, -, a, a2, a3, e, ha, h2, h3⟩ | ⟨-, a, a2, a3, a4, e, ha, h2, h3, h4⟩
  · rw [e] at hm
    simp only [List.mem_singleton] at hm
    subst hm; exact ha.symm
  all_goals
    rw [e] at hm
    simp only [List.mem_cons, List.not_mem_nil, or_false] at hm
    exfalso
    rcases hm with rfl | hm
    · omega
    all_goals (try (rcases hm with rfl | hm)) <;> (try (rcases hm with rfl | hm)) <;> (try subst hm) <;> omega

theorem item_break {i : SItem} (h : DialItem i) : (0x0A : Byte) ∉ i.raw := by
  intro hm
  cases i with
  | lit cp =>
    have h : cp < 0x110000 ∧ 0x20 ≤ cp ∧ cp ≠ 0x22 ∧ cp ≠ 0x5C ∧ cp ≠ 0x7F := h
    have := utf8_byte h.1 (by decide) hm
    have e : (0x0A : Byte).toNat = 10 := rfl
    omega
  | esc c =>
    obtain ⟨x, hx⟩ := h
    simp only [SItem.raw, List.mem_cons, List.not_mem_nil, or_false] at hm
    rcases hm with hm | rfl
    · exact absurd hm (by decide)
    · exact absurd hx (by decide +revert)
  | uni a b c d =>
    obtain ⟨x, hx, -⟩ := h
    obtain ⟨h1, h2, h3, h4⟩ := uni_plain hx
    simp only [SItem.raw, List.mem_cons, List.not_mem_nil, or_false] at hm
    rcases hm with hm | hm | hm | hm | hm | hm
    · exact absurd hm (by decide)
    · exact absurd hm (by decide)
    · exact h1.2 hm.symm
    · exact h2.2 hm.symm
    · exact h3.2 hm.symm
    · exact h4.2 hm.symm

theorem item_quote {i : SItem} (h : DialItem i) (hm : (0x22 : Byte) ∈ i.raw) : i.raw = [0x5C, 0x22] := by
  cases i with
  | lit cp =>
    have h : cp < 0x110000 ∧ 0x20 ≤ cp ∧ cp ≠ 0x22 ∧ cp ≠ 0x5C ∧ cp ≠ 0x7F := h
    have := utf8_byte h.1 (by decide) hm
    have e : (0x22 : Byte).toNat = 0x22 := rfl
    omega
  | esc c =>
    simp only [SItem.raw, List.mem_cons, List.not_mem_nil, or_false] at hm
    rcases hm with hm | rfl
    · exact absurd hm (by decide)
    · rfl
  | uni a b c d =>
    obtain ⟨x, hx, -⟩ := h
    obtain ⟨h1, h2, h3, h4⟩ := uni_plain hx
    simp only [SItem.raw, List.mem_cons, List.not_mem_nil, or_false] at hm
    rcases hm with hm | hm | hm | hm | hm | hm
    · exact absurd hm (by decide)
    · exact absurd hm (by decide)
    · exact absurd hm.symm h1.1
    · exact absurd hm.symm h2.1
    · exact absurd hm.symm h3.1
    · exact absurd hm.symm h4.1

/-- The items of a token end at the first quotation mark, unless a backslash is before it; then they cannot go on over a line break. -/
theorem items_end (more : Bytes) : ∀ (items : List SItem), (∀ i ∈ items, DialItem i) → ∀ (rest q : Bytes), (0x22 : Byte) ∉ q →
    ((0x5C : Byte) ∉ q ∨ ∃ a m, more = a ++ 0x0A :: m ∧ (0x22 : Byte) ∉ a) →
    (items.map SItem.raw).flatten ++ 0x22 :: rest = q ++ 0x22 :: more → (items.map SItem.raw).flatten = q ∧ rest = more
  | [], _, rest, q, hq, _, e => by
    cases q with
    | nil => simpa using e
    | cons c q =>
      simp only [List.map_nil, List.flatten_nil, List.nil_append, List.cons_append, List.cons.injEq] at e
      exact absurd (by simp [← e.1]) hq
  | i :: is, hi, rest, q, hq, hb, e => by
    simp only [List.map_cons, List.flatten_cons, List.append_assoc] at e ⊢
    rcases List.append_eq_append_iff.1 e with ⟨q', h1, h2⟩ | ⟨r, h1, h2⟩
    · subst h1
      have := items_end more is (fun x hx => hi x (by simp [hx])) rest q' (fun h => hq (by simp [h]))
        (hb.imp (fun h h' => h (by simp [h'])) id) h2
      simp [this.1, this.2]
    · cases r with
      | nil =>
        simp only [List.nil_append, List.append_nil] at h1 h2
        have := items_end more is (fun x hx => hi x (by simp [hx])) rest [] (by simp) (.inl (by simp)) (by simpa using h2.symm)
        simp [this.1, this.2, h1]
      | cons c r =>
        simp only [List.cons_append, List.cons.injEq] at h2
        obtain ⟨rfl, h2⟩ := h2
        have hr := item_quote (hi i (by simp)) (by rw [h1]; simp)
        rw [h1] at hr
        exfalso
        match q, hr with
        | [], hr => exact absurd hr (by simp)
        | [c], hr =>
          simp only [List.cons_append, List.nil_append, List.cons.injEq, true_and] at hr
          obtain ⟨rfl, rfl⟩ := hr
          rcases hb with hb | ⟨a, m, rfl, ha⟩
          · exact hb (by simp)
          · have hno : (0x0A : Byte) ∉ (is.map SItem.raw).flatten := by
              intro hm
              simp only [List.mem_flatten, List.mem_map] at hm
              obtain ⟨_, ⟨x, hx, rfl⟩, hm⟩ := hm
              exact item_break (hi x (by simp [hx])) hm
            generalize (is.map SItem.raw).flatten = l at h2 hno
            simp only [List.nil_append] at h2
            rcases List.append_eq_append_iff.1 h2 with ⟨x, h1, h3⟩ | ⟨x, h1, h3⟩
            · cases x with
              | nil => simp at h3
              | cons y x =>
                simp only [List.cons_append, List.cons.injEq] at h3
                exact hno (by rw [h1]; simp [h3.1])
            · cases x with
              | nil => simp at h3
              | cons y x =>
                simp only [List.cons_append, List.cons.injEq] at h3
                exact ha (by rw [h1]; simp [h3.1])
        | _ :: _ :: q, hr => simp at hr

/-- White space ends at the first byte that is none. -/
theorem ws_first {a b l m : Bytes} {x y : Byte} (ha : Ws a) (hb : Ws b) (hx : ¬ Ws [x]) (hy : ¬ Ws [y]) (e : a ++ x :: l = b ++ y :: m) :
    a = b ∧ x = y ∧ l = m := by
  induction a generalizing b with
  | nil =>
    cases b with
    | nil => simpa using e
    | cons c b =>
      simp only [List.nil_append, List.cons_append, List.cons.injEq] at e
      exact absurd (by intro d hd; simp only [List.mem_singleton] at hd; subst hd; rw [e.1]; exact hb c (by simp)) hx
  | cons c a ih =>
    cases b with
    | nil =>
      simp only [List.nil_append, List.cons_append, List.cons.injEq] at e
      exact absurd (by intro d hd; simp only [List.mem_singleton] at hd; subst hd; rw [← e.1]; exact ha c (by simp)) hy
    | cons d b =>
      simp only [List.cons_append, List.cons.injEq] at e
      have := ih (fun z hz => ha z (by simp [hz])) (fun z hz => hb z (by simp [hz])) e.2
      exact ⟨by rw [e.1, this.1], this.2⟩

/-- A token that begins a text which begins with `"q"`. -/
theorem token_end {tok s rest q more : Bytes} (h : DialStr tok s) (hq : (0x22 : Byte) ∉ q)
    (hb : (0x5C : Byte) ∉ q ∨ ∃ a m, more = a ++ 0x0A :: m ∧ (0x22 : Byte) ∉ a) (e : tok ++ rest = 0x22 :: (q ++ 0x22 :: more)) :
    tok = 0x22 :: (q ++ [0x22]) ∧ rest = more := by
  obtain ⟨items, hi, rfl, -⟩ := h
  simp only [List.cons_append, List.append_assoc, List.cons.injEq, true_and, List.nil_append] at e
  have := items_end more items hi rest q hq hb e
  exact ⟨by rw [this.1], this.2⟩

/-- A value that begins with a quotation mark is a text. -/
theorem quote_value {tok : Bytes} {j : J} (h : DVal tok j) {r : Bytes} (e : tok = 0x22 :: r) :
    ∃ s, DialStr tok s ∧ j = .str s := by
  cases h with
  | str h => exact ⟨_, h, rfl⟩
  | num h =>
    obtain ⟨c, s, rfl, hc⟩ := dialNum_head h
    simp only [List.cons.injEq] at e
    rw [e.1] at hc
    exact absurd hc (by simp [NumChar, Digit])
  | _ => simp at e

/-- If an accepted text begins as an object whose first member is written `"n" : "p",` and a line break follows, then `"p"` is a token. -/
theorem first_member {w0 n p more : Bytes} {j : J} (hw : Ws w0) (hn : (0x22 : Byte) ∉ n) (hn' : (0x5C : Byte) ∉ n) (hp : (0x22 : Byte) ∉ p)
    (h : DialText (0x7B :: (w0 ++ 0x22 :: (n ++ 0x22 :: 0x20 :: 0x3A :: 0x20 :: 0x22 :: (p ++ 0x22 :: 0x2C :: 0x0A :: more)))) j) :
    ∃ s, DialStr (0x22 :: (p ++ [0x22])) s := by
  have nw : ∀ x : Byte, isWs x = false → ¬ Ws [x] := by
    intro x hx h
    have := h x (by simp)
    rcases this with rfl | rfl | rfl | rfl <;> simp [isWs] at hx
  have hsp : Ws [0x20] := by simp [Ws]
  obtain ⟨a, v, b, ha, hv, -, e⟩ := h
  obtain ⟨c, s, rfl, hc, -⟩ := val_head hv
  obtain ⟨-, rfl, e2⟩ := ws_first (a := []) (x := 0x7B) (y := c) Ws.nil ha (by simp [Ws]) (nw c hc) (by simpa using e)
  -- one member
  have key : ∀ (w1 k w2 w3 t s' : Bytes) (j' : J) (R : Bytes), Ws w1 → DialStr k s' → Ws w2 → Ws w3 → DVal t j' →
      w1 ++ (k ++ (w2 ++ 0x3A :: (w3 ++ (t ++ R)))) =
        w0 ++ 0x22 :: (n ++ 0x22 :: 0x20 :: 0x3A :: 0x20 :: 0x22 :: (p ++ 0x22 :: 0x2C :: 0x0A :: more)) →
      ∃ s, DialStr (0x22 :: (p ++ [0x22])) s := by
    intro w1 k w2 w3 t s' j' R h1 hk h2 h3 ht e
    obtain ⟨r, hr⟩ := hk.head
    subst hr
    obtain ⟨-, -, e⟩ := ws_first (x := 0x22) (y := 0x22) h1 hw (by simp [Ws]) (by simp [Ws]) (by simpa using e)
    obtain ⟨-, e⟩ := token_end hk hn (.inl hn') (by simpa using congrArg (0x22 :: ·) e)
    obtain ⟨-, -, e⟩ := ws_first (x := 0x3A) (y := 0x3A) h2 hsp (by simp [Ws]) (by simp [Ws]) (by simpa using e)
    obtain ⟨c, u, hc', hcw, -⟩ := val_head ht
    obtain ⟨-, hc0, e'⟩ := ws_first (x := c) (y := 0x22) h3 hsp (nw c hcw) (by simp [Ws]) (by simpa [hc'] using e)
    subst hc0
    obtain ⟨x, hx, -⟩ := quote_value ht hc'
    have := token_end (rest := R) hx hp (.inr ⟨[0x2C], more, rfl, by simp⟩) (by rw [hc']; simpa using e')
    rw [this.1] at hx
    exact ⟨x, hx⟩
  cases hv with
  | obj hm =>
    cases hm with
    | one h1 hk h2 h3 ht h4 => exact key _ _ _ _ _ _ _ _ h1 hk h2 h3 ht (by simpa using e2.symm)
    | cons h1 hk h2 h3 ht h4 _ => exact key _ _ _ _ _ _ _ _ h1 hk h2 h3 ht (by simpa using e2.symm)
  | objEmpty hw' =>
    have := ws_first (x := 0x22) (y := 0x7D) hw hw' (by simp [Ws]) (by simp [Ws]) (by simpa using e2)
    exact absurd this.2.1 (by decide)
  | str h => obtain ⟨r, hr⟩ := h.head; simp at hr
  | num h =>
    obtain ⟨c, s, hs, hc⟩ := dialNum_head h
    simp only [List.cons.injEq] at hs
    rw [← hs.1] at hc
    exact absurd hc (by simp [NumChar, Digit])

end Verif.Parser
