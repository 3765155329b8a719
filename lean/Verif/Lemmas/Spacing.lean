import Verif.Spec.Tokens
import Verif.Lemmas.Parse

/-! # Lemmas: texts with the same tokens are read alike -/

namespace Verif.Parser

open Verif Verif.Text Verif.Number Verif.Spec

theorem isBlank_iff (c : Byte) : IsBlank c ↔ Ws [c] := by
  simp [IsBlank, Ws]

theorem ws_iff_blank (w : Bytes) : Ws w ↔ ∀ c ∈ w, IsBlank c := by
  simp [IsBlank, Ws]

/-! ## Token grammar -/

mutual
/-- Values as token lists. -/
inductive TVal : List Tok → J → Prop
  | null : TVal [.word [0x6E, 0x75, 0x6C, 0x6C]] .null
  | true : TVal [.word [0x74, 0x72, 0x75, 0x65]] (.bool .true)
  | false : TVal [.word [0x66, 0x61, 0x6C, 0x73, 0x65]] (.bool .false)
  | num {t d} : DialNum t d → TVal [.word t] (.num d)
  | str {t s} : DialStr t s → TVal [.str t] (.str s)
  | arrEmpty : TVal [.punct 0x5B, .punct 0x5D] (.arr .nil)
  | arr {t l} : TElems t l → TVal (.punct 0x5B :: (t ++ [.punct 0x5D])) (.arr l)
  | objEmpty : TVal [.punct 0x7B, .punct 0x7D] (.obj .nil)
  | obj {t m} : TMembers t m → TVal (.punct 0x7B :: (t ++ [.punct 0x7D])) (.obj m)
inductive TElems : List Tok → JL → Prop
  | one {t j} : TVal t j → TElems t (.cons j .nil)
  | cons {t j ts l} : TVal t j → TElems ts l → TElems (t ++ .punct 0x2C :: ts) (.cons j l)
inductive TMembers : List Tok → JM → Prop
  | one {n t s j} : DialStr n s → TVal t j → TMembers (.str n :: .punct 0x3A :: t) (.cons s j .nil)
  | cons {n t s j ts m} : DialStr n s → TVal t j → TMembers ts m →
      TMembers (.str n :: .punct 0x3A :: (t ++ .punct 0x2C :: ts)) (.cons s j m)
end

/-! ## Rendering -/

/-- The text is the tokens in order with whitespace before, between and after. -/
def Render : List Tok → Bytes → Prop
  | [], t => Ws t
  | k :: ks, t => ∃ w r, Ws w ∧ t = w ++ (k.raw ++ r) ∧ Render ks r

theorem Render.ws {ks : List Tok} {t w : Bytes} (h : Render ks t) (hw : Ws w) : Render ks (t ++ w) := by
  induction ks generalizing t with
  | nil => exact Ws.append h hw
  | cons k ks ih =>
    obtain ⟨w1, r, h1, rfl, h2⟩ := h
    exact ⟨w1, r ++ w, h1, by simp, ih h2⟩

theorem Render.append {ks ks' : List Tok} {t t' : Bytes} (h : Render ks t) (h' : Render ks' t') :
    Render (ks ++ ks') (t ++ t') := by
  induction ks generalizing t with
  | nil =>
    cases ks' with
    | nil => exact Ws.append h h'
    | cons k ks' =>
      obtain ⟨w1, r, h1, rfl, h2⟩ := h'
      exact ⟨t ++ w1, r, Ws.append h h1, by simp, h2⟩
  | cons k ks ih =>
    obtain ⟨w1, r, h1, rfl, h2⟩ := h
    exact ⟨w1, r ++ t', h1, by simp, ih h2⟩

theorem Render.split {ks ks' : List Tok} {t : Bytes} (h : Render (ks ++ ks') t) :
    ∃ t1 t2, t = t1 ++ t2 ∧ Render ks t1 ∧ Render ks' t2 := by
  induction ks generalizing t with
  | nil => exact ⟨[], t, rfl, Ws.nil, h⟩
  | cons k ks ih =>
    obtain ⟨w1, r, h1, rfl, h2⟩ := h
    obtain ⟨t1, t2, rfl, h3, h4⟩ := ih h2
    exact ⟨w1 ++ (k.raw ++ t1), t2, by simp, ⟨w1, t1, h1, rfl, h3⟩, h4⟩

theorem Render.single (k : Tok) : Render [k] k.raw := ⟨[], [], Ws.nil, by simp, Ws.nil⟩

/-- What a scanner state says about the text so far. -/
def ScanOk : Scan → Bytes → Prop
  | .between d, t => Render d t
  | .word d w b, t => ∃ r, t = r ++ (w ++ b) ∧ Render d r ∧ Ws b
  | .str d s, t => ∃ r, t = r ++ s ∧ Render d r
  | .esc d s, t => ∃ r, t = r ++ s ∧ Render d r

theorem scanOk_step {s : Scan} {t : Bytes} (c : Byte) (h : ScanOk s t) : ScanOk (s.step c) (t ++ [c]) := by
  cases s with
  | between d =>
    simp only [Scan.step]
    split
    · rename_i hb; exact Render.ws h ((isBlank_iff c).1 hb)
    · split
      · exact Render.append h (Render.single (.punct c))
      · split
        · exact ⟨t, rfl, h⟩
        · exact ⟨t, by simp, h, Ws.nil⟩
  | word d w b =>
    obtain ⟨r, rfl, h1, h2⟩ := h
    simp only [Scan.step]
    split
    · rename_i hb; exact ⟨r, by simp, h1, h2.append ((isBlank_iff c).1 hb)⟩
    · split
      · have := ((h1.append (Render.single (.word w))).ws h2).append (Render.single (.punct c))
        simpa [Tok.raw, ScanOk] using this
      · split
        · exact ⟨r ++ (w ++ b), rfl, by simpa [Tok.raw] using (h1.append (Render.single (.word w))).ws h2⟩
        · exact ⟨r, by simp, h1, Ws.nil⟩
  | str d s =>
    obtain ⟨r, rfl, h1⟩ := h
    simp only [Scan.step]
    split
    · have := h1.append (Render.single (.str (s ++ [c])))
      simpa [Tok.raw, ScanOk] using this
    · split
      · exact ⟨r, by simp, h1⟩
      · exact ⟨r, by simp, h1⟩
  | esc d s =>
    obtain ⟨r, rfl, h1⟩ := h
    exact ⟨r, by simp, h1⟩

theorem scanOk_scan {s : Scan} {t : Bytes} (t' : Bytes) (h : ScanOk s t) : ScanOk (scan s t') (t ++ t') := by
  induction t' generalizing s t with
  | nil => simpa [scan] using h
  | cons c t' ih =>
    have := ih (scanOk_step c h)
    simpa [scan] using this

theorem render_of_tokens {t : Bytes} {ks : List Tok} (h : tokens t = some ks) : Render ks t := by
  have hs : ScanOk (scan (.between []) t) t := by
    have := scanOk_scan (s := .between []) (t := []) t Ws.nil
    simpa using this
  unfold tokens at h
  revert h hs
  cases scan (.between []) t with
  | between d => intro h hs; cases h; exact hs
  | word d w b =>
    intro h hs; cases h
    obtain ⟨r, rfl, h1, h2⟩ := hs
    simpa [Tok.raw] using (h1.append (Render.single (.word w))).ws h2
  | str d s => intro h; simp [Scan.finish] at h
  | esc d s => intro h; simp [Scan.finish] at h

/-! ## From tokens to texts -/

theorem render_punct {c : Byte} {ks : List Tok} {t : Bytes} (h : Render (.punct c :: ks) t) :
    ∃ w r, Ws w ∧ t = w ++ c :: r ∧ Render ks r := by
  obtain ⟨w, r, h1, h2, h3⟩ := h
  exact ⟨w, r, h1, by simpa [Tok.raw] using h2, h3⟩

theorem render_one {k : Tok} {t : Bytes} (h : Render [k] t) : ∃ w w', Ws w ∧ Ws w' ∧ t = w ++ (k.raw ++ w') := by
  obtain ⟨w, r, h1, h2, h3⟩ := h
  exact ⟨w, r, h1, h3, h2⟩

/-- A value with whitespace around it. -/
def Padded (t : Bytes) (j : J) : Prop := ∃ w v w', Ws w ∧ DVal v j ∧ Ws w' ∧ t = w ++ (v ++ w')

theorem text_of_tokens {ks : List Tok} {j : J} (h : TVal ks j) : ∀ t, Render ks t → Padded t j := by
  refine TVal.rec (motive_1 := fun ks j _ => ∀ t, Render ks t → Padded t j)
    (motive_2 := fun ks l _ => ∀ t, Render ks t → DElems t l)
    (motive_3 := fun ks m _ => ∀ t, Render ks t → DMembers t m)
    ?_ ?_ ?_ ?_ ?_ ?_ ?_ ?_ ?_ ?_ ?_ ?_ ?_ h
  · intro t h; obtain ⟨w, w', h1, h2, rfl⟩ := render_one h; exact ⟨w, _, w', h1, .null, h2, rfl⟩
  · intro t h; obtain ⟨w, w', h1, h2, rfl⟩ := render_one h; exact ⟨w, _, w', h1, .true, h2, rfl⟩
  · intro t h; obtain ⟨w, w', h1, h2, rfl⟩ := render_one h; exact ⟨w, _, w', h1, .false, h2, rfl⟩
  · intro t d hd x h; obtain ⟨w, w', h1, h2, rfl⟩ := render_one h; exact ⟨w, _, w', h1, .num hd, h2, rfl⟩
  · intro t d hd x h; obtain ⟨w, w', h1, h2, rfl⟩ := render_one h; exact ⟨w, _, w', h1, .str hd, h2, rfl⟩
  · intro t h
    obtain ⟨w, r, h1, rfl, h2⟩ := render_punct h
    obtain ⟨w2, r2, h3, rfl, h4⟩ := render_punct h2
    exact ⟨w, _, r2, h1, .arrEmpty h3, h4, by simp⟩
  · intro ks l _ ih t h
    obtain ⟨w, r, h1, rfl, h2⟩ := render_punct h
    obtain ⟨t1, t2, rfl, h3, h4⟩ := h2.split
    obtain ⟨w2, r2, h5, rfl, h6⟩ := render_punct h4
    exact ⟨w, _, r2, h1, .arr (ih _ (h3.ws h5)), h6, by simp⟩
  · intro t h
    obtain ⟨w, r, h1, rfl, h2⟩ := render_punct h
    obtain ⟨w2, r2, h3, rfl, h4⟩ := render_punct h2
    exact ⟨w, _, r2, h1, .objEmpty h3, h4, by simp⟩
  · intro ks l _ ih t h
    obtain ⟨w, r, h1, rfl, h2⟩ := render_punct h
    obtain ⟨t1, t2, rfl, h3, h4⟩ := h2.split
    obtain ⟨w2, r2, h5, rfl, h6⟩ := render_punct h4
    exact ⟨w, _, r2, h1, .obj (ih _ (h3.ws h5)), h6, by simp⟩
  · intro ks j _ ih t h
    obtain ⟨w, v, w', h1, h2, h3, rfl⟩ := ih t h
    exact .one h1 h2 h3
  · intro ks j ks' l _ _ ih ih' t h
    obtain ⟨t1, t2, rfl, h3, h4⟩ := h.split
    obtain ⟨w2, r2, h5, rfl, h6⟩ := render_punct h4
    obtain ⟨w, v, w', h7, h8, h9, rfl⟩ := ih _ h3
    have := Elems.cons h7 h8 (h9.append h5) (ih' _ h6)
    simpa using this
  · intro n ks s j hs _ ih t h
    obtain ⟨w, r, h1, rfl, h2⟩ := h
    obtain ⟨w2, r2, h5, rfl, h6⟩ := render_punct h2
    obtain ⟨w, v, w', h7, h8, h9, rfl⟩ := ih _ h6
    exact .one h1 hs h5 h7 h8 h9
  · intro n ks s j ks' m hs _ _ ih ih' t h
    obtain ⟨w, r, h1, rfl, h2⟩ := h
    obtain ⟨w2, r2, h5, rfl, h6⟩ := render_punct h2
    obtain ⟨t1, t2, rfl, h3, h4⟩ := h6.split
    obtain ⟨w3, r3, h10, rfl, h11⟩ := render_punct h4
    obtain ⟨w, v, w', h7, h8, h9, rfl⟩ := ih _ h3
    have := Members.cons h1 hs h5 h7 h8 (h9.append h10) (ih' _ h11)
    simpa [Tok.raw] using this

/-! ## From texts to tokens -/

/-- The state stands for the finished tokens `ks`, up to a word that has not been closed. -/
def Stands (s : Scan) (ks : List Tok) : Prop :=
  s = .between ks ∨ ∃ d w b, s = .word d w b ∧ ks = d ++ [.word w]

theorem Stands.finish {s : Scan} {ks : List Tok} (h : Stands s ks) : s.finish = some ks := by
  rcases h with rfl | ⟨d, w, b, rfl, rfl⟩ <;> rfl

theorem scan_append (s : Scan) (a b : Bytes) : scan s (a ++ b) = scan (scan s a) b := by
  simp [scan]

theorem scan_cons (s : Scan) (c : Byte) (b : Bytes) : scan s (c :: b) = scan (s.step c) b := rfl

theorem scan_ws_between {w : Bytes} (d : List Tok) (h : Ws w) : scan (.between d) w = .between d := by
  induction w with
  | nil => rfl
  | cons c w ih =>
    have hc : IsBlank c := (ws_iff_blank _).1 h c (by simp)
    rw [scan_cons]
    simp only [Scan.step, hc, if_true]
    exact ih (fun x hx => h x (by simp [hx]))

theorem scan_ws_word {w : Bytes} (d : List Tok) (x b : Bytes) (h : Ws w) :
    scan (.word d x b) w = .word d x (b ++ w) := by
  induction w generalizing b with
  | nil => simp [scan]
  | cons c w ih =>
    have hc : IsBlank c := (ws_iff_blank _).1 h c (by simp)
    rw [scan_cons]
    simp only [Scan.step, hc, if_true]
    rw [ih (b ++ [c]) (fun x hx => h x (by simp [hx]))]
    simp

theorem Stands.ws {s : Scan} {ks : List Tok} {w : Bytes} (h : Stands s ks) (hw : Ws w) :
    Stands (scan s w) ks := by
  rcases h with rfl | ⟨d, x, b, rfl, rfl⟩
  · exact .inl (scan_ws_between _ hw)
  · exact .inr ⟨d, x, _, scan_ws_word _ _ _ hw, rfl⟩

theorem Stands.punct {s : Scan} {ks : List Tok} {c : Byte} (h : Stands s ks) (hc : IsPunct c) :
    s.step c = .between (ks ++ [.punct c]) := by
  have hb : ¬ IsBlank c := by
    intro hb; revert hc hb; unfold IsPunct IsBlank
    simp only [List.mem_cons, List.not_mem_nil, or_false]
    rintro (rfl | rfl | rfl | rfl | rfl | rfl) <;> decide
  rcases h with rfl | ⟨d, x, b, rfl, rfl⟩
  · simp [Scan.step, hc, hb]
  · simp [Scan.step, hc, hb]

/-- A byte that continues a word. -/
def WordByte (c : Byte) : Prop := ¬ IsBlank c ∧ ¬ IsPunct c ∧ c ≠ 0x22

theorem scan_word {x : Bytes} (d : List Tok) (w : Bytes) (h : ∀ c ∈ x, WordByte c) :
    scan (.word d w []) x = .word d (w ++ x) [] := by
  induction x generalizing w with
  | nil => simp [scan]
  | cons c x ih =>
    obtain ⟨h1, h2, h3⟩ := h c (by simp)
    rw [scan_cons]
    simp only [Scan.step, h1, h2, h3, if_false]
    rw [ih _ (fun y hy => h y (by simp [hy]))]
    simp

theorem scan_word_start {x : Bytes} (d : List Tok) (hx : x ≠ []) (h : ∀ c ∈ x, WordByte c) :
    scan (.between d) x = .word d x [] := by
  cases x with
  | nil => exact absurd rfl hx
  | cons c x =>
    obtain ⟨h1, h2, h3⟩ := h c (by simp)
    rw [scan_cons]
    simp only [Scan.step, h1, h2, h3, if_false]
    rw [scan_word _ _ (fun y hy => h y (by simp [hy]))]
    simp

theorem scan_word_gap {w x : Bytes} (d : List Tok) (y : Bytes) (hw : Ws w) (hx : x ≠ [])
    (h : ∀ c ∈ x, WordByte c) : scan (.word d y []) (w ++ x) = .word d (y ++ (w ++ x)) [] := by
  rw [scan_append, scan_ws_word _ _ _ hw]
  cases x with
  | nil => exact absurd rfl hx
  | cons c x =>
    obtain ⟨h1, h2, h3⟩ := h c (by simp)
    rw [scan_cons]
    simp only [Scan.step, h1, h2, h3, if_false]
    rw [scan_word _ _ (fun y hy => h y (by simp [hy]))]
    simp

theorem numChar_word {c : Byte} (h : NumChar c) : WordByte c := by
  refine ⟨?_, ?_, ?_⟩
  · intro hb
    simp only [IsBlank, List.mem_cons, List.not_mem_nil, or_false] at hb
    rcases hb with rfl | rfl | rfl | rfl <;> simp [NumChar, Digit] at h
  · intro hb
    simp only [IsPunct, List.mem_cons, List.not_mem_nil, or_false] at hb
    rcases hb with rfl | rfl | rfl | rfl | rfl | rfl <;> simp [NumChar, Digit] at h
  · rintro rfl; simp [NumChar, Digit] at h

theorem scan_num {t : Bytes} {n : Dec} (d : List Tok) (h : DialNum t n) :
    scan (.between d) t = .word d t [] := by
  cases h with
  | plain h hl _ _ _ => exact scan_word_start d (longest_ne_nil hl) (fun c hc => numChar_word (h c hc))
  | plus hw h hl _ =>
    rw [scan_cons]
    have : Scan.step (.between d) 0x2B = .word d [0x2B] [] := by
      simp [Scan.step, show ¬ IsBlank 0x2B by decide, show ¬ IsPunct 0x2B by decide]
    rw [this, scan_word_gap d _ hw (longest_ne_nil hl) (fun c hc => numChar_word (h c hc))]
    rfl
  | minus hw h hl _ =>
    rw [scan_cons]
    have : Scan.step (.between d) 0x2D = .word d [0x2D] [] := by
      simp [Scan.step, show ¬ IsBlank 0x2D by decide, show ¬ IsPunct 0x2D by decide]
    rw [this, scan_word_gap d _ hw (longest_ne_nil hl) (fun c hc => numChar_word (h c hc))]
    rfl

theorem scan_plain_str {x : Bytes} (d : List Tok) (s : Bytes) (h : ∀ c ∈ x, c ≠ 0x22 ∧ c ≠ 0x5C) :
    scan (.str d s) x = .str d (s ++ x) := by
  induction x generalizing s with
  | nil => simp [scan]
  | cons c x ih =>
    obtain ⟨h1, h2⟩ := h c (by simp)
    rw [scan_cons]
    simp only [Scan.step, h1, h2, if_false]
    rw [ih _ (fun y hy => h y (by simp [hy]))]
    simp

theorem utf8_bytes {cp : Nat} (h1 : cp < 0x110000) (h2 : cp ≠ 0x22) (h3 : cp ≠ 0x5C) :
    ∀ c ∈ utf8 cp, c ≠ 0x22 ∧ c ≠ 0x5C := by
  intro c hc
  have key : ∀ n : Nat, n ≠ 0x22 → n ≠ 0x5C → n < 256 → UInt8.ofNat n ≠ 0x22 ∧ UInt8.ofNat n ≠ 0x5C := by
    intro n a b hn
    constructor
    · intro e; have := congrArg UInt8.toNat e
      simp at this; omega
    · intro e; have := congrArg UInt8.toNat e
      simp at this; omega
  simp only [utf8, List.mem_map] at hc
  obtain ⟨n, hn, rfl⟩ := hc
  apply key <;>
  · unfold utf8Nat at hn
    split at hn
    · simp at hn; omega
    · split at hn
      · simp at hn; omega
      · split at hn
        · simp at hn; omega
        · simp at hn; omega

theorem hex_plain {c : Byte} {x : Nat} (h : hexVal c = some x) : c ≠ 0x22 ∧ c ≠ 0x5C := by
  constructor <;> (rintro rfl; simp [hexVal] at h)

theorem scan_item {i : SItem} (d : List Tok) (s : Bytes) (h : DialItem i) :
    scan (.str d s) i.raw = .str d (s ++ i.raw) := by
  cases i with
  | lit cp => exact scan_plain_str d s (utf8_bytes h.1 h.2.2.1 h.2.2.2.1)
  | esc c => simp [SItem.raw, scan_cons, Scan.step, scan]
  | uni a b c e =>
    obtain ⟨x, hx, -⟩ := h
    simp only [SItem.code, Option.bind_eq_bind, Option.bind_eq_some_iff] at hx
    obtain ⟨x1, h1, x2, h2, x3, h3, x4, h4, -⟩ := hx
    have := scan_plain_str (x := [a, b, c, e]) d (s ++ [0x5C, 0x75]) (by
      intro y hy
      simp only [List.mem_cons, List.not_mem_nil, or_false] at hy
      rcases hy with rfl | rfl | rfl | rfl
      · exact hex_plain h1
      · exact hex_plain h2
      · exact hex_plain h3
      · exact hex_plain h4)
    simp only [SItem.raw]
    rw [scan_cons, scan_cons]
    have e1 : Scan.step (.str d s) 0x5C = .esc d (s ++ [0x5C]) := by simp [Scan.step]
    rw [e1]
    simp only [Scan.step]
    rw [show s ++ [0x5C] ++ [0x75] = s ++ [0x5C, 0x75] by simp, this]
    simp

theorem scan_str {t s : Bytes} {st : Scan} {ks : List Tok} (hst : Stands st ks) (h : DialStr t s) :
    scan st t = .between (ks ++ [.str t]) := by
  obtain ⟨items, hi, rfl, -⟩ := h
  have hq : st.step 0x22 = .str ks [0x22] := by
    rcases hst with rfl | ⟨d, x, b, rfl, rfl⟩ <;>
    simp [Scan.step, show ¬ IsBlank 0x22 by decide, show ¬ IsPunct 0x22 by decide]
  have gen : ∀ (items : List SItem) (x : Bytes), (∀ i ∈ items, DialItem i) →
      scan (.str ks x) ((items.map SItem.raw).flatten ++ [0x22]) =
        .between (ks ++ [.str (x ++ ((items.map SItem.raw).flatten ++ [0x22]))]) := by
    intro items
    induction items with
    | nil => intro x _; simp [scan, Scan.step]
    | cons i is ih =>
      intro x h
      have := ih (x ++ i.raw) (fun y hy => h y (by simp [hy]))
      rw [show (List.map SItem.raw (i :: is)).flatten ++ [0x22] =
        i.raw ++ ((List.map SItem.raw is).flatten ++ [0x22]) by simp, scan_append, scan_item _ _ (h i (by simp)), this]
      simp
  rw [scan_cons, hq, gen _ _ hi]
  simp

theorem stands_word {x : Bytes} (d : List Tok) (hx : x ≠ []) (h : ∀ c ∈ x, WordByte c) :
    Stands (scan (.between d) x) (d ++ [.word x]) :=
  .inr ⟨d, x, [], scan_word_start d hx h, rfl⟩

instance (c : Byte) : Decidable (WordByte c) := by unfold WordByte; infer_instance

/-- A value, scanned between tokens, gives its tokens. -/
def ScanV (t : Bytes) (j : J) : Prop :=
  ∃ ks, TVal ks j ∧ ∀ d, Stands (scan (.between d) t) (d ++ ks)

theorem scan_ws_val {w t : Bytes} {d ks : List Tok} (hw : Ws w) {w' : Bytes} (hw' : Ws w')
    (h : Stands (scan (.between d) t) ks) : Stands (scan (.between d) (w ++ (t ++ w'))) ks := by
  rw [scan_append, scan_ws_between _ hw, scan_append]
  exact h.ws hw'

theorem scan_close {t : Bytes} {d ks : List Tok} {o c : Byte} (ho : IsPunct o) (hc : IsPunct c)
    (h : Stands (scan (.between (d ++ [.punct o])) t) (d ++ [.punct o] ++ ks)) :
    Stands (scan (.between d) (o :: (t ++ [c]))) (d ++ .punct o :: (ks ++ [.punct c])) := by
  rw [scan_cons, Stands.punct (.inl rfl) ho, scan_append, scan_cons, Stands.punct h hc]
  left; simp [scan]

theorem tokens_of_text {t : Bytes} {j : J} (h : DVal t j) : ScanV t j := by
  refine Val.rec (motive_1 := fun t j _ => ScanV t j)
    (motive_2 := fun t l _ => ∃ ks, TElems ks l ∧ ∀ d, Stands (scan (.between d) t) (d ++ ks))
    (motive_3 := fun t m _ => ∃ ks, TMembers ks m ∧ ∀ d, Stands (scan (.between d) t) (d ++ ks))
    ?_ ?_ ?_ ?_ ?_ ?_ ?_ ?_ ?_ ?_ ?_ ?_ ?_ h
  · exact ⟨_, .null, fun d => stands_word d (by decide) (by decide)⟩
  · exact ⟨_, .true, fun d => stands_word d (by decide) (by decide)⟩
  · exact ⟨_, .false, fun d => stands_word d (by decide) (by decide)⟩
  · intro t d h; exact ⟨_, .num h, fun d => .inr ⟨d, _, [], scan_num d h, rfl⟩⟩
  · intro t s h; exact ⟨_, .str h, fun d => .inl (scan_str (.inl rfl) h)⟩
  · intro w hw
    exact ⟨_, .arrEmpty, fun d => scan_close (ks := []) (by decide) (by decide)
      (.inl (by rw [scan_ws_between _ hw]; simp))⟩
  · rintro t l _ ⟨ks, h1, h2⟩
    exact ⟨_, .arr h1, fun d => scan_close (by decide) (by decide) (h2 _)⟩
  · intro w hw
    exact ⟨_, .objEmpty, fun d => scan_close (ks := []) (by decide) (by decide)
      (.inl (by rw [scan_ws_between _ hw]; simp))⟩
  · rintro t l _ ⟨ks, h1, h2⟩
    exact ⟨_, .obj h1, fun d => scan_close (by decide) (by decide) (h2 _)⟩
  · rintro w1 t w2 j hw1 _ hw2 ⟨ks, h1, h2⟩
    exact ⟨_, .one h1, fun d => scan_ws_val hw1 hw2 (h2 d)⟩
  · rintro w1 t w2 j ts l hw1 _ hw2 _ ⟨ks, h1, h2⟩ ⟨ks', h3, h4⟩
    refine ⟨_, .cons h1 h3, fun d => ?_⟩
    rw [show w1 ++ (t ++ (w2 ++ 0x2C :: ts)) = (w1 ++ (t ++ w2)) ++ 0x2C :: ts by simp, scan_append, scan_cons,
      Stands.punct (scan_ws_val hw1 hw2 (h2 d)) (by decide)]
    have := h4 (d ++ ks ++ [.punct 0x2C])
    simpa using this
  · rintro w1 n w2 w3 t w4 s j hw1 hn hw2 hw3 _ hw4 ⟨ks, h1, h2⟩
    refine ⟨_, .one hn h1, fun d => ?_⟩
    rw [scan_append, scan_ws_between _ hw1, scan_append, scan_str (.inl rfl) hn, scan_append,
      scan_ws_between _ hw2, scan_cons, Stands.punct (.inl rfl) (by decide)]
    have := scan_ws_val hw3 hw4 (h2 (d ++ [.str n] ++ [.punct 0x3A]))
    simpa using this
  · rintro w1 n w2 w3 t w4 s j ts m hw1 hn hw2 hw3 _ hw4 _ ⟨ks, h1, h2⟩ ⟨ks', h3, h4⟩
    refine ⟨_, .cons hn h1 h3, fun d => ?_⟩
    rw [scan_append, scan_ws_between _ hw1, scan_append, scan_str (.inl rfl) hn, scan_append,
      scan_ws_between _ hw2, scan_cons, Stands.punct (.inl rfl) (by decide)]
    have := scan_ws_val hw3 hw4 (h2 (d ++ [.str n] ++ [.punct 0x3A]))
    rw [show w3 ++ (t ++ (w4 ++ 0x2C :: ts)) = (w3 ++ (t ++ w4)) ++ 0x2C :: ts by simp, scan_append, scan_cons,
      Stands.punct this (by decide)]
    have := h4 (d ++ [.str n] ++ [.punct 0x3A] ++ ks ++ [.punct 0x2C])
    simpa using this

/-- Texts of the dialect are exactly the texts whose tokens form a value. -/
theorem dialText_tokens (t : Bytes) (j : J) : DialText t j ↔ ∃ ks, tokens t = some ks ∧ TVal ks j := by
  constructor
  · rintro ⟨w, v, w', h1, h2, h3, rfl⟩
    obtain ⟨ks, h4, h5⟩ := tokens_of_text h2
    exact ⟨ks, (scan_ws_val h1 h3 (h5 [])).finish, h4⟩
  · rintro ⟨ks, h1, h2⟩
    exact text_of_tokens h2 t (render_of_tokens h1)

/-- Whitespace in a gap does not change the tokens. -/
theorem tokens_gap {a b w : Bytes} (hg : Gap a b) (hw : Ws w) : tokens (a ++ (w ++ b)) = tokens (a ++ b) := by
  obtain ⟨hs, hg⟩ := hg
  unfold tokens
  rw [scan_append, scan_append, scan_append]
  rcases hg with rfl | rfl | ⟨p, c, rfl, hc⟩ | ⟨c, s, rfl, hc⟩
  · rw [show scan (.between []) [] = .between [] from rfl, scan_ws_between _ hw]
  · cases hx : scan (.between []) a with
    | between d => rw [scan_ws_between _ hw]
    | word d x y => rw [scan_ws_word _ _ _ hw]; rfl
    | str d x => rw [hx] at hs; simp [Scan.inString] at hs
    | esc d x => rw [hx] at hs; simp [Scan.inString] at hs
  · have hb : ¬ IsBlank c ∧ c ≠ 0x22 := by
      revert hc; unfold IsPunct IsBlank
      simp only [List.mem_cons, List.not_mem_nil, or_false]
      rintro (rfl | rfl | rfl | rfl | rfl | rfl) <;> decide
    have : ∃ d, scan (.between []) (p ++ [c]) = .between d := by
      rw [scan_append] at hs ⊢
      revert hs
      cases scan (.between []) p with
      | between d => intro _; exact ⟨_, by rw [scan_cons, Stands.punct (.inl rfl) hc]; rfl⟩
      | word d x y => intro _; exact ⟨_, by rw [scan_cons, Stands.punct (.inr ⟨d, x, y, rfl, rfl⟩) hc]; rfl⟩
      | str d x =>
        intro hs
        rw [scan_cons] at hs
        simp only [scan, List.foldl_nil, Scan.step, hb.2, if_false] at hs
        split at hs <;> simp [Scan.inString] at hs
      | esc d x => intro hs; simp [scan, Scan.step, Scan.inString] at hs
    obtain ⟨d, hd⟩ := this
    rw [hd, scan_ws_between _ hw]
  · have hst : ∃ ks, Stands (scan (.between []) a) ks := by
      revert hs
      cases scan (.between []) a with
      | between d => intro _; exact ⟨_, .inl rfl⟩
      | word d x y => intro _; exact ⟨_, .inr ⟨d, x, y, rfl, rfl⟩⟩
      | str d x => intro hs; simp [Scan.inString] at hs
      | esc d x => intro hs; simp [Scan.inString] at hs
    obtain ⟨ks, hks⟩ := hst
    rw [scan_cons, scan_cons, Stands.punct hks hc, Stands.punct (hks.ws hw) hc]

end Verif.Parser
