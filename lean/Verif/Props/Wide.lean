import Verif.Lemmas.Wide

/-!
# Properties of the UTF-16 conversions and of the counting functions: C47, C61, C62

A text is given as `s ++ 0 :: r`: its bytes (or units), the terminator, and whatever follows in memory. `fuelFor` bounds the
number of iterations of a loop by the size of the buffer; the theorems show that it is never exhausted.
-/

namespace Verif.Props

open Verif Verif.Spec Verif.Text Verif.Wide

theorem fuel_gt {α : Type} (s : List α) (z : α) (r : List α) : s.length < fuelFor (s ++ z :: r) := by
  unfold fuelFor; simp; omega

theorem drop_block {α : Type} {l b : List α} (h : b.length = l.length) : lay [] l b = .ok l := by
  rw [lay_nil_ok (by omega), List.drop_of_length_le (by omega), List.append_nil]

/-! ## C47 -/

/-- **C47.** Valid UTF-8 converted to 16-bit text and back is unchanged; the 16-bit text is UTF-16, and the length
functions give the exact number of units that are written before the terminator. -/
theorem C47_round_trip (cps : List Nat) (h : ∀ cp ∈ cps, IsScalar cp ∧ cp ≠ 0) (r : Bytes) (q b : Units) (b' : Bytes)
    (hb : b.length = (utf16s cps).length + 1) (hb' : b'.length = (utf8s cps).length + 1) :
    getWideTextCharCount (fuelFor (utf8s cps ++ 0 :: r)) (utf8s cps ++ 0 :: r) 0 = .ok (utf16s cps).length ∧
    convertStringToWideText (fuelFor (utf8s cps ++ 0 :: r)) (utf8s cps ++ 0 :: r) 0 (utf16s cps).length b =
      .ok (utf16s cps ++ [0]) ∧
    getUnicodeStringLength (fuelFor (utf16s cps ++ 0 :: q)) (utf16s cps ++ 0 :: q) 0 = .ok (utf8s cps).length ∧
    convertWideTextToString (fuelFor (utf16s cps ++ 0 :: q)) (utf16s cps ++ 0 :: q) 0 (utf8s cps).length b' =
      .ok (utf8s cps ++ [0]) := by
  have hr : ∀ cp ∈ cps, cp < 0x110000 ∧ cp ≠ 0 := fun cp hc => ⟨scalar_lt' (h cp hc).1, (h cp hc).2⟩
  have h8 := utf8s_nul_free hr
  have h16 := utf16s_nul_free hr
  have hrd := reads8_utf8s (fun cp hc => (hr cp hc).1)
  have hrw := read16_utf16s (fun cp hc => (h cp hc).1)
  refine ⟨?_, ?_, ?_, ?_⟩
  · rw [wideCount_spec r _ _ cps 0 (fuel_gt _ _ _) h8 hrd, Nat.zero_add]
  · have := toWide_spec r _ _ cps (utf16s cps).length [] b (fuel_gt (utf8s cps) 0 r) h8 hrd
    rw [List.nil_append, List.length_nil, fill16_all _ _ (Int.le_refl _)] at this
    rw [this]; exact drop_block (by simp; omega)
  · rw [stringLength_spec q _ _ 0 (fuel_gt _ _ _) h16, hrw, Nat.zero_add]
  · have := toString_spec q _ (utf16s cps) (utf8s cps).length [] b' (fuel_gt (utf16s cps) 0 q) h16
    rw [List.nil_append, List.length_nil, hrw, fit8_all _ _ (Nat.le_refl _)] at this
    rw [this]; exact drop_block (by simp; omega)

/-- "aé€😀". -/
example : getWideTextCharCount 20 (utf8s [0x61, 0xE9, 0x20AC, 0x1F600] ++ [0]) 0 = .ok 5 ∧
    convertStringToWideText 20 (utf8s [0x61, 0xE9, 0x20AC, 0x1F600] ++ [0]) 0 5 (List.replicate 6 7) =
      .ok [0x61, 0xE9, 0x20AC, 0xD83D, 0xDE00, 0] ∧
    getUnicodeStringLength 20 [0x61, 0xE9, 0x20AC, 0xD83D, 0xDE00, 0] 0 = .ok 10 ∧
    convertWideTextToString 20 [0x61, 0xE9, 0x20AC, 0xD83D, 0xDE00, 0] 0 10 (List.replicate 11 7) =
      .ok [0x61, 0xC3, 0xA9, 0xE2, 0x82, 0xAC, 0xF0, 0x9F, 0x98, 0x80, 0] := by decide +kernel

/-- **C47, any 16-bit text.** The length function gives the exact number of bytes the conversion writes, and what is written
is the UTF-8 text of the characters, halves of surrogate pairs standing alone being ignored. The bytes behind the terminator
are not touched. -/
theorem C47_any_wide (w q : Units) (h0 : 0 ∉ w) (b' : Bytes) (hb' : (utf8s (read16 w)).length + 1 ≤ b'.length) :
    getUnicodeStringLength (fuelFor (w ++ 0 :: q)) (w ++ 0 :: q) 0 = .ok (utf8s (read16 w)).length ∧
    convertWideTextToString (fuelFor (w ++ 0 :: q)) (w ++ 0 :: q) 0 (utf8s (read16 w)).length b' =
      .ok (utf8s (read16 w) ++ [0] ++ b'.drop ((utf8s (read16 w)).length + 1)) ∧
    WellFormed (utf8s (read16 w)) ∧ (0 : Byte) ∉ utf8s (read16 w) := by
  have hs := read16_scalar _ w (Nat.lt_succ_self _) h0
  refine ⟨?_, ?_, ⟨_, fun cp hc => (hs cp hc).1, rfl⟩, utf8s_nul_free fun cp hc => ⟨scalar_lt' (hs cp hc).1, (hs cp hc).2⟩⟩
  · rw [stringLength_spec q _ _ 0 (fuel_gt _ _ _) h0, Nat.zero_add]
  · have := toString_spec q _ w (utf8s (read16 w)).length [] b' (fuel_gt w 0 q) h0
    rw [List.nil_append, List.length_nil, fit8_all _ _ (Nat.le_refl _), lay_nil_ok (by simp; omega)] at this
    rw [this]; simp

/-- A lone second half, a lone first half before a character, and a lone first half at the end. -/
example : read16 [0xDE00, 0x61, 0xD83D, 0x62, 0xD83D] = [0x61, 0x62] ∧
    convertWideTextToString 20 [0xDE00, 0x61, 0xD83D, 0x62, 0xD83D, 0] 0 2 [1, 2, 3, 4] = .ok [0x61, 0x62, 0, 4] := by
  decide +kernel

/-- **C47, any text.** The length function gives the exact number of units the conversion writes, for malformed texts as
well; a byte at which no character begins becomes U+FFFD. The units behind the terminator are not touched. -/
theorem C47_any_text (s r : Bytes) (h0 : 0 ∉ s) : ∃ cps, Reads8 s cps ∧
    getWideTextCharCount (fuelFor (s ++ 0 :: r)) (s ++ 0 :: r) 0 = .ok (utf16s cps).length ∧
    ∀ b : Units, (utf16s cps).length + 1 ≤ b.length →
      convertStringToWideText (fuelFor (s ++ 0 :: r)) (s ++ 0 :: r) 0 (utf16s cps).length b =
        .ok (utf16s cps ++ [0] ++ b.drop ((utf16s cps).length + 1)) := by
  obtain ⟨cps, hr⟩ := reads8_exists _ s (Nat.lt_succ_self _)
  refine ⟨cps, hr, ?_, fun b hb => ?_⟩
  · rw [wideCount_spec r _ _ cps 0 (fuel_gt _ _ _) h0 hr, Nat.zero_add]
  · have := toWide_spec r _ _ cps (utf16s cps).length [] b (fuel_gt s 0 r) h0 hr
    rw [List.nil_append, List.length_nil, fill16_all _ _ (Int.le_refl _), lay_nil_ok (by simp; omega)] at this
    rw [this]; simp

/-- The characters of a text are determined by the text. -/
theorem C47_reads_unique (s : Bytes) (a b : List Nat) (ha : Reads8 s a) (hb : Reads8 s b) : a = b := reads8_unique ha hb

/-- A truncated character becomes one U+FFFD per byte. -/
example : convertStringToWideText 20 [0x61, 0xE2, 0x82, 0x62, 0] 0 4 [1, 2, 3, 4, 5, 6] =
    .ok [0x61, 0xFFFD, 0xFFFD, 0x62, 0, 6] := by decide +kernel

/-- **C47, construction.** A `String` made from 16-bit text holds the UTF-8 text of its characters; its reported length is
that of the text and the text lies inside its storage. -/
theorem C47_string (g : Nat → Byte) (w q : Units) (h0 : 0 ∉ w) :
    ∃ s, newWide g (w ++ 0 :: q) = .ok s ∧ s.logical = (utf8s (read16 w)).length + 1 ∧
      Texts.Holds s.data (utf8s (read16 w)) ∧ s.data.length = s.physical ∧ s.logical ≤ s.physical := by
  obtain ⟨s, h1, h2⟩ := newWide_wf g w q h0
  refine ⟨s, h1, h2.logical, h2.holds, h2.block, ?_⟩
  rw [h2.logical, ← h2.block]
  obtain ⟨-, r, e⟩ := h2.holds
  rw [e]; simp

example : (newWide (fun _ => 7) [0x61, 0x20AC, 0xD83D, 0xDE00, 0] >>= fun s => .ok (s.logical, s.data.take 9)) =
    .ok (9, [0x61, 0xE2, 0x82, 0xAC, 0xF0, 0x9F, 0x98, 0x80, 0]) := by decide +kernel

/-! ## C61 -/

/-- Full statement of C61: into a buffer of `max` units and a terminator both conversions write inside the buffer, for every
text. -/
def C61_statement : Prop :=
  (∀ (w q : Units) (max : Nat) (b : Bytes), 0 ∉ w → b.length = max + 1 →
    ∃ b', convertWideTextToString (fuelFor (w ++ 0 :: q)) (w ++ 0 :: q) 0 max b = .ok b') ∧
  (∀ (s r : Bytes) (max : Nat) (b : Units), 0 ∉ s → b.length = max + 1 →
    ∃ b', convertStringToWideText (fuelFor (s ++ 0 :: r)) (s ++ 0 :: r) 0 max b = .ok b')

/-- **C61 is violated.** With one unit left, a character that needs two units is written anyway, and the terminator behind it:
"😀" with `max = 1` stores three units into a buffer of two. -/
theorem C61_violated : ¬ C61_statement := by
  intro h
  obtain ⟨b', hb⟩ := h.2 [0xF0, 0x9F, 0x98, 0x80] [] 1 [7, 7] (by decide) rfl
  have hu : convertStringToWideText (fuelFor ([0xF0, 0x9F, 0x98, 0x80] ++ 0 :: [])) ([0xF0, 0x9F, 0x98, 0x80] ++ 0 :: []) 0
      (1 : Nat) [7, 7] = .ub := by decide +kernel
  exact nomatch hu.symm.trans hb

/-- **C61, to UTF-8.** For every 16-bit text and every limit the characters written are the longest prefix of the characters
of the text that fits into `max` bytes; the terminator follows, and nothing else of the buffer is changed. Missing for C61:
the other direction, which violates it. -/
theorem C61_to_utf8_partial (w q : Units) (max : Nat) (b : Bytes) (h0 : 0 ∉ w) (hb : max + 1 ≤ b.length) :
    ∃ p rest, read16 w = p ++ rest ∧ (utf8s p).length ≤ max ∧
      (∀ c rest', rest = c :: rest' → max < (utf8s p).length + (utf8 c).length) ∧
      convertWideTextToString (fuelFor (w ++ 0 :: q)) (w ++ 0 :: q) 0 max b =
        .ok (utf8s p ++ [0] ++ b.drop ((utf8s p).length + 1)) := by
  obtain ⟨rest, h1, h2, h3⟩ := fit8_prefix (read16 w) max
  refine ⟨fit8 max (read16 w), rest, h1, h2, h3, ?_⟩
  have := toString_spec q _ w max [] b (fuel_gt w 0 q) h0
  rw [List.nil_append, List.length_nil, lay_nil_ok (by simp; omega)] at this
  rw [this]; simp

example : convertWideTextToString 20 [0x61, 0x20AC, 0x62, 0] 0 3 [1, 2, 3, 4] = .ok [0x61, 0, 3, 4] := by decide +kernel

/-- **C61, to UTF-16.** What is written for every text and limit: a prefix of the characters of the text, then the terminator;
the prefix takes at most one unit more than `max`, and ends early only if at least `max` units are written. With room for
`max + 2` units nothing is written outside the buffer. -/
theorem C61_to_utf16_partial (s r : Bytes) (max : Nat) (b : Units) (h0 : 0 ∉ s) (hb : max + 2 ≤ b.length) :
    ∃ p rest, Reads8 s (p ++ rest) ∧ (utf16s p).length ≤ max + 1 ∧ (rest = [] ∨ max ≤ (utf16s p).length) ∧
      convertStringToWideText (fuelFor (s ++ 0 :: r)) (s ++ 0 :: r) 0 max b =
        .ok (utf16s p ++ [0] ++ b.drop ((utf16s p).length + 1)) := by
  obtain ⟨cps, hr⟩ := reads8_exists _ s (Nat.lt_succ_self _)
  obtain ⟨rest, h1, h2, h3⟩ := fill16_prefix cps max (by omega)
  refine ⟨fill16 max cps, rest, h1 ▸ hr, by omega, ?_, ?_⟩
  · rcases h3 with h3 | h3
    · exact .inl h3
    · right; omega
  · have := toWide_spec r _ _ cps max [] b (fuel_gt s 0 r) h0 hr
    rw [List.nil_append, List.length_nil, lay_nil_ok (by simp; omega)] at this
    rw [this]; simp

example : convertStringToWideText 20 [0x61, 0xF0, 0x9F, 0x98, 0x80, 0x62, 0] 0 2 [1, 2, 3, 4, 5] =
    .ok [0x61, 0xD83D, 0xDE00, 0, 5] := by decide +kernel

/-- **C61, to UTF-16 without characters beyond U+FFFF.** Then the limit is kept. -/
theorem C61_to_utf16_bmp_partial (s r : Bytes) (max : Nat) (b : Units) (h0 : 0 ∉ s) (hb : max + 1 ≤ b.length)
    (cps : List Nat) (hr : Reads8 s cps) (hc : ∀ cp ∈ cps, cp < 0x10000) :
    convertStringToWideText (fuelFor (s ++ 0 :: r)) (s ++ 0 :: r) 0 max b =
      .ok (utf16s (cps.take max) ++ [0] ++ b.drop ((cps.take max).length + 1)) := by
  have hl : ∀ l : List Nat, (∀ cp ∈ l, cp < 0x10000) → (utf16s l).length = l.length := by
    intro l
    induction l with
    | nil => intro _; rfl
    | cons c l ih =>
        intro h
        rw [utf16s_cons, List.length_append, utf16_low (h c (by simp)), ih (fun x hx => h x (List.mem_cons_of_mem _ hx))]
        simp; omega
  have hf : ∀ (l : List Nat) (m : Nat), (∀ cp ∈ l, cp < 0x10000) → fill16 m l = l.take m := by
    intro l
    induction l with
    | nil => intro m _; simp [fill16]
    | cons c l ih =>
        intro m h
        cases m with
        | zero => simp [fill16]
        | succ m =>
            rw [fill16, if_pos (by omega), utf16_low (h c (by simp)), List.take_succ_cons,
              ← ih m (fun x hx => h x (List.mem_cons_of_mem _ hx))]
            congr 2; simp
  have := toWide_spec r _ _ cps max [] b (fuel_gt s 0 r) h0 hr
  have hlen := hl (cps.take max) (fun x hx => hc x (List.mem_of_mem_take hx))
  have hle : (cps.take max).length ≤ max := by simp; omega
  rw [List.nil_append, List.length_nil, hf cps max hc, lay_nil_ok (by simp [hlen]; omega)] at this
  rw [this, List.length_append, hlen]; simp

example : convertStringToWideText 20 [0x61, 0xE2, 0x82, 0xAC, 0x62, 0] 0 2 [1, 2, 3] = .ok [0x61, 0x20AC, 0] := by
  decide +kernel

/-! ## C62 -/

/-- Full statement of C62: on every text the counting functions read inside the text, and on valid UTF-8 they count
characters and bytes. -/
def C62_statement : Prop :=
  ∀ s r : Bytes, 0 ∉ s →
    (∃ n, getUnicodeCharCount (fuelFor (s ++ 0 :: r)) (s ++ 0 :: r) 0 = .ok n ∧ n ≤ s.length) ∧
    ∀ k, ∃ n, getUnicodeCharStringByteCount k (s ++ 0 :: r) 0 = .ok n ∧ n ≤ s.length

/-- **C62 is violated.** A first byte of a longer character at the end of the text makes the functions step over the
terminator and read behind the buffer. -/
theorem C62_violated : ¬ C62_statement := by
  intro h
  obtain ⟨⟨n, hn, -⟩, -⟩ := h [0xF0] [] (by decide)
  have hu : getUnicodeCharCount (fuelFor ([0xF0] ++ 0 :: [])) ([0xF0] ++ 0 :: []) 0 = .ub := by decide +kernel
  exact nomatch hu.symm.trans hn

/-- The same for the number of bytes: two characters of a text of one byte. -/
theorem C62_violated_bytes : ∃ s : Bytes, 0 ∉ s ∧ getUnicodeCharStringByteCount 2 (s ++ [0]) 0 = .ub ∧
    getUnicodeCharStringByteCount 1 (s ++ [0]) 0 = .ok 4 ∧ s.length = 1 := 
  ⟨[0xF0], by decide, by decide +kernel, by decide +kernel, rfl⟩

/-- **C62, valid texts.** The number of characters; the number of bytes of the first `k` characters; the number of characters
beginning below a limit. Missing for C62: texts that are not valid. -/
theorem C62_count_partial (cps : List Nat) (h : ∀ cp ∈ cps, cp < 0x110000 ∧ cp ≠ 0) (r : Bytes) :
    getUnicodeCharCount (fuelFor (utf8s cps ++ 0 :: r)) (utf8s cps ++ 0 :: r) 0 = .ok cps.length ∧
    (∀ k, getUnicodeCharStringByteCount k (utf8s cps ++ 0 :: r) 0 = .ok (utf8s (cps.take k)).length) ∧
    ∀ max : Nat, ∃ k, getUnicodeCharCountMax (fuelFor (utf8s cps ++ 0 :: r)) (utf8s cps ++ 0 :: r) max 0 = .ok k ∧
      k ≤ cps.length ∧ (k = cps.length ∨ max ≤ (utf8s (cps.take k)).length) ∧
      ∀ i, i < k → (utf8s (cps.take i)).length < max := by
  have hl : ∀ l : List Nat, l.length ≤ (utf8s l).length := by
    intro l
    induction l with
    | nil => simp
    | cons c l ih => rw [utf8s_cons, List.length_append, List.length_cons]; have := utf8_length_pos c; omega
  have hf : cps.length < fuelFor (utf8s cps ++ 0 :: r) := Nat.lt_of_le_of_lt (hl cps) (fuel_gt _ _ _)
  refine ⟨?_, fun k => ?_, fun max => ?_⟩
  · rw [charCount_spec r cps _ 0 hf h, Nat.zero_add]
  · rw [byteCount_spec r k cps 0 h, Nat.zero_add]
  · obtain ⟨k, h1, h2, h3, h4⟩ := charCountMax_spec r cps _ max 0 hf h
    refine ⟨k, by rw [h2, Nat.zero_add], h1, ?_, fun i hi => ?_⟩
    · rcases h3 with h3 | h3
      · exact .inl h3
      · right; omega
    · have := h4 i hi; omega

example : getUnicodeCharCount 20 (utf8s [0x61, 0xE9, 0x20AC, 0x1F600] ++ [0]) 0 = .ok 4 ∧
    getUnicodeCharStringByteCount 3 (utf8s [0x61, 0xE9, 0x20AC, 0x1F600] ++ [0]) 0 = .ok 6 ∧
    getUnicodeCharCountMax 20 (utf8s [0x61, 0xE9, 0x20AC, 0x1F600] ++ [0]) 4 0 = .ok 3 := by decide +kernel

/-- **C62, with a limit.** The count with a limit reads only bytes below the limit, for arbitrary bytes. -/
theorem C62_limit_partial (t : Bytes) (max : Nat) (h : max ≤ t.length) :
    ∃ k, getUnicodeCharCountMax (fuelFor t) t max 0 = .ok k ∧ k ≤ max := by
  obtain ⟨k, h1, h2⟩ := charCountMax_safe t.length t max 0 (by omega) (by omega)
  exact ⟨k, by rw [fuelFor, h1, Nat.zero_add], by omega⟩

example : getUnicodeCharCountMax 3 [0xF0, 0xF0] 2 0 = .ok 1 := by decide +kernel

theorem prev_cont : ∀ (l before : Bytes) (max c : Nat) (a : Byte), (∀ x ∈ l, 0x80 ≤ x.toNat ∧ x.toNat < 0xC0) →
    ¬ (0x80 ≤ a.toNat ∧ a.toNat < 0xC0) → l.length + 1 ≤ max →
    getPreviousUnicodeCharByteCount (l ++ a :: before) max c = .ok (c + l.length + 1)
  | [], before, 0, c, a, _, _, h => by simp at h
  | [], before, max + 1, c, a, _, ha, _ => by
      rw [List.nil_append, getPreviousUnicodeCharByteCount, if_neg (by omega)]; rfl
  | x :: l, before, 0, c, a, _, _, h => by simp at h
  | x :: l, before, max + 1, c, a, hl, ha, h => by
      have hx := hl x (by simp)
      rw [List.cons_append, getPreviousUnicodeCharByteCount, if_pos (by omega),
        prev_cont l before max (c + 1) a (fun y hy => hl y (List.mem_cons_of_mem _ hy)) ha (by simp at h; omega)]
      simp; omega

/-- **C62, neighbours.** At the end of a character, the number of bytes to go back, and at its beginning, the number of bytes
to go forward, are the number of bytes of the character (limited by `max`). -/
theorem C62_neighbours_partial (cp : Nat) (h : cp < 0x110000) (before rest : Bytes) (max : Nat) :
    getNextUnicodeCharByteCount (utf8 cp ++ rest) max = .ok (min max (utf8 cp).length) ∧
    ((utf8 cp).length ≤ max →
      getPreviousUnicodeCharByteCount ((utf8 cp).reverse ++ before) max 0 = .ok (utf8 cp).length) := by
  constructor
  · obtain ⟨a, l, e, hs⟩ := charStep_utf8 cp h
    rw [getNextUnicodeCharByteCount, ← hs]
    rw [e, List.cons_append, rd_cons_zero, Out.ok_bind]
  · intro hm
    have key : ∀ (l : Bytes) (a : Byte), utf8 cp = a :: l → (∀ x ∈ l, 0x80 ≤ x.toNat ∧ x.toNat < 0xC0) →
        ¬ (0x80 ≤ a.toNat ∧ a.toNat < 0xC0) →
        getPreviousUnicodeCharByteCount ((utf8 cp).reverse ++ before) max 0 = .ok (utf8 cp).length := by
      intro l a e hl ha
      rw [e] at hm ⊢
      rw [List.reverse_cons, List.append_assoc, List.singleton_append,
        prev_cont l.reverse before max 0 a (fun x hx => hl x (List.mem_reverse.1 hx)) ha (by simpa using hm)]
      simp
    rcases utf8_cases cp h with ⟨h1, a, e, ha⟩ | ⟨h1, h2, a, b, e, ha, hb⟩ |
      ⟨h1, h2, a, b, c, e, ha, hb, hc⟩ | ⟨h1, a, b, c, d, e, ha, hb, hc, hd⟩
    · exact key [] a e (by simp) (by omega)
    · exact key [b] a e (by simp; omega) (by omega)
    · exact key [b, c] a e (by simp; omega) (by omega)
    · exact key [b, c, d] a e (by simp; omega) (by omega)

example : getNextUnicodeCharByteCount (utf8 0x20AC ++ [0x61]) 9 = .ok 3 ∧
    getPreviousUnicodeCharByteCount ((utf8 0x20AC).reverse ++ [0x61]) 4 0 = .ok 3 := by decide +kernel

/-- **C62, going forward in arbitrary bytes**: the number of bytes announced by the first one. -/
theorem C62_next_partial (c : Byte) (t : Bytes) (max : Nat) :
    getNextUnicodeCharByteCount (c :: t) max = .ok (min max (announced c)) := by
  have key : ∀ n, n < 256 → charStep (UInt8.ofNat n) = announced (UInt8.ofNat n) := by decide +kernel
  have h := key c.toNat (by have := c.toNat_lt; omega)
  rw [UInt8.ofNat_toNat] at h
  rw [getNextUnicodeCharByteCount, rd_cons_zero, Out.ok_bind, h]

example : getNextUnicodeCharByteCount [0xC0, 0xFF] 9 = .ok 2 ∧ announced 0xC0 = 2 ∧ announced 0xFF = 1 := by decide +kernel

/-- **C62, going back in arbitrary bytes.** At most `max` bytes before the pointer are read. -/
theorem C62_previous_partial : ∀ (before : Bytes) (max c : Nat), max ≤ before.length →
    ∃ k, getPreviousUnicodeCharByteCount before max c = .ok (c + k) ∧ k ≤ max
  | _, 0, c, _ => ⟨0, by rw [getPreviousUnicodeCharByteCount]; rfl, Nat.le_refl _⟩
  | [], max + 1, c, h => by simp at h
  | a :: before, max + 1, c, h => by
      rw [getPreviousUnicodeCharByteCount]
      split
      · obtain ⟨k, h1, h2⟩ := C62_previous_partial before max (c + 1) (by simp at h; omega)
        exact ⟨k + 1, by rw [h1]; congr 1; omega, by omega⟩
      · exact ⟨1, rfl, by omega⟩

example : getPreviousUnicodeCharByteCount [0x80, 0x80, 0x80] 3 0 = .ok 3 := by decide +kernel

end Verif.Props
