import Verif.Lemmas.TextScan
import Verif.Props.Text

/-!
# Properties of searching, comparing and scanning: C65 – C78
-/

namespace Verif.Props

open Verif Verif.Text Verif.Str Verif.Texts Verif.Tools

/-! ## C65: searching for and counting characters -/

/-- **C65.** `FindChar` returns the first position of a character in a C string, or -1; with a limit it looks at
no more bytes than allowed; `CountChars` counts the occurrences among them. None reads past the terminator or
past the limit. -/
theorem C65_find_char :
    (∀ t s k, Holds t s → ∃ o, findChar t k = .ok o ∧
      Least (fun j => ∃ c, s[j]? = some c ∧ c.toNat = k) s.length o) ∧
    (∀ t s k (max : Int), -2 ^ 31 < max → Within max.toNat t s → ∃ o, findCharMax t k max = .ok o ∧
      Least (fun j => ∃ c, s[j]? = some c ∧ c.toNat = k) s.length o) ∧
    (∀ t s k (max : Int), Within max.toNat t s →
      countChars t k max = .ok (s.filter fun c => c.toNat = k).length) := by
  refine ⟨fun t s k h => ?_, fun t s k max hm h => ?_, fun t s k max h => ?_⟩
  · obtain ⟨h0, r, rfl⟩ := h
    obtain ⟨o, h1, h2⟩ := findCharFrom_spec k r s 0 h0
    exact ⟨o, by rw [findChar, h1]; cases o <;> simp, h2⟩
  · obtain ⟨o, h1, h2⟩ := findCharMaxFrom_spec k max.toNat t s 0 h
    exact ⟨o, by rw [findCharMax, limit_ok (by omega), Out.ok_bind, h1]; cases o <;> simp, h2⟩
  · rw [countChars, countFrom_spec k _ t s 0 h]; simp

/-- "a,b,c": the first comma is at 1; two commas, one of them among the first three bytes; the text need not
be terminated within the limit. -/
example : findChar (ascii "a,b,c" ++ [0]) 44 = .ok (some 1) ∧ findChar (ascii "a,b,c" ++ [0, 44]) 59 = .ok none ∧
    findCharMax (ascii "a,b,c") 99 4 = .ok none ∧ countChars (ascii "a,b,c") 44 3 = .ok 1 ∧
    countChars (ascii "a,b,c" ++ [0]) 44 100 = .ok 2 := by decide

/-- The counter is decremented once too often for the least limit: undefined. -/
theorem C65_least_limit (t : Bytes) (k : Nat) : findCharMax t k (-2 ^ 31) = .ub := rfl

/-- The next limit is defined. -/
example : findCharMax [] 44 (-2 ^ 31 + 1) = .ok none := by decide

/-! ## C66: hashing -/

/-- **C66.** `Hash` depends only on the contents of a C string, and two C strings that differ in exactly one
byte have different hashes. -/
theorem C66_hash :
    (∀ t t' s, Holds t s → Holds t' s → ∃ h, hashText t = .ok h ∧ hashText t' = .ok h) ∧
    (∀ t t' p q c d, Holds t (p ++ c :: q) → Holds t' (p ++ d :: q) → c ≠ d →
      ∃ h h', hashText t = .ok h ∧ hashText t' = .ok h' ∧ h ≠ h') := by
  refine ⟨?_, ?_⟩
  · rintro t t' s ⟨h0, r, rfl⟩ ⟨_, r', rfl⟩
    exact ⟨_, hashLoop_spec r s 0 h0, hashLoop_spec r' s 0 h0⟩
  · rintro t t' p q c d ⟨h0, r, rfl⟩ ⟨h0', r', rfl⟩ hcd
    refine ⟨_, _, hashLoop_spec r _ 0 h0, hashLoop_spec r' _ 0 h0', fun e => hcd ?_⟩
    rw [List.foldl_append, List.foldl_append, List.foldl_cons, List.foldl_cons] at e
    exact hashStep_inj_byte (foldl_hash_inj q e)

/-- The hash of "ab" and of "ac". -/
example : hashText [97, 98, 0] = .ok ((97 * 0x6B84DF47 + 1 ^^^ 98) * 0x6B84DF47 + 1) ∧ hashText [97, 98, 0] ≠ hashText [97, 99, 0, 5] ∧
    hashText [0] = .ok 0 := by decide

/-! ## C67: searching outside quotes -/

/-- **C67.** `FindUnquotedChar` returns the first position at which a character other than the double quote
occurs outside double quotes (inside them a backslash takes away the meaning of the next character). -/
theorem C67_find_unquoted (t s : Bytes) (k : Nat) (hk : k ≠ 34) (h : Holds t s) :
    ∃ o, findUnquotedChar t k = .ok o ∧
      Least (fun j => (∃ c, s[j]? = some c ∧ c.toNat = k) ∧ Outside (s.take j)) s.length o := by
  obtain ⟨h0, r, rfl⟩ := h
  obtain ⟨o, h1, h2⟩ := findUnquotedFrom_spec k hk r s [] 0 h0
  refine ⟨o, ?_, by simpa using h2⟩
  rw [findUnquotedChar]
  exact h1.trans (by cases o <;> simp)

/-- `"a,\"," , `: the commas at 2 and 5 are inside the quotes, the one at 8 is not. -/
example : findUnquotedChar (ascii "\"a,\\\",\" , " ++ [0]) 44 = .ok (some 8) ∧
    Outside (ascii "\"a,\\\",\" ") := by
  refine ⟨by decide, (outside_iff _).mpr (by decide)⟩

/-! ## C68, C69: searching for texts -/

/-- **C68.** `FindText` returns the first position at which a non-empty text occurs, or -1. For the empty text it
returns -1. -/
theorem C68_find_text :
    (∀ t t' s needle, Holds t s → Holds t' needle → needle ≠ [] →
      ∃ o, findText t t' = .ok o ∧ Least (fun j => needle <+: s.drop j) s.length o) ∧
    (∀ t t' s, Holds t s → Holds t' [] → findText t t' = .ok none) := by
  refine ⟨?_, ?_⟩
  · rintro t t' s needle ⟨h0, r, rfl⟩ ⟨h0', w, rfl⟩ hn
    obtain ⟨first, u, rfl⟩ : ∃ f u, needle = f :: u := by
      cases needle with
      | nil => exact absurd rfl hn
      | cons f u => exact ⟨f, u, rfl⟩
    obtain ⟨o, h1, h2⟩ := findFrom_spec UInt8.toNat first u r w (fun h => h0' (by simp [h])) s 0 h0
    refine ⟨o, ?_, h2.congr fun j => ?_⟩
    · simp only [findText, List.cons_append]
      exact h1.trans (by cases o <;> simp)
    · have inj : ∀ (a b : Bytes), a.map UInt8.toNat <+: b.map UInt8.toNat ↔ a <+: b := by
        intro a
        induction a with
        | nil => simp
        | cons x a ih =>
          intro b
          cases b with
          | nil => simp
          | cons y b => simp only [List.map_cons, List.cons_prefix_cons, UInt8.toNat_inj, ih]
      constructor
      · rintro ⟨v, hv, hp⟩
        rw [hv, List.cons_prefix_cons]; exact ⟨rfl, (inj u v).mp hp⟩
      · intro hp
        cases hv : s.drop j with
        | nil => rw [hv] at hp; simp at hp
        | cons c v =>
          rw [hv, List.cons_prefix_cons] at hp
          exact ⟨v, by rw [hp.1], (inj u v).mpr hp.2⟩
  · rintro t t' s ⟨h0, r, rfl⟩ ⟨_, w, rfl⟩
    simp only [findText, List.nil_append]
    generalize 0 = i
    induction s generalizing i with
    | nil => simp [findFrom]
    | cons c s ih =>
      have hc : c ≠ 0 := fun e => h0 (by simp [e])
      rw [List.cons_append, findFrom, if_neg hc, if_neg hc]
      exact ih (fun h => h0 (by simp [h])) _

/-- "abaabab" contains "aba" first at 0 and "abab" first at 3, and not "bb". -/
example : findText (ascii "abaabab" ++ [0]) (ascii "aba" ++ [0]) = .ok (some 0) ∧
    findText (ascii "abaabab" ++ [0]) (ascii "abab" ++ [0]) = .ok (some 3) ∧
    findText (ascii "abaabab" ++ [0]) (ascii "bb" ++ [0]) = .ok none := by decide

/-- **C69**, full statement: `FindTextCaseless` returns the first position at which a non-empty text occurs when
the case of ASCII letters is ignored. -/
def C69_statement : Prop :=
  ∀ t t' s needle, Holds t s → Holds t' needle → needle ≠ [] →
    ∃ o, findTextCaseless t t' = .ok o ∧
      Least (fun j => needle.map capital <+: (s.drop j).map capital) s.length o

/-- The first characters are compared with regard to case: "ABC" is not found in "abc". -/
theorem C69_violated : ¬ C69_statement := by
  intro h
  obtain ⟨o, h1, h2⟩ := h [97, 98, 99, 0] [65, 66, 67, 0] [97, 98, 99] [65, 66, 67] ⟨by decide, [], rfl⟩ ⟨by decide, [], rfl⟩
    (by decide)
  have : findTextCaseless [97, 98, 99, 0] [65, 66, 67, 0] = .ok none := by decide
  rw [this] at h1
  obtain rfl : none = o := by simpa using h1
  exact h2 0 (by decide) (by decide)

theorem prefix_upper (a b : Bytes) : a.map upper <+: b.map upper ↔ a.map capital <+: b.map capital := by
  induction a generalizing b with
  | nil => simp
  | cons x a ih =>
    cases b with
    | nil => simp
    | cons y b => simp only [List.map_cons, List.cons_prefix_cons, upper_eq, UInt8.toNat_inj, ih]

/-- A character that is not an ASCII letter. -/
def NoLetter (c : Byte) : Prop := ¬ (65 ≤ c.toNat ∧ c.toNat ≤ 90) ∧ ¬ (97 ≤ c.toNat ∧ c.toNat ≤ 122)

theorem capital_noLetter {c d : Byte} (hd : NoLetter d) : capital d = capital c ↔ c = d := by
  constructor
  · intro h
    have h := congrArg UInt8.toNat h
    rw [← upper_eq, ← upper_eq] at h
    obtain ⟨h1, h2⟩ := hd
    apply UInt8.toNat_inj.mp
    unfold upper at h
    split at h <;> split at h <;> omega
  · rintro rfl; rfl

/-- **C69**, partial: a position returned by `FindTextCaseless` is an occurrence, if case is ignored; and it is
the first one (and -1 means that there is none) if the text sought does not begin with a letter. Missing: texts
that begin with a letter, for which the statement is false. -/
theorem C69_find_text_caseless_partial (t t' s needle : Bytes) (h : Holds t s) (h' : Holds t' needle) (hn : needle ≠ []) :
    ∃ o, findTextCaseless t t' = .ok o ∧
      (∀ i, o = some i → needle.map capital <+: (s.drop i).map capital) ∧
      ((∀ c, needle.head? = some c → NoLetter c) →
        Least (fun j => needle.map capital <+: (s.drop j).map capital) s.length o) := by
  obtain ⟨h0, r, rfl⟩ := h
  obtain ⟨h0', w, rfl⟩ := h'
  obtain ⟨first, u, rfl⟩ : ∃ f u, needle = f :: u := by
    cases needle with
    | nil => exact absurd rfl hn
    | cons f u => exact ⟨f, u, rfl⟩
  obtain ⟨o, h1, h2⟩ := findFrom_spec upper first u r w (fun h => h0' (by simp [h])) s 0 h0
  refine ⟨o, ?_, ?_, fun hl => h2.congr fun j => ?_⟩
  · simp only [findTextCaseless, List.cons_append]
    exact h1.trans (by cases o <;> simp)
  · rintro i rfl
    obtain ⟨_, ⟨v, hv, hp⟩, _⟩ := h2
    rw [hv]
    simp only [List.map_cons, List.cons_prefix_cons]
    exact ⟨trivial, (prefix_upper u v).mp hp⟩
  · have hf := hl first rfl
    constructor
    · rintro ⟨v, hv, hp⟩
      rw [hv]
      simp only [List.map_cons, List.cons_prefix_cons]
      exact ⟨trivial, (prefix_upper u v).mp hp⟩
    · intro hp
      cases hv : s.drop j with
      | nil => rw [hv] at hp; simp at hp
      | cons c v =>
        rw [hv] at hp
        simp only [List.map_cons, List.cons_prefix_cons] at hp
        exact ⟨v, by rw [(capital_noLetter hf).mp hp.1], (prefix_upper u v).mpr hp.2⟩

/-- "/ABC" is found in "x/abc". -/
example : findTextCaseless (ascii "x/abc" ++ [0]) (ascii "/ABC" ++ [0]) = .ok (some 1) ∧
    findTextCaseless (ascii "aBc" ++ [0]) (ascii "ABC" ++ [0]) = .ok none ∧
    findTextCaseless (ascii "aBc" ++ [0]) (ascii "abC" ++ [0]) = .ok (some 0) := by decide

/-! ## C70: comparisons with a limit and without regard to case -/

/-- **C70.** With a limit, the comparisons compare what they see of the two texts within the limit, and read
nothing else; without regard to case, they compare the texts with all ASCII letters capitalised. So the caseless
orders are total preorders whose equivalence is `CompareTextCaseless`. -/
theorem C70_compare :
    (∀ s t a b, Holds s a → Holds t b →
      (∃ r, compareTextCaseless s t = .ok r ∧ (r = true ↔ SameCaseless a b)) ∧
      (∃ r, compareTextLessThanCaseless s t = .ok r ∧ (r = true ↔ LexLtCaseless a b)) ∧
      (∃ r, compareTextLessEqualCaseless s t = .ok r ∧ (r = true ↔ ¬ LexLtCaseless b a))) ∧
    (∀ s t a b (max : Int), -2 ^ 31 < max → Within max.toNat s a → Within max.toNat t b →
      (∃ r, compareTextMax s t max = .ok r ∧ (r = true ↔ a = b)) ∧
      (∃ r, compareTextLessThanMax s t max = .ok r ∧ (r = true ↔ Spec.LexLt a b)) ∧
      (∃ r, compareTextLessEqualMax s t max = .ok r ∧ (r = true ↔ ¬ Spec.LexLt b a)) ∧
      (∃ r, compareTextCaselessMax s t max = .ok r ∧ (r = true ↔ SameCaseless a b)) ∧
      (∃ r, compareTextLessThanCaselessMax s t max = .ok r ∧ (r = true ↔ LexLtCaseless a b)) ∧
      (∃ r, compareTextLessEqualCaselessMax s t max = .ok r ∧ (r = true ↔ ¬ LexLtCaseless b a))) ∧
    (∀ a, ¬ LexLtCaseless a a) ∧
    (∀ a b c, LexLtCaseless a b → LexLtCaseless b c → LexLtCaseless a c) ∧
    (∀ a b, LexLtCaseless a b ∨ SameCaseless a b ∨ LexLtCaseless b a) := by
  obtain ⟨T, Ti, Tt, Tc⟩ := C40_text_order
  refine ⟨?_, ?_, fun a => Ti _, fun a b c => Tt _ _ _, fun a b => Tc _ _⟩
  · intro s t a b hs ht
    obtain ⟨h0, x, hx⟩ := holds_capital hs
    obtain ⟨h0', y, hy⟩ := holds_capital ht
    rw [caseless_eq, lessThanCaseless_eq, lessEqualCaseless_eq, hx, hy]
    obtain ⟨t1, t2, t3⟩ := T _ _ x y h0 h0'
    exact ⟨t3, t1, t2⟩
  · intro s t a b max hm hs ht
    have hl := limit_ok (max := max) (by omega)
    have cs := within_capital hs
    have ct := within_capital ht
    simp only [compareTextMax, compareTextLessThanMax, compareTextLessEqualMax, compareTextCaselessMax,
      compareTextLessThanCaselessMax, compareTextLessEqualCaselessMax, hl, Out.ok_bind, caselessMax_eq,
      lessThanCaselessMax_eq, lessEqualCaselessMax_eq, compareMax_eq _ _ _ _ _ hs ht, lessThanMax_eq _ _ _ _ _ hs ht,
      lessEqualMax_eq _ _ _ _ _ hs ht, compareMax_eq _ _ _ _ _ cs ct, lessThanMax_eq _ _ _ _ _ cs ct,
      lessEqualMax_eq _ _ _ _ _ cs ct]
    obtain ⟨t1, t2, t3⟩ := T a b [] [] hs.1 ht.1
    obtain ⟨u1, u2, u3⟩ := T _ _ [] [] cs.1 ct.1
    exact ⟨t3, t1, t2, u3, u1, u2⟩

/-- "Abc" and "aBd" are equal in two characters when case is ignored, and then in order; '_' is greater than
every letter. -/
example : compareTextCaselessMax (ascii "Abc") (ascii "aBd") 2 = .ok true ∧
    compareTextCaseless (ascii "Abc" ++ [0]) (ascii "aBd" ++ [0]) = .ok false ∧
    compareTextLessThanCaseless (ascii "aBc" ++ [0]) (ascii "Abd" ++ [0]) = .ok true ∧
    compareTextLessThanCaseless (ascii "z" ++ [0]) (ascii "_" ++ [0]) = .ok true ∧
    compareTextLessThanMax (ascii "ab") (ascii "ac") 1 = .ok false ∧
    compareTextLessEqualMax (ascii "ab") (ascii "aa") 1 = .ok true := by decide

/-! ## C71: texts with numbers -/

/-- **C71**, full statement: `CompareNumberedTextLessThan` is an order: of two texts at most one is less than
the other; and numbers are compared by their values. -/
def C71_statement : Prop :=
  (∀ s t a b, Holds s a → Holds t b → ¬ (compareNumbered s t = .ok true ∧ compareNumbered t s = .ok true)) ∧
  (∀ s t a b m n, Holds s a → Holds t b → NatText m a → NatText n b →
    ∃ r, compareNumbered s t = .ok r ∧ (r = true ↔ m < n))

/-- With leading zeros both "1b" < "01a" and "01a" < "1b". -/
theorem C71_violated : ¬ C71_statement := by
  intro h
  exact h.1 (ascii "1b" ++ [0]) (ascii "01a" ++ [0]) (ascii "1b") (ascii "01a") ⟨by decide, [], rfl⟩ ⟨by decide, [], rfl⟩
    (by decide)

/-- Numbers are compared modulo 2^32: "4294967296" < "1". -/
theorem C71_violated_large : ∃ s t a b m n, Holds s a ∧ Holds t b ∧ NatText m a ∧ NatText n b ∧ n < m ∧
    compareNumbered s t = .ok true :=
  ⟨ascii "4294967296" ++ [0], ascii "1" ++ [0], ascii "4294967296", ascii "1", 4294967296, 1, ⟨by decide, [], rfl⟩,
    ⟨by decide, [], rfl⟩, ⟨⟨by decide, by decide, by decide⟩, by decide⟩, ⟨⟨by decide, by decide, by decide⟩, by decide⟩,
    by decide, by decide⟩

/-- **C71**, partial: on texts whose numbers have no superfluous zeros and are below 2^32,
`CompareNumberedTextLessThan` orders by parts (numbers by value, the other characters by their codes), and this is
a strict total order; the caseless variant does the same with capital letters. Missing: leading zeros and larger
numbers, for which the statement is false. -/
theorem C71_numbered_partial :
    (∀ s t a b ps qs, Holds s a → Holds t b → Parts (2 ^ 32) UInt8.toNat a ps → Parts (2 ^ 32) UInt8.toNat b qs →
      (∃ r, compareNumbered s t = .ok r ∧ (r = true ↔ LexBy Part.lt ps qs)) ∧
      (LexBy Part.lt ps qs ∨ a = b ∨ LexBy Part.lt qs ps)) ∧
    (∀ s t a b ps qs, Holds s a → Holds t b → Parts (2 ^ 32) (fun c => (capital c).toNat) a ps →
      Parts (2 ^ 32) (fun c => (capital c).toNat) b qs →
      (∃ r, compareNumberedCaseless s t = .ok r ∧ (r = true ↔ LexBy Part.lt ps qs)) ∧
      (LexBy Part.lt ps qs ∨ ps = qs ∨ LexBy Part.lt qs ps)) ∧
    (∀ ps, ¬ LexBy Part.lt ps ps) ∧
    (∀ ps qs rs, LexBy Part.lt ps qs → LexBy Part.lt qs rs → LexBy Part.lt ps rs) := by
  refine ⟨?_, ?_, lexBy_irrefl part_lt_irrefl, lexBy_trans part_lt_trans⟩
  · rintro s t a b ps qs ⟨h0, x, rfl⟩ ⟨h0', y, rfl⟩ ha hb
    refine ⟨numbered_spec charValue_toNat ha b qs x y _ hb h0 h0' (by simp; omega), ?_⟩
    rcases parts_total charValue_toNat ha b qs hb with h | rfl | h
    · exact .inl h
    · exact .inr (.inl (parts_injective (fun c d h => UInt8.toNat_inj.mp h) ha b hb))
    · exact .inr (.inr h)
  · rintro s t a b ps qs ⟨h0, x, rfl⟩ ⟨h0', y, rfl⟩ ha hb
    rw [show (fun c => (capital c).toNat) = upper from funext fun c => (upper_eq c).symm] at ha hb
    exact ⟨numbered_spec charValue_upper ha b qs x y _ hb h0 h0' (by simp; omega), parts_total charValue_upper ha b qs hb⟩

/-- Numbered texts below the bound are compared by value, as in the full statement. -/
theorem C71_value_partial (s t a b : Bytes) (m n : Nat) (hs : Holds s a) (ht : Holds t b) (ha : NatText m a)
    (hb : NatText n b) (hm : m < 2 ^ 32) (hn : n < 2 ^ 32) : ∃ r, compareNumbered s t = .ok r ∧ (r = true ↔ m < n) := by
  have pa : Parts (2 ^ 32) UInt8.toNat a [.num m] := by
    have := Parts.num (f := UInt8.toNat) (t := []) ha hm (by simp) .nil
    simpa using this
  have pb : Parts (2 ^ 32) UInt8.toNat b [.num n] := by
    have := Parts.num (f := UInt8.toNat) (t := []) hb hn (by simp) .nil
    simpa using this
  obtain ⟨⟨r, h1, h2⟩, _⟩ := C71_numbered_partial.1 s t a b _ _ hs ht pa pb
  refine ⟨r, h1, h2.trans ?_⟩
  rw [lexBy_cons]
  simp [Part.lt, not_lexBy_nil]

/-- "file9" < "file10" < "filex", and "File9" < "fILE10" without regard to case. -/
example : compareNumbered (ascii "file9" ++ [0]) (ascii "file10" ++ [0]) = .ok true ∧
    compareNumbered (ascii "file10" ++ [0]) (ascii "filex" ++ [0]) = .ok true ∧
    compareNumbered (ascii "fi2" ++ [0]) (ascii "fi2" ++ [0, 1]) = .ok false ∧
    compareNumberedCaseless (ascii "File9" ++ [0]) (ascii "fILE10" ++ [0]) = .ok true ∧
    Parts (2 ^ 32) UInt8.toNat (ascii "f9x") [.chr 102, .num 9, .chr 120] :=
  ⟨by decide, by decide, by decide, by decide,
    .chr (by unfold IsDigit; decide) (.num (d := [57]) ⟨⟨by decide, by decide, by decide⟩, by decide⟩ (by decide)
      (by intro c h; cases h; unfold IsDigit; decide) (.chr (by unfold IsDigit; decide) .nil))⟩

/-! ## C72: `ReadInteger` -/

/-- **C72.** Into a buffer of more than `max` bytes, `ReadInteger` copies an optional minus sign and the digits
after it, as far as `max` allows, and a terminator; it returns the number of characters copied and changes
nothing else. -/
theorem C72_read_integer (t s b : Bytes) (max : Nat) (hs : Holds t s) (hb : max < b.length) :
    ∃ w, IntegerAt max s w ∧ readInteger t max b = .ok (w ++ 0 :: b.drop (w.length + 1), w.length) := by
  obtain ⟨h0, r, rfl⟩ := hs
  have key : ∀ (v : Bytes) (m i d : Nat) (b : Bytes), d + m < b.length →
      ∃ ds u, v = ds ++ u ∧ (∀ c ∈ ds, IsDigit c) ∧ ds.length ≤ m ∧
        (ds.length < m → ∀ c, u.head? = some c → ¬ IsDigit c) ∧
        readIntLoop m i (v ++ 0 :: r) d b = .ok (put b d (ds ++ [0]), i + ds.length) := by
    intro v m i d b hb
    obtain ⟨ds, u, rfl, hd, hu⟩ := split_digits v
    obtain ⟨c, u', e, hc⟩ := head_rest (x := r) hu
    refine ⟨ds.take m, ds.drop m ++ u, by rw [← List.append_assoc, List.take_append_drop],
      fun c h => hd c (List.mem_of_mem_take h), by simp; omega, ?_, ?_⟩
    · intro h
      rw [List.drop_eq_nil_of_le (by simp at h; omega)]
      simpa using hu
    · rw [List.append_assoc, e, readIntLoop_spec c u' hc m ds i d b hd (by omega)]
      simp
  cases s with
  | nil =>
    refine ⟨[], ⟨[], [], [], rfl, rfl, .inl rfl, by simp, by simp, by simp⟩, ?_⟩
    obtain ⟨ds, u, e, _, _, _, h⟩ := key [] max 0 0 b (by omega)
    obtain ⟨rfl, rfl⟩ := List.append_eq_nil_iff.mp e.symm
    rw [List.nil_append] at h ⊢
    rw [readInteger, if_neg (by decide), limit_ok (by omega)]
    exact h.trans (by rw [put_zero]; rfl)
  | cons c s =>
    have h0' : 0 ∉ s := fun h => h0 (by simp [h])
    simp only [List.cons_append, readInteger]
    by_cases hc : c = 45
    · subst hc
      rw [if_pos rfl, limit_ok (by omega), Out.ok_bind]
      cases max with
      | zero =>
        refine ⟨[], ⟨[], [], 45 :: s, rfl, rfl, .inl rfl, by simp, by simp, by simp⟩, ?_⟩
        rw [if_neg (by omega), limit_ok (by omega), Out.ok_bind, show ((0 : Nat) - 1 : Int).toNat = 0 from rfl, readIntLoop,
          finish_ok hb, put_zero]; rfl
      | succ m =>
        obtain ⟨ds, u, e, hd, hl, hn, h⟩ := key s m 1 1 (put b 0 [45]) (by rw [length_put (by simp; omega)]; omega)
        refine ⟨45 :: ds, ⟨[45], ds, u, by rw [e]; rfl, rfl, .inr rfl, hd, by simpa using hl,
          fun h => ⟨hn (by simpa using h), by simp⟩⟩, ?_⟩
        rw [if_pos (by omega), wr_ok (by omega), Out.ok_bind, limit_ok (by omega), Out.ok_bind,
          show (((m + 1 : Nat) : Int) - 1).toNat = m by omega, h, put_put (d := 0) (by omega), put_zero]
        simp [Nat.add_comm]
    · obtain ⟨ds, u, e, hd, hl, hn, h⟩ := key (c :: s) max 0 0 b (by omega)
      refine ⟨ds, ⟨[], ds, u, e, rfl, .inl rfl, hd, hl, fun hm => ⟨hn hm, ?_⟩⟩, ?_⟩
      · rintro rfl
        obtain rfl : c :: s = u := e
        simpa using hc
      · rw [if_neg hc, limit_ok (by omega), Out.ok_bind, Int.toNat_natCast]
        exact h.trans (by rw [put_zero]; simp)

/-- "-12x" is read into four bytes as "-12"; with `max` = 2 as "-1". -/
example : readInteger (ascii "-12x" ++ [0]) 3 [9, 9, 9, 9, 9] = .ok (ascii "-12" ++ [0, 9], 3) ∧
    readInteger (ascii "-12x" ++ [0]) 2 [9, 9, 9] = .ok (ascii "-1" ++ [0], 2) ∧
    readInteger (ascii "7" ++ [0]) 2 [9, 9] = .ok ([55, 0], 1) := by decide

/-! ## C73: `ReadFloat` -/

/-- **C73**, full statement: `ReadFloat` reads every number of RFC 8259 that is followed by something that cannot
continue it. -/
def C73_statement : Prop :=
  ∀ (w : Bytes) (d : Spec.Dec) (c : Byte) (r b : Bytes) (max : Nat), Spec.RfcNum w d → EndsNumber c → w.length ≤ max →
    max < b.length →
    readFloat (w ++ c :: r) max b = .ok (w ++ 0 :: b.drop (w.length + 1), w.length)

/-- A sign in the exponent is not read: of "1e-5" only "1e". -/
theorem C73_violated : ¬ C73_statement := by
  intro h
  have hn : Spec.RfcNum (ascii "1e-5") ⟨false, 1, -5⟩ :=
    .pos (i := [49]) (ft := []) (fd := []) (et := [101, 45, 53]) (e := -5)
      (.pos (ds := []) (by unfold Spec.Digit; decide) (by decide) (by simp)) .none
      (.minus (ds := [53]) (.inl rfl) (by simp) (by simp [Spec.Digit]))
  have := h _ _ 44 [0] [9, 9, 9, 9, 9] 4 hn (by unfold EndsNumber IsDigit; decide) (by decide) (by decide)
  revert this
  decide

theorem readFloat_loop {c : Byte} {t b : Bytes} {max : Nat} (hc : c ≠ 45) :
    readFloat (c :: t) max b = readFloatLoop max false false true 0 (c :: t) 0 b := by
  rw [readFloat, if_neg hc, limit_ok (by omega)]; rfl

theorem readFloat_minus {t b : Bytes} {m : Nat} (hb : 0 < b.length) :
    readFloat (45 :: t) ((m + 1 : Nat) : Int) b = readFloatLoop m false false true 1 t 1 (put b 0 [45]) := by
  rw [readFloat, if_pos rfl, limit_ok (by omega), Out.ok_bind, if_pos (by omega), wr_ok hb, Out.ok_bind,
    limit_ok (by omega), Out.ok_bind, show (((m + 1 : Nat) : Int) - 1).toNat = m by omega]

/-- A number without a sign in the exponent, read by the loop. -/
theorem readFloatLoop_number {i ft fd et : Bytes} {e : Int} {c : Byte} {r : Bytes} (hi : Spec.RfcInt i)
    (hf : Spec.RfcFrac ft fd) (he : Spec.RfcExp et e) (hp : 43 ∉ et) (hm : 45 ∉ et) (hc : EndsNumber c) (m k d : Nat) (b : Bytes)
    (hl : (i ++ (ft ++ et)).length ≤ m) (hb : d + m < b.length) :
    readFloatLoop m false false true k (i ++ (ft ++ et) ++ c :: r) d b =
      .ok (put b d (i ++ (ft ++ et) ++ [0]), k + (i ++ (ft ++ et)).length) := by
  have hid : ∀ c ∈ i, IsDigit c := by
    cases hi with
    | zero => intro c h; obtain rfl := List.mem_singleton.mp h; unfold IsDigit; decide
    | pos h1 _ h2 =>
      intro c h
      rcases List.mem_cons.mp h with rfl | h
      · exact h1
      · exact h2 c h
  have hine : i ≠ [] := by cases hi <;> simp
  simp only [List.length_append] at hl
  -- the exponent
  have E : ∀ (m' : Nat) (dec : Bool) (k' d' : Nat) (b' : Bytes), et.length ≤ m' → d' + m' < b'.length →
      readFloatLoop m' dec false true k' (et ++ c :: r) d' b' = .ok (put b' d' (et ++ [0]), k' + et.length) := by
    intro m' dec k' d' b' hl' hb'
    cases he with
    | none => rw [List.nil_append, readFloatLoop_stop c hc _ _ _ _ _ _ _ _ (by omega)]; rfl
    | @unsigned x ds hx hne hds =>
      simp only [List.length_cons] at hl'
      obtain ⟨m'', rfl⟩ : ∃ j, m' = j + ds.length + 1 := ⟨m' - (ds.length + 1), by omega⟩
      have l1 : (put b' d' [x]).length = b'.length := length_put (by simp; omega)
      rw [List.cons_append, readFloatLoop_e x hx _ _ _ _ _ _ _ (by omega),
        readFloatLoop_digits ds _ _ _ _ _ _ _ _ hds (by rw [l1]; omega),
        readFloatLoop_stop c hc _ _ _ _ _ _ _ _ (by rw [length_put (by rw [l1]; omega), l1]; omega),
        put_append (by rw [l1]; omega), put_put (by omega)]
      simp; omega
    | plus => exact absurd (by simp) hp
    | minus => exact absurd (by simp) hm
  obtain ⟨m1, rfl⟩ : ∃ j, m = j + i.length := ⟨m - i.length, by omega⟩
  have l0 : (put b d i).length = b.length := length_put (by omega)
  rw [List.append_assoc, readFloatLoop_digits i m1 _ _ _ _ _ _ _ hid (by omega), Bool.true_or]
  cases hf with
  | none =>
    rw [List.nil_append, E _ _ _ _ _ (by simp at hl; omega) (by rw [l0]; omega), put_append (by omega)]
    simp [Nat.add_assoc]
  | some hne hds =>
    simp only [List.length_cons] at hl
    obtain ⟨m2, rfl⟩ : ∃ j, m1 = j + fd.length + 1 := ⟨m1 - (fd.length + 1), by omega⟩
    have l1 : (put (put b d i) (d + i.length) [46]).length = b.length := by rw [length_put (by rw [l0]; simp; omega), l0]
    have l2 : (put (put (put b d i) (d + i.length) [46]) (d + i.length + 1) fd).length = b.length := by
      rw [length_put (by rw [l1]; omega), l1]
    rw [List.append_assoc, List.cons_append, readFloatLoop_point _ _ _ _ _ _ _ (by rw [l0]; omega),
      readFloatLoop_digits fd _ _ _ _ _ _ _ _ hds (by rw [l1]; omega), Bool.true_or,
      E _ _ _ _ _ (by omega) (by rw [l2]; omega), put_append (by rw [l1]; omega), put_put (by rw [l0]; omega),
      put_append (by omega)]
    simp; omega

/-- **C73**, partial: it reads every number of RFC 8259 without a sign in the exponent. Missing: signed exponents,
for which the statement is false. -/
theorem C73_read_float_partial (w : Bytes) (d : Spec.Dec) (c : Byte) (r b : Bytes) (max : Nat) (hw : Spec.RfcNum w d)
    (hs : 43 ∉ w ∧ 45 ∉ w.tail) (hc : EndsNumber c) (hl : w.length ≤ max) (hb : max < b.length) :
    readFloat (w ++ c :: r) max b = .ok (w ++ 0 :: b.drop (w.length + 1), w.length) := by
  cases hw with
  | @pos i ft fd et e hi hf he =>
    have hh : ∃ x u, i ++ (ft ++ et) = x :: u ∧ x ≠ 45 ∧ 45 ∉ et := by
      cases hi with
      | zero => exact ⟨48, _, rfl, by decide, fun h => hs.2 (by simp [h])⟩
      | @pos x ds h1 _ _ =>
        refine ⟨x, _, rfl, ?_, fun h => hs.2 (by simp [h])⟩
        rintro rfl; revert h1; unfold Spec.Digit; decide
    obtain ⟨x, u, e1, hx, hm⟩ := hh
    have := readFloatLoop_number (r := r) hi hf he (fun h => hs.1 (by simp [h])) hm hc max 0 0 b hl (by omega)
    rw [show i ++ (ft ++ et) ++ c :: r = x :: (u ++ c :: r) by rw [e1]; rfl] at this ⊢
    rw [readFloat_loop hx, this, put_zero]
    simp; omega
  | @neg i ft fd et e hi hf he =>
    simp only [List.length_cons] at hl
    obtain ⟨m, rfl⟩ : ∃ j, max = j + 1 := ⟨max - 1, by omega⟩
    have l1 : (put b 0 [45]).length = b.length := length_put (by simp; omega)
    have := readFloatLoop_number (r := r) hi hf he (fun h => hs.1 (by simp [h])) (fun h => hs.2 (by simp [h])) hc m 1 1
      (put b 0 [45]) (by omega) (by omega)
    rw [List.cons_append, readFloat_minus (by omega), this, put_put (d := 0) (by omega), put_zero]
    simp [Nat.add_comm]; omega

/-- **C73**, partial: whatever the text is, `ReadFloat` copies a part of it of at most `max` characters, and writes
nothing outside a buffer of more than `max` bytes. -/
theorem C73_safe_partial (t s b : Bytes) (max : Nat) (hs : Holds t s) (hb : max < b.length) :
    ∃ w v, s = w ++ v ∧ w.length ≤ max ∧ readFloat t max b = .ok (w ++ 0 :: b.drop (w.length + 1), w.length) := by
  obtain ⟨h0, r, rfl⟩ := hs
  cases s with
  | nil =>
    obtain ⟨w, v, e, hl, h⟩ := readFloatLoop_safe r max [] false false true 0 0 b (by simp) (by omega)
    refine ⟨w, v, e, hl, ?_⟩
    rw [List.nil_append] at h ⊢
    rw [readFloat_loop (by decide), h, put_zero]; simp
  | cons c s =>
    by_cases hc : c = 45
    · subst hc
      cases max with
      | zero =>
        refine ⟨[], 45 :: s, rfl, by simp, ?_⟩
        rw [List.cons_append, readFloat, if_pos rfl, limit_ok (by omega), Out.ok_bind, if_neg (by omega),
          limit_ok (by omega), Out.ok_bind, show (((0 : Nat) : Int) - 1).toNat = 0 from rfl, readFloatLoop, finish_ok hb, put_zero]
        rfl
      | succ m =>
        have l1 : (put b 0 [45]).length = b.length := length_put (by simp; omega)
        obtain ⟨w, v, rfl, hl, h⟩ := readFloatLoop_safe r m s false false true 1 1 (put b 0 [45])
          (fun h => h0 (by simp [h])) (by omega)
        refine ⟨45 :: w, v, rfl, by simpa using hl, ?_⟩
        rw [List.cons_append, readFloat_minus (by omega), h, put_put (d := 0) (by omega), put_zero]
        simp [Nat.add_comm]
    · obtain ⟨w, v, e, hl, h⟩ := readFloatLoop_safe r max (c :: s) false false true 0 0 b h0 (by omega)
      refine ⟨w, v, e, hl, ?_⟩
      rw [List.cons_append] at h ⊢
      rw [readFloat_loop hc, h, put_zero]; simp

/-- "-1.5E2," is read, of "1.5e-2" only "1.5e", and two characters of "12345". -/
example : readFloat (ascii "-1.5E2," ++ [0]) 10 (List.replicate 11 9) = .ok (ascii "-1.5E2" ++ [0, 9, 9, 9, 9], 6) ∧
    readFloat (ascii "1.5e-2" ++ [0]) 10 (List.replicate 11 9) = .ok (ascii "1.5e" ++ [0, 9, 9, 9, 9, 9, 9], 4) ∧
    readFloat (ascii "12345" ++ [0]) 2 [9, 9, 9] = .ok ([49, 50, 0], 2) := by decide

/-! ## C74: `ReadString` -/

/-- **C74**, full statement: of a text in double quotes, `ReadString` stores the first `max` characters, without the
quotes and the backslashes before quotes and backslashes. -/
def C74_statement : Prop :=
  ∀ (t s r b : Bytes) (max : Nat), Inner 34 t s → 0 ∉ t → max < b.length →
    ∃ b' n, readString (34 :: (t ++ 34 :: r)) max b = .ok (b', n) ∧ Holds b' (s.take max)

/-- The limit counts the backslashes, too: of `"\"\"x"` with `max` = 2 only one character is stored. -/
theorem C74_violated : ¬ C74_statement := by
  intro h
  obtain ⟨b', n, h1, h2⟩ := h [92, 34, 92, 34] [34, 34] [0] [9, 9, 9] 2 (.escape (.escape .nil)) (by decide) (by decide)
  have : readString (34 :: ([92, 34, 92, 34] ++ 34 :: [0])) (2 : Nat) [9, 9, 9] = .ok ([34, 0, 9], 3) := by decide
  rw [this] at h1
  obtain ⟨rfl, rfl⟩ : [34, 0, 9] = b' ∧ 3 = n := by simpa using h1
  have := holds_unique h2 (s' := [34]) ⟨by decide, [9], rfl⟩
  revert this; decide

/-- **C74**, partial: a text in double quotes whose quoted form is shorter than `max` is stored completely, and the
closing quote is consumed. Missing: longer ones, for which the statement is false. -/
theorem C74_quoted_partial (t s r b : Bytes) (max : Nat) (h : Inner 34 t s) (h0 : 0 ∉ t) (hl : t.length < max)
    (hb : max < b.length) :
    readString (34 :: (t ++ 34 :: r)) max b = .ok (s ++ 0 :: b.drop (s.length + 1), t.length + 2) := by
  have hsl : s.length ≤ t.length := by
    clear hl h0
    induction h with
    | nil => simp
    | plain _ _ _ ih => simpa using ih
    | escape _ ih => simp; omega
  rw [readString, limit_ok (by omega), Out.ok_bind, if_pos rfl, Int.toNat_natCast,
    readQuotedLoop_spec h max r 1 0 b h0 hl (by omega), put_zero]
  simp; omega

/-- **C74**, partial: outside quotes `ReadString` stores a word. -/
theorem C74_word_partial (t s b : Bytes) (max : Nat) (hs : Holds t s) (hq : s.head? ≠ some 34) (hb : max < b.length) :
    ∃ w, WordAt max s w ∧ readString t max b = .ok (w ++ 0 :: b.drop (w.length + 1), w.length) := by
  obtain ⟨h0, r, rfl⟩ := hs
  obtain ⟨w, hw, h⟩ := readPlainLoop_spec r max s 0 0 b h0 (by omega)
  refine ⟨w, hw, ?_⟩
  have hne : ∃ c t', s ++ 0 :: r = c :: t' ∧ c ≠ 34 := by
    cases s with
    | nil => exact ⟨0, r, rfl, by decide⟩
    | cons c s => exact ⟨c, _, rfl, fun e => hq (by rw [e]; rfl)⟩
  obtain ⟨c, t', e, hc⟩ := hne
  rw [e] at h ⊢
  simp only [readString, limit_ok (show -2147483648 < (max : Int) by omega), Out.ok_bind, if_neg hc, Int.toNat_natCast]
  rw [h, put_zero]; simp

/-- **C74**, partial: whatever the text is, `ReadString` reads at most `max` characters after an opening quote,
stores characters that it has read, and writes nothing outside a buffer of more than `max` bytes. -/
theorem C74_safe_partial (t s b : Bytes) (max : Nat) (hs : Holds t (34 :: s)) (hb : max < b.length) :
    ∃ v s' w, s = v ++ s' ∧ v.length ≤ max ∧ w.Sublist v ∧
      readString t max b = .ok (w ++ 0 :: b.drop (w.length + 1), v.length + 1) := by
  obtain ⟨h0, r, rfl⟩ := hs
  obtain ⟨v, s', w, e, hl, hw, h⟩ := readQuotedLoop_safe r max s false 1 0 b (fun h => h0 (by simp [h])) (by omega)
  refine ⟨v, s', w, e, hl, hw, ?_⟩
  rw [List.cons_append, readString, limit_ok (by omega), Out.ok_bind, if_pos rfl, Int.toNat_natCast, h, put_zero]
  simp [Nat.add_comm]

/-- `"a\"b" c` is stored as `a"b`; `x//y` as `x`. -/
example : readString (ascii "\"a\\\"b\" c" ++ [0]) 9 (List.replicate 10 9) = .ok (ascii "a\"b" ++ 0 :: List.replicate 6 9, 6) ∧
    readString (ascii "x//y" ++ [0]) 9 (List.replicate 10 9) = .ok (120 :: 0 :: List.replicate 8 9, 1) ∧
    readString (ascii "x/y z" ++ [0]) 9 (List.replicate 10 9) = .ok (ascii "x/y" ++ 0 :: List.replicate 6 9, 3) ∧
    Inner 34 (ascii "a\\\"b") (ascii "a\"b") :=
  ⟨by decide, by decide, by decide, .plain (by decide) (by decide) (.escape (.plain (by decide) (by decide) .nil))⟩

/-! ## C75, C76: type codes -/

theorem fixedSet4_block (c1 c2 c3 c4 g0 g1 g2 g3 g4 : Byte) :
    fixedSet4 c1 c2 c3 c4 [g0, g1, g2, g3, g4] = .ok [c1, c2, c3, c4, 0] := rfl

theorem block5 {g : Bytes} (h : g.length = 5) : ∃ g0 g1 g2 g3 g4, g = [g0, g1, g2, g3, g4] := by
  match g, h with
  | [a, b, c, d, e], _ => exact ⟨a, b, c, d, e, rfl⟩

/-- The bytes of the result of `TypeToString`. -/
theorem typeToString_eq (v : UInt32) (c0 c1 c2 c3 : Byte) (g : Bytes) (hg : g.length = 5)
    (hv : v.toNat = c0.toNat * 2 ^ 24 + c1.toNat * 2 ^ 16 + c2.toNat * 2 ^ 8 + c3.toNat) :
    typeToString v g = .ok (if c0 ≠ 0 then [c0, c1, c2, c3, 0] else [c1, c2, c3, 0, 0]) := by
  obtain ⟨g0, g1, g2, g3, g4, rfl⟩ := block5 hg
  obtain ⟨b0, b1, b2, b3⟩ := type_byte v
  have l0 := c0.toNat_lt
  have l1 := c1.toNat_lt
  have l2 := c2.toNat_lt
  have l3 := c3.toNat_lt
  have e0 : (v >>> 24).toUInt8 = c0 := UInt8.toNat_inj.mp (by rw [b0, hv]; omega)
  have e1 : (v >>> 16).toUInt8 = c1 := UInt8.toNat_inj.mp (by rw [b1, hv]; omega)
  have e2 : (v >>> 8).toUInt8 = c2 := UInt8.toNat_inj.mp (by rw [b2, hv]; omega)
  have e3 : v.toUInt8 = c3 := UInt8.toNat_inj.mp (by rw [b3, hv]; omega)
  have ez : v >>> 24 = 0 ↔ c0 = 0 := by
    rw [← UInt32.toNat_inj, ← UInt8.toNat_inj, UInt32.toNat_shiftRight]
    simp only [UInt32.reduceToNat, Nat.reduceMod, Nat.shiftRight_eq_div_pow, UInt8.reduceToNat]
    omega
  rw [typeToString, e0, e1, e2, e3]
  by_cases h : c0 = 0
  · rw [if_neg (by simp [ez, h]), if_neg (by simp [h]), fixedSet4_block]
  · rw [if_pos (by simp [ez, h]), if_pos h, fixedSet4_block]

/-- **C75.** `StringToType` packs the first four characters of a text into a number, first character highest,
padded with zeros (and reads no more than four bytes); `TypeToString` gives these characters back. -/
theorem C75_type_codes (t s g : Bytes) (h : Within 4 t s) (hg : g.length = 5) :
    ∃ v c, stringToType t = .ok v ∧ v.toNat = bigEndian (s ++ List.replicate (4 - s.length) 0) ∧
      typeToString v g = .ok c ∧ Holds c s := by
  have key (c0 c1 c2 c3 : Byte) (v : UInt32)
      (hv : v.toNat = c0.toNat * 2 ^ 24 + c1.toNat * 2 ^ 16 + c2.toNat * 2 ^ 8 + c3.toNat) (h0 : c0 = 0 → c1 = 0) :
      ∃ c, typeToString v g = .ok c ∧ c = if c0 ≠ 0 then [c0, c1, c2, c3, 0] else [c1, c2, c3, 0, 0] :=
    ⟨_, typeToString_eq v c0 c1 c2 c3 g hg hv, rfl⟩
  have z : (0 : Byte).toUInt32 = 0 := rfl
  obtain ⟨h0, h⟩ := h
  match s, h0, h with
  | [], _, h =>
    obtain ⟨r, rfl⟩ : ∃ r, t = 0 :: r := by
      rcases h with ⟨h, _⟩ | ⟨_, r, rfl⟩
      · simp at h
      · exact ⟨r, rfl⟩
    obtain ⟨c, hc, rfl⟩ := key 0 0 0 0 0 (by decide) (fun _ => rfl)
    exact ⟨0, _, rfl, by decide, hc, by simp, [0, 0, 0, 0], rfl⟩
  | [a], h0, h =>
    obtain ⟨r, rfl⟩ : ∃ r, t = a :: 0 :: r := by
      rcases h with ⟨h, _⟩ | ⟨_, r, rfl⟩
      · simp at h
      · exact ⟨r, rfl⟩
    have ha : a ≠ 0 := fun e => h0 (by simp [e])
    have hv := be4 a 0 0 0
    rw [z, UInt32.or_zero, show (0 : UInt32) <<< 8 = 0 from rfl, UInt32.or_zero, show (0 : UInt32) <<< 16 = 0 from rfl,
      UInt32.or_zero] at hv
    obtain ⟨c, hc, rfl⟩ := key a 0 0 0 _ hv (fun _ => rfl)
    rw [if_pos ha] at hc
    refine ⟨_, _, by simp [stringToType, rd, ha], ?_, hc, h0, [0, 0, 0], rfl⟩
    rw [hv]; simp [bigEndian]; omega
  | [a, b], h0, h =>
    obtain ⟨r, rfl⟩ : ∃ r, t = a :: b :: 0 :: r := by
      rcases h with ⟨h, _⟩ | ⟨_, r, rfl⟩
      · simp at h
      · exact ⟨r, rfl⟩
    have ha : a ≠ 0 := fun e => h0 (by simp [e])
    have hb : b ≠ 0 := fun e => h0 (by simp [e])
    have hv := be4 a b 0 0
    rw [z, UInt32.or_zero, show (0 : UInt32) <<< 8 = 0 from rfl, UInt32.or_zero] at hv
    obtain ⟨c, hc, rfl⟩ := key a b 0 0 _ hv (fun h => absurd h ha)
    rw [if_pos ha] at hc
    refine ⟨_, _, by simp [stringToType, rd, ha, hb], ?_, hc, h0, [0, 0], rfl⟩
    rw [hv]; simp [bigEndian]; omega
  | [a, b, d], h0, h =>
    obtain ⟨r, rfl⟩ : ∃ r, t = a :: b :: d :: 0 :: r := by
      rcases h with ⟨h, _⟩ | ⟨_, r, rfl⟩
      · simp at h
      · exact ⟨r, rfl⟩
    have ha : a ≠ 0 := fun e => h0 (by simp [e])
    have hb : b ≠ 0 := fun e => h0 (by simp [e])
    have hd : d ≠ 0 := fun e => h0 (by simp [e])
    have hv := be4 a b d 0
    rw [z, UInt32.or_zero] at hv
    obtain ⟨c, hc, rfl⟩ := key a b d 0 _ hv (fun h => absurd h ha)
    rw [if_pos ha] at hc
    refine ⟨_, _, by simp [stringToType, rd, ha, hb, hd], ?_, hc, h0, [0], rfl⟩
    rw [hv]; simp [bigEndian]; omega
  | [a, b, d, e], h0, h =>
    obtain ⟨r, rfl⟩ : ∃ r, t = a :: b :: d :: e :: r := by
      rcases h with ⟨_, r, rfl⟩ | ⟨_, r, rfl⟩
      · exact ⟨r, rfl⟩
      · exact ⟨0 :: r, rfl⟩
    have ha : a ≠ 0 := fun e => h0 (by simp [e])
    have hb : b ≠ 0 := fun e => h0 (by simp [e])
    have hd : d ≠ 0 := fun e => h0 (by simp [e])
    have he : e ≠ 0 := fun e => h0 (by simp [e])
    have hv := be4 a b d e
    obtain ⟨c, hc, rfl⟩ := key a b d e _ hv (fun h => absurd h ha)
    rw [if_pos ha] at hc
    refine ⟨_, _, by simp [stringToType, rd, ha, hb, hd, he], ?_, hc, h0, [], rfl⟩
    rw [hv]; simp [bigEndian]; omega
  | _ :: _ :: _ :: _ :: _ :: _, _, h =>
    rcases h with ⟨h, _⟩ | ⟨h, _⟩
    · simp at h
    · simp at h; omega

/-- "abc" is 0x61626300. -/
example : stringToType (ascii "abc" ++ [0]) = .ok 0x61626300 ∧ stringToType (ascii "abcdefg") = .ok 0x61626364 ∧
    typeToString 0x61626300 [9, 9, 9, 9, 9] = .ok [97, 98, 99, 0, 0] := by decide

/-- **C76**, full statement: a type code of one to four characters read by `ReadType` between apostrophes is printed
as these characters by `TypeToString`. -/
def C76_statement : Prop :=
  ∀ (t s r g : Bytes), Inner 39 t s → 0 ∉ t → 1 ≤ s.length → s.length ≤ 4 → g.length = 5 →
    ∃ v n c, readType (39 :: (t ++ 39 :: r)) = .ok (v, n) ∧ typeToString v g = .ok c ∧ Holds c s

/-- A type code of one or two characters is printed as the empty text. -/
theorem C76_violated : ¬ C76_statement := by
  intro h
  obtain ⟨v, n, c, h1, h2, h3⟩ := h [65] [65] [0] [9, 9, 9, 9, 9] (.plain (by decide) (by decide) .nil) (by decide) (by decide)
    (by decide) rfl
  have : readType [39, 65, 39, 0] = .ok (65, 3) := by decide
  obtain ⟨rfl, rfl⟩ : (65 : UInt32) = v ∧ 3 = n := by
    have := this.symm.trans h1
    simpa using this
  have e : typeToString 65 [9, 9, 9, 9, 9] = .ok [0, 0, 65, 0, 0] := by decide
  obtain rfl : [0, 0, 65, 0, 0] = c := by
    have := e.symm.trans h2
    simpa using this
  have := holds_unique h3 (s' := []) ⟨by decide, [0, 65, 0, 0], rfl⟩
  revert this; decide

/-- **C76**, partial: `ReadType` consumes the text up to the closing apostrophe; the code is made of the last four
characters, the last one lowest. Other texts give 0 and consume nothing. -/
theorem C76_read_type_partial :
    (∀ (t s r : Bytes), Inner 39 t s → 0 ∉ t →
      ∃ v, readType (39 :: (t ++ 39 :: r)) = .ok (v, t.length + 2) ∧ v.toNat = bigEndian s % 2 ^ 32) ∧
    (∀ (t s r : Bytes), Inner 39 t s → 0 ∉ t →
      ∃ v, readType (39 :: (t ++ 0 :: r)) = .ok (v, t.length + 1) ∧ v.toNat = bigEndian s % 2 ^ 32) ∧
    (∀ (c : Byte) (r : Bytes), c ≠ 39 → readType (c :: r) = .ok (0, 0)) := by
  refine ⟨fun t s r h h0 => ?_, fun t s r h h0 => ?_, fun c r hc => by rw [readType, if_neg hc]⟩
  · obtain ⟨x, h1, h2⟩ := readTypeLoop_spec h 0 1 39 r h0 (.inl rfl)
    refine ⟨x, ?_, h2⟩
    rw [readType, if_pos rfl, h1, if_pos rfl]
    congr 2; omega
  · obtain ⟨x, h1, h2⟩ := readTypeLoop_spec h 0 1 0 r h0 (.inr rfl)
    refine ⟨x, ?_, h2⟩
    rw [readType, if_pos rfl, h1, if_neg (by decide)]
    congr 2; omega

/-- **C76**, partial: type codes of three or four characters are printed as they were read. Missing: one or two
characters, for which the statement is false. -/
theorem C76_round_trip_partial (t s r g : Bytes) (h : Inner 39 t s) (h0 : 0 ∉ t) (hs : s.length = 3 ∨ s.length = 4)
    (hg : g.length = 5) :
    ∃ v n c, readType (39 :: (t ++ 39 :: r)) = .ok (v, n) ∧ typeToString v g = .ok c ∧ Holds c s := by
  obtain ⟨v, h1, h2⟩ := C76_read_type_partial.1 t s r h h0
  have hs0 : 0 ∉ s := by
    clear hs h1 h2
    induction h with
    | nil => simp
    | @plain c t s _ _ _ ih =>
      intro hm
      rcases List.mem_cons.mp hm with e | hm
      · exact h0 (by simp [e])
      · exact ih (fun h => h0 (by simp [h])) hm
    | @escape c t s _ ih =>
      intro hm
      rcases List.mem_cons.mp hm with e | hm
      · exact h0 (by simp [e])
      · exact ih (fun h => h0 (by simp [h])) hm
  match s, hs with
  | [a, b, c], _ =>
    have la := a.toNat_lt
    have lb := b.toNat_lt
    have lc := c.toNat_lt
    have e := typeToString_eq v 0 a b c g hg (by rw [h2]; simp [bigEndian]; omega)
    exact ⟨v, _, _, h1, e, hs0, [0], by simp⟩
  | [a, b, c, d], _ =>
    have la := a.toNat_lt
    have lb := b.toNat_lt
    have lc := c.toNat_lt
    have ld := d.toNat_lt
    have ha : a ≠ 0 := fun e => hs0 (by simp [e])
    have e := typeToString_eq v a b c d g hg (by rw [h2]; simp [bigEndian]; omega)
    rw [if_pos ha] at e
    exact ⟨v, _, _, h1, e, hs0, [], by simp⟩
  | [], h => simp at h
  | [_], h => simp at h
  | [_, _], h => simp at h
  | _ :: _ :: _ :: _ :: _ :: _, h => simp at h

/-- 'ab\'c' is read as "ab'c"; of six characters the last four count. -/
example : readType (ascii "'ab\\'c' x" ++ [0]) = .ok (0x61622763, 7) ∧
    readType (ascii "'abcdef'" ++ [0]) = .ok (0x63646566, 8) ∧ readType (ascii "abc" ++ [0]) = .ok (0, 0) := by decide

/-! ## C77: hexadecimal strings -/

theorem shifts_lists : shifts 16 = [60, 56, 52, 48, 44, 40, 36, 32, 28, 24, 20, 16, 12, 8, 4, 0] ∧
    shifts 8 = [28, 24, 20, 16, 12, 8, 4, 0] ∧ shifts 4 = [12, 8, 4, 0] ∧ shifts 2 = [4, 0] := by decide

theorem hex_result (num : UInt64) (n : Nat) (g : Bytes) (hn : n ≤ 16) (hg : n < g.length) :
    ∃ c s, hexInto num (shifts n) 0 g = .ok c ∧ c.length = g.length ∧ Holds c s ∧ s.length = n ∧
      hexValue s = some (num.toNat % 16 ^ n) := by
  obtain ⟨s, h1, h2, h3, h4⟩ := hexInto_spec num n 0 0 g hn (by omega)
  exact ⟨_, s, h1, length_put (by simp; omega), holds_put_zero h3, h2, by simpa [hexValue] using h4⟩

/-- **C77.** The hexadecimal strings have 16, 8, 4 and 2 digits, whose value is the number modulo the power of 16;
`TypeToHexCharString` puts "0x", eight digits and, between apostrophes, the characters of `TypeToString` together. -/
theorem C77_hex_strings :
    (∀ (num : UInt64) (g : Bytes), g.length = 32 → ∃ c s, integer64ToHexString16 num g = .ok c ∧ Holds c s ∧
      s.length = 16 ∧ hexValue s = some num.toNat) ∧
    (∀ (num : UInt32) (g : Bytes), g.length = 16 → ∃ c s, integerToHexString8 num g = .ok c ∧ Holds c s ∧
      s.length = 8 ∧ hexValue s = some num.toNat) ∧
    (∀ (num : UInt32) (g : Bytes), g.length = 8 → ∃ c s, integerToHexString4 num g = .ok c ∧ Holds c s ∧
      s.length = 4 ∧ hexValue s = some (num.toNat % 16 ^ 4)) ∧
    (∀ (num : UInt32) (g : Bytes), g.length = 4 → ∃ c s, integerToHexString2 num g = .ok c ∧ Holds c s ∧
      s.length = 2 ∧ hexValue s = some (num.toNat % 16 ^ 2)) ∧
    (∀ (type : UInt32) (g h k : Bytes), g.length = 32 → h.length = 16 → k.length = 5 →
      ∃ c c1 c2 s1 s2, typeToHexCharString type g h k = .ok c ∧ integerToHexString8 type h = .ok c1 ∧ Holds c1 s1 ∧
        typeToString type k = .ok c2 ∧ Holds c2 s2 ∧ Holds c ([48, 120] ++ s1 ++ [32, 39] ++ s2 ++ [39])) := by
  obtain ⟨e16, e8, e4, e2⟩ := shifts_lists
  have H8 : ∀ (num : UInt32) (g : Bytes), g.length = 16 → ∃ c s, integerToHexString8 num g = .ok c ∧ Holds c s ∧
      s.length = 8 ∧ hexValue s = some num.toNat := by
    intro num g hg
    obtain ⟨c, s, h1, _, h2, h3, h4⟩ := hex_result num.toUInt64 8 g (by omega) (by omega)
    rw [e8] at h1
    refine ⟨c, s, h1, h2, h3, ?_⟩
    rw [h4, UInt32.toNat_toUInt64, Nat.mod_eq_of_lt num.toNat_lt]
  refine ⟨?_, H8, ?_, ?_, ?_⟩
  · intro num g hg
    obtain ⟨c, s, h1, _, h2, h3, h4⟩ := hex_result num 16 g (by omega) (by omega)
    rw [e16] at h1
    refine ⟨c, s, h1, h2, h3, ?_⟩
    rw [h4, Nat.mod_eq_of_lt num.toNat_lt]
  · intro num g hg
    obtain ⟨c, s, h1, _, h2, h3, h4⟩ := hex_result num.toUInt64 4 g (by omega) (by omega)
    rw [e4] at h1
    exact ⟨c, s, h1, h2, h3, by rw [h4, UInt32.toNat_toUInt64]⟩
  · intro num g hg
    obtain ⟨c, s, h1, _, h2, h3, h4⟩ := hex_result num.toUInt64 2 g (by omega) (by omega)
    rw [e2] at h1
    exact ⟨c, s, h1, h2, h3, by rw [h4, UInt32.toNat_toUInt64]⟩
  · intro type g h k hg hh hk
    obtain ⟨c1, s1, h1, h2, h3, _⟩ := H8 type h hh
    have hbytes : ∃ c0 c1 c2 c3 : Byte, type.toNat = c0.toNat * 2 ^ 24 + c1.toNat * 2 ^ 16 + c2.toNat * 2 ^ 8 + c3.toNat := by
      obtain ⟨b0, b1, b2, b3⟩ := type_byte type
      have := type.toNat_lt
      exact ⟨(type >>> 24).toUInt8, (type >>> 16).toUInt8, (type >>> 8).toUInt8, type.toUInt8, by rw [b0, b1, b2, b3]; omega⟩
    obtain ⟨x0, x1, x2, x3, hx⟩ := hbytes
    have ht := typeToString_eq type x0 x1 x2 x3 k hk hx
    obtain ⟨c2, hc2, hz⟩ : ∃ c2 : Bytes, typeToString type k = .ok c2 ∧ ∃ p, p.length = 4 ∧ c2 = p ++ [0] := by
      refine ⟨_, ht, ?_⟩
      split
      · exact ⟨[x0, x1, x2, x3], rfl, rfl⟩
      · exact ⟨[x1, x2, x3, 0], rfl, rfl⟩
    have cut : ∀ p : Bytes, ∃ s2, Holds (p ++ [0]) s2 ∧ s2.length ≤ p.length := by
      intro p
      induction p with
      | nil => exact ⟨[], ⟨by simp, [], rfl⟩, by simp⟩
      | cons x p ih =>
        by_cases hx : x = 0
        · exact ⟨[], ⟨by simp, p ++ [0], by simp [hx]⟩, by simp⟩
        · obtain ⟨s2, ⟨h0, r, e⟩, hl⟩ := ih
          exact ⟨x :: s2, ⟨by simp [h0, Ne.symm hx], r, by simp [e]⟩, by simpa using hl⟩
    obtain ⟨p, hp, rfl⟩ := hz
    obtain ⟨s2, hs2, hl2⟩ := cut p
    obtain ⟨d1, a1, a2, a3⟩ := fixedSet_holds (len := 31) (c := g) (t := [48, 120, 0]) (s := [48, 120]) hg ⟨by decide, [], rfl⟩
    obtain ⟨d2, b1, b2, b3⟩ := fixedAppend_holds (len := 31) a2 a3 h2
    obtain ⟨d3, f1, f2, f3⟩ := fixedAppend_holds (len := 31) b2 b3 (t := [32, 39, 0]) (s := [32, 39]) ⟨by decide, [], rfl⟩
    obtain ⟨d4, g1, g2, g3⟩ := fixedAppend_holds (len := 31) f2 f3 hs2
    obtain ⟨d5, k1, k2, k3⟩ := fixedAppendChar_holds (len := 31) (k := 39) g2 (by decide) g3
    refine ⟨d5, c1, _, s1, s2, ?_, h1, h2, hc2, hs2, ?_⟩
    · rw [typeToHexCharString, a1, Out.ok_bind, h1, Out.ok_bind, b1, Out.ok_bind, f1, Out.ok_bind, hc2, Out.ok_bind, g1,
        Out.ok_bind, k1]
    · have t1 : ([48, 120] : Bytes).take 31 = [48, 120] := rfl
      have t2 : ([48, 120] ++ s1).take 31 = [48, 120] ++ s1 := List.take_of_length_le (by simp; omega)
      have t3 : ([48, 120] ++ s1 ++ [32, 39]).take 31 = [48, 120] ++ s1 ++ [32, 39] :=
        List.take_of_length_le (by simp; omega)
      have t4 : ([48, 120] ++ s1 ++ [32, 39] ++ s2).take 31 = [48, 120] ++ s1 ++ [32, 39] ++ s2 :=
        List.take_of_length_le (by simp; omega)
      have t5 : ([48, 120] ++ s1 ++ [32, 39] ++ s2 ++ [39]).take 31 = [48, 120] ++ s1 ++ [32, 39] ++ s2 ++ [39] :=
        List.take_of_length_le (by simp; omega)
      rwa [t1, t2, t3, t4, t5] at k3

/-- 0x6162632A is printed as "0x6162632A 'abc*'". -/
example : typeToHexCharString 0x6162632A (List.replicate 32 9) (List.replicate 16 9) (List.replicate 5 9) =
    .ok (ascii "0x6162632A 'abc*'" ++ 0 :: List.replicate 14 9) ∧
    integerToHexString4 0x12ABCD [9, 9, 9, 9, 9, 9, 9, 9] = .ok (ascii "ABCD" ++ [0, 9, 9, 9]) := by decide

/-! ## C78: paths -/

/-- **C78.** Let a text consist of a directory path (empty or ending in '/'), and the name of a file without '/',
made of a base and an extension that is empty or begins with the last '.'. Then `GetDirectoryPathLength` is the
length of the directory path, and `GetResourceNameLength` the length of all but the extension. -/
theorem C78_paths (t dir base ext : Bytes) (h : Holds t (dir ++ (base ++ ext))) (hd : dir = [] ∨ ∃ d, dir = d ++ [47])
    (hn : 47 ∉ base ++ ext) (he : (ext = [] ∧ 46 ∉ base) ∨ ∃ e, ext = 46 :: e ∧ 46 ∉ e) :
    getDirectoryPathLength t = .ok dir.length ∧ getResourceNameLength t = .ok (dir ++ base).length := by
  have hlen := getTextLength_holds h
  obtain ⟨h0, r, rfl⟩ := h
  refine ⟨?_, ?_⟩
  · have := directoryLoop_spec r ((dir ++ (base ++ ext) ++ 0 :: r).length + 1) [] dir (base ++ ext) h0 hd hn
      (by simp; omega)
    simp only [List.nil_append, List.length_nil, Nat.zero_add] at this
    rw [getDirectoryPathLength, ← this]
    simp only [List.append_assoc]
  · rw [getResourceNameLength, hlen, Out.ok_bind]
    have ok {q : Bytes} (h1 : 46 ∉ q) (h2 : 47 ∉ q) : ∀ c ∈ q, c ≠ 46 ∧ c ≠ 47 :=
      fun c hc => ⟨fun e => h1 (e ▸ hc), fun e => h2 (e ▸ hc)⟩
    rcases he with ⟨rfl, hb⟩ | ⟨e, rfl, he⟩
    · rw [List.append_nil] at *
      rcases hd with rfl | ⟨d, rfl⟩
      · rw [List.nil_append] at *
        exact resource_none base (0 :: r) base.length (ok hb hn)
      · have := resource_slash d base (0 :: r) (d ++ [47] ++ base).length (ok hb hn)
        simpa using this
    · have := resource_dot (dir ++ base) e (0 :: r) (dir ++ (base ++ 46 :: e)).length
        (ok he fun h => hn (by simp [h]))
      simpa using this

/-- "a.b/c/d.e.f": the directory path is "a.b/c/", the name without extension "a.b/c/d.e"; "a.b/c" has no
extension. -/
example : getDirectoryPathLength (ascii "a.b/c/d.e.f" ++ [0]) = .ok 6 ∧ getResourceNameLength (ascii "a.b/c/d.e.f" ++ [0]) = .ok 9 ∧
    getResourceNameLength (ascii "a.b/c" ++ [0]) = .ok 5 ∧ getDirectoryPathLength (ascii "abc" ++ [0]) = .ok 0 := by decide

end Verif.Props
