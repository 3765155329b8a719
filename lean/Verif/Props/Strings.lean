import Verif.Lemmas.Strings

/-!
# Properties of fixed-capacity strings, printed integers and messages (C44, C48, C49, C50)
-/

namespace Verif.Props

open Verif Verif.Texts Verif.Str

/-! ## C44: fixed-capacity strings truncate and stay terminated -/

/-- The operations on a `String<len>`. -/
inductive FixedOp where
  | set (t : Src)
  | setN (t : Src) (n : Int)
  | setInt (n : Int)
  | setInt64 (n : Int)
  | append (t : Src)
  | appendN (t : Src) (n : Int)
  | appendChar (k : Byte)
  | appendInt (n : Int)
  | appendInt64 (n : Int)

/-- The model of one operation. -/
def FixedOp.run (wrapv : Bool) (len : Nat) : FixedOp → Bytes → Out Bytes
  | .set t, c => fixedSet len t c
  | .setN t n, c => fixedSetN len t n c
  | .setInt n, c => fixedSetInt wrapv len n c
  | .setInt64 n, c => fixedSetInt64 wrapv len n c
  | .append t, c => fixedAppend len t c
  | .appendN t n, c => fixedAppendString len t n c
  | .appendChar k, c => fixedAppendChar len k c
  | .appendInt n, c => fixedAppendInt wrapv len n c
  | .appendInt64 n, c => fixedAppendInt64 wrapv len n c

/-- A whole history. -/
def FixedOp.runAll (wrapv : Bool) (len : Nat) : List FixedOp → Bytes → Out Bytes
  | [], c => .ok c
  | o :: os, c => o.run wrapv len c >>= FixedOp.runAll wrapv len os

/-- The text `s` that the argument `t` denotes while the string itself holds `a`. -/
def SrcText (a : Bytes) : Src → Bytes → Prop
  | .ext t, s => Holds t s
  | .own i, s => i ≤ a.length ∧ s = a.drop i

/-- Specification of one operation on texts: from text `a` the operation leads to text `r`
(before truncation). -/
inductive FixedSpec : FixedOp → Bytes → Bytes → Prop
  | set {t s a} : SrcText a t s → FixedSpec (.set t) a s
  | setN {t s a n} : SrcText a t s → FixedSpec (.setN t n) a (s.take n.toNat)
  | setInt {n a u} : -(2 ^ 31) < n → n < 2 ^ 31 → IntText n u → FixedSpec (.setInt n) a u
  | setInt64 {n a u} : -(2 ^ 63) < n → n < 2 ^ 63 → IntText n u → FixedSpec (.setInt64 n) a u
  | append {t s a} : SrcText a t s → FixedSpec (.append t) a (a ++ s)
  | appendN {t s a n} : SrcText a t s → FixedSpec (.appendN t n) a (a ++ s.take n.toNat)
  | appendChar {k a} : k ≠ 0 → FixedSpec (.appendChar k) a (a ++ [k])
  | appendInt {n a u} : -(2 ^ 31) < n → n < 2 ^ 31 → IntText n u → FixedSpec (.appendInt n) a (a ++ u)
  | appendInt64 {n a u} : -(2 ^ 63) < n → n < 2 ^ 63 → IntText n u → FixedSpec (.appendInt64 n) a (a ++ u)

/-- Specification of a history: after every operation the text is cut to `len` bytes. -/
inductive FixedSpecAll (len : Nat) : List FixedOp → Bytes → Bytes → Prop
  | nil {a} : FixedSpecAll len [] a a
  | cons {o os a r z} : FixedSpec o a r → FixedSpecAll len os (r.take len) z → FixedSpecAll len (o :: os) a z

/-- C44: every history leaves the text that it describes, terminated, inside the `len + 1` bytes
(a store outside them would be `ub`). -/
def C44_statement : Prop :=
  ∀ (wrapv : Bool) (len : Nat) (os : List FixedOp) (c a z : Bytes), c.length = len + 1 → Holds c a →
    FixedSpecAll len os a z →
    ∃ c', FixedOp.runAll wrapv len os c = .ok c' ∧ c'.length = len + 1 ∧ Holds c' z

/-- C44 fails: with `String<8> s("abc")`, `s += s` gives `abcabcab` instead of `abcabc`, because the
terminator of the source is overwritten while copying. -/
theorem C44_violated : ¬ C44_statement := by
  intro h
  obtain ⟨c', e, -, h2⟩ := h false 8 [.append (.own 0)] [97, 98, 99, 0, 0, 0, 0, 0, 0] [97, 98, 99]
    [97, 98, 99, 97, 98, 99] rfl ⟨by decide, _, rfl⟩ (.cons (.append ⟨by decide, rfl⟩) .nil)
  have e' : FixedOp.runAll false 8 [.append (.own 0)] [97, 98, 99, 0, 0, 0, 0, 0, 0]
      = .ok [97, 98, 99, 97, 98, 99, 97, 98, 0] := by decide +kernel
  rw [e'] at e
  cases e
  have := holds_unique h2 (s' := [97, 98, 99, 97, 98, 99, 97, 98]) ⟨by decide, [], rfl⟩
  exact absurd this (by decide)

/-- The argument of an operation does not point into the string itself. -/
def FixedOp.External : FixedOp → Prop
  | .set t | .setN t _ | .append t | .appendN t _ => ∃ b, t = .ext b
  | _ => True

/-- C44, for arguments that do not point into the string itself: every history of assignments and
concatenations stores the longest prefix that fits, terminated, and never leaves the `len + 1`
bytes. Missing: arguments inside the string (there C44 fails, `C44_violated`). -/
theorem C44_truncates_partial (wrapv : Bool) (len : Nat) (os : List FixedOp) (c a z : Bytes)
    (hx : ∀ o ∈ os, o.External) (hc : c.length = len + 1) (ha : Holds c a) (hz : FixedSpecAll len os a z) :
    ∃ c', FixedOp.runAll wrapv len os c = .ok c' ∧ c'.length = len + 1 ∧ Holds c' z := by
  induction hz generalizing c with
  | nil => exact ⟨c, rfl, hc, ha⟩
  | @cons o os a r z h1 h2 ih =>
    have step : ∃ c1, o.run wrapv len c = .ok c1 ∧ c1.length = len + 1 ∧ Holds c1 (r.take len) := by
      have ho := hx o (by simp)
      cases h1 with
      | set h => obtain ⟨b, rfl⟩ := ho; exact fixedSet_holds hc h
      | @setN t s a n h => obtain ⟨b, rfl⟩ := ho; exact fixedSetN_holds hc n h
      | setInt l1 l2 hu =>
        obtain ⟨c1, u', e, l, hu', hh⟩ := fixedSetInt_holds hc wrapv _ l1 l2
        exact ⟨c1, e, l, by rwa [intText_unique hu hu']⟩
      | setInt64 l1 l2 hu =>
        obtain ⟨c1, u', e, l, hu', hh⟩ := fixedSetInt64_holds hc wrapv _ l1 l2
        exact ⟨c1, e, l, by rwa [intText_unique hu hu']⟩
      | append h => obtain ⟨b, rfl⟩ := ho; exact fixedAppend_holds hc ha h
      | @appendN t s a n h => obtain ⟨b, rfl⟩ := ho; exact fixedAppendString_holds hc n ha h
      | appendChar hk => exact fixedAppendChar_holds hc hk ha
      | appendInt l1 l2 hu =>
        obtain ⟨c1, u', e, l, hu', hh⟩ := fixedAppendInt_holds hc wrapv _ l1 l2 ha
        exact ⟨c1, e, l, by rwa [intText_unique hu hu']⟩
      | appendInt64 l1 l2 hu =>
        obtain ⟨c1, u', e, l, hu', hh⟩ := fixedAppendInt64_holds hc wrapv _ l1 l2 ha
        exact ⟨c1, e, l, by rwa [intText_unique hu hu']⟩
    obtain ⟨c1, e1, l1, hh⟩ := step
    obtain ⟨c2, e2, l2, h3⟩ := ih c1 (fun o ho => hx o (by simp [ho])) l1 hh
    exact ⟨c2, by rw [FixedOp.runAll, e1, Out.ok_bind, e2], l2, h3⟩

/-- Constructors: whatever the uninitialised member contains, the text is stored, cut to `len` bytes. The constructor from
four characters stores them if there is room for four. -/
theorem C44_constructor_partial (len : Nat) (t s g : Bytes) (hg : g.length = len + 1) (ht : Holds t s) :
    (∃ c', fixedSet len (.ext t) g = .ok c' ∧ c'.length = len + 1 ∧ Holds c' (s.take len)) ∧
    (∀ k1 k2 k3 k4, 0 ∉ [k1, k2, k3, k4] → 4 ≤ len →
      ∃ c', fixedSet4 k1 k2 k3 k4 g = .ok c' ∧ c'.length = len + 1 ∧ Holds c' [k1, k2, k3, k4]) := by
  refine ⟨fixedSet_holds hg ht, fun k1 k2 k3 k4 h0 hl => ?_⟩
  obtain ⟨c', h1, h2, h3⟩ := fixedSet4_holds (c1 := k1) (c2 := k2) (c3 := k3) (c4 := k4) hg hl
  refine ⟨c', h1, h2, h0, c'.drop 5, ?_⟩
  have := List.take_append_drop 5 c'
  rw [h3] at this
  exact this.symm

/-- The constructor from four characters does not check the capacity. -/
theorem C44_four_characters_violated (len : Nat) (g : Bytes) (hg : g.length = len + 1) (hl : len < 4) (k1 k2 k3 k4 : Byte) :
    fixedSet4 k1 k2 k3 k4 g = .ub := by
  match g, hg with
  | [], hg => simp at hg
  | [_], _ => rfl
  | [_, _], _ => rfl
  | [_, _, _], _ => rfl
  | [_, _, _, _], _ => rfl
  | _ :: _ :: _ :: _ :: _ :: r, hg => simp at hg; omega

/-- `SetStringLength` of a fixed string does not check its argument. -/
theorem C44_set_length_violated : ∀ len : Nat, ∀ c : Bytes, c.length = len + 1 →
    fixedSetLength ((len : Int) + 1) c = .ub := by
  intro len c hc
  rw [fixedSetLength, if_pos (by omega), wr_ub (by omega)]

example : FixedOp.runAll false 6 [.set (.ext [97, 98, 0]), .appendInt (-40), .append (.ext [99, 100, 0, 7])]
    [1, 2, 3, 4, 5, 6, 7] = .ok [97, 98, 45, 52, 48, 99, 0] := by decide +kernel

/-! ## C48: integers are printed in decimal -/

/-- C48, for `IntegerToString` (32, 16) and `Integer64ToString` (64, 32): every integer of the type is
printed in decimal at `text = b + d`, cut to `max` bytes and terminated, nothing else is changed, and the
result is the number of bytes before the terminator. -/
def C48_statement : Prop :=
  ∀ (wrapv : Bool) (bits cap : Nat), (bits = 32 ∧ cap = 16 ∨ bits = 64 ∧ cap = 32) →
  ∀ (n : Int) (d : Nat) (max : Int) (b : Bytes), -(2 ^ (bits - 1)) ≤ n → n < 2 ^ (bits - 1) →
    d + max.toNat < b.length →
    ∃ t, IntText n t ∧ printInt wrapv bits cap n d max b =
      .ok (b.take d ++ t.take max.toNat ++ 0 :: b.drop (d + (t.take max.toNat).length + 1), (t.take max.toNat).length)

/-- C48 fails for the smallest integer: `Abs` overflows, and where the overflow wraps the text is `-0`. -/
theorem C48_violated : ¬ C48_statement := by
  intro h
  obtain ⟨t, -, e⟩ := h false 32 16 (Or.inl ⟨rfl, rfl⟩) (-2147483648) 0 0 [0] (by decide) (by decide) (by decide)
  have : printInt false 32 16 (-2147483648) 0 0 [0] = .ub := by decide +kernel
  rw [this] at e
  cases e

/-- What a wrapping compiler prints for the smallest 32-bit and 64-bit integers: `-0`. -/
theorem C48_violated_wrapping (g : Bytes) (hg : g.length = 4) :
    integerToString true (-2147483648) 0 3 g = .ok (45 :: 48 :: 0 :: g.drop 3, 2) ∧
    integer64ToString true (-9223372036854775808) 0 3 g = .ok (45 :: 48 :: 0 :: g.drop 3, 2) := by
  match g, hg with
  | [a, b, c, d], _ => exact ⟨rfl, rfl⟩

/-- C48 for all integers except the smallest one of each type. Missing: the smallest integer, where C48
fails (`C48_violated`). -/
theorem C48_prints_decimal_partial (wrapv : Bool) (bits cap : Nat)
    (hbits : bits = 32 ∧ cap = 16 ∨ bits = 64 ∧ cap = 32) (n : Int) (d : Nat) (max : Int) (b : Bytes)
    (h1 : -(2 ^ (bits - 1)) < n) (h2 : n < 2 ^ (bits - 1)) (hb : d + max.toNat < b.length) :
    ∃ t, IntText n t ∧ printInt wrapv bits cap n d max b =
      .ok (b.take d ++ t.take max.toNat ++ 0 :: b.drop (d + (t.take max.toNat).length + 1),
        (t.take max.toNat).length) := by
  obtain ⟨t, ht, e⟩ := printInt_spec wrapv bits cap n d max b h1 h2
    (by rcases hbits with ⟨rfl, rfl⟩ | ⟨rfl, rfl⟩ <;> decide) (by omega) hb
  refine ⟨t, ht, ?_⟩
  rw [e, put]
  simp [Nat.add_assoc]

/-- The decimal representation is unique, so C48 determines the output. -/
theorem C48_unambiguous (n : Int) (t u : Bytes) (ht : IntText n t) (hu : IntText n u) : t = u :=
  intText_unique ht hu

/-- Unsigned arguments (TSString.h:194, 252, 297) are converted to `int32` first: from `2^31` on the text of
`n - 2^32` is stored. For example `String<15>(4294967295u)` is `-1`. -/
theorem C48_unsigned_violated : ∃ n : Nat, n < 2 ^ 32 ∧
    fixedSetInt false 15 (toSigned 32 n) (List.replicate 16 7) =
      .ok ([45, 49, 0] ++ List.replicate 13 7) ∧ ¬ IntText n [45, 49] := by
  refine ⟨4294967295, by decide, by decide +kernel, ?_⟩
  rintro (⟨-, ⟨-, h, -⟩, -⟩ | ⟨h, -⟩)
  · have := h 45 (by simp); revert this; decide
  · revert h; decide

/-- Below `2^31` unsigned arguments are printed correctly (cut to the capacity). Missing for C48: larger ones. -/
theorem C48_unsigned_partial (wrapv : Bool) (len n : Nat) (c : Bytes) (hc : c.length = len + 1) (hn : n < 2 ^ 31) :
    ∃ c' u, fixedSetInt wrapv len (toSigned 32 n) c = .ok c' ∧ IntText n u ∧ Holds c' (u.take len) := by
  have e : toSigned 32 n = n := by rw [toSigned, if_pos (by simpa using hn)]
  rw [e]
  obtain ⟨c', u, h1, -, h2, h3⟩ := fixedSetInt_holds hc wrapv (n : Int) (by omega) (by omega)
  exact ⟨c', u, h1, h2, h3⟩

example : integerToString false (-1203) 1 10 [9, 9, 9, 9, 9, 9, 9, 9, 9, 9, 9, 9]
    = .ok ([9, 45, 49, 50, 48, 51, 0, 9, 9, 9, 9, 9], 5) := by decide +kernel
example : IntText (-1203) [45, 49, 50, 48, 51] :=
  Or.inr ⟨by decide, _, rfl, ⟨by decide, by decide, by decide⟩, by decide⟩

/-! ## C49: every status has its own message -/

/-- The message that describes a status, read off the names of the enumerators (C4Json.h:131-160). There is
none for `KFileTooLarge`: any message will do. -/
def intended : Status → Option String
  | .kOk => some "Ok"
  | .KFileOpenError => some "Could not open file"
  | .KFileReadError => some "Could not read file"
  | .KFileTooLarge => none
  | .kTextBufferContentsInvalid => some "Invalid JSON text"
  | .kUnterminatedTextBuffer => some "Unterminated text buffer"
  | .kExpectedOpeningCurlyBraces => some "Expected opening curly braces"
  | .kExpectedClosingCurlyBracesOrComma => some "Expected closing curly braces or comma"
  | .kExpectedOpeningSquareBrackets => some "Expected opening square braces"
  | .kExpectedClosingSquareBracketsOrComma => some "Expected closing square braces or comma"
  | .kStringIllegalChar => some "Illegal character"
  | .kStringIllegalEscape => some "Illegal escape"
  | .kExpectedColon => some "Expected colon"
  | .kExpectedBeginingDoubleQuotes => some "Expected begining double quotes"
  | .kExpectedEndingDoubleQuotes => some "Expected ending double quotes"
  | .kFloatInvalid => some "Invalid number"
  | .kExpectedTrueOrFalse => some "Expected 'true' or 'false'"
  | .kExpectedNull => some "Expected 'null'"
  | .kExpectedJsonValue =>
    some "Expected a JSON value (object, array, string, number, 'true', 'false', or 'null')"
  | .kExpectedEndOfFile => some "Expected end of file"
  | .kPrematureNullTerminator => some "File ends prematurely"
  | .kNumbersCannotHaveLeadingZeros => some "Numbers cannot have leading zeros"
  | .kInvalidStructuredData => some "JSON structure is invalid"
  | .kMissingObjectElement => some "An expected object value pair was not found"
  | .kException => some "An exception was caught"
  | .kInvalidValueType => some "JSON structured data contains invalid value type"
  | .kNameNotPresent => some "Could not find requested name of name/value pair"

/-- C49: every status is turned into the message that describes it, and messages of different statuses
differ. -/
def C49_statement : Prop :=
  (∀ (st : Status) (g : Bytes), g.length = 257 →
    ∃ c s, statusToString st g = .ok c ∧ Holds c s ∧ ∀ m, intended st = some m → s = ascii m) ∧
  (∀ (st st' : Status) (g c c' s : Bytes), g.length = 257 → statusToString st g = .ok c →
    statusToString st' g = .ok c' → Holds c s → Holds c' s → st = st')

/-- C49 fails: the table has no entry for `KFileTooLarge`, so the message of the last enumerator is read
outside the table. -/
theorem C49_violated : ¬ C49_statement := by
  intro h
  obtain ⟨c, s, e, -⟩ := h.1 .kNameNotPresent (List.replicate 257 0) List.length_replicate
  have : statusToString .kNameNotPresent (List.replicate 257 0) = .ub := by decide +kernel
  rw [this] at e
  cases e

theorem statusToString_ok (st : Status) (m : String) (hm : statusString[st.ctorIdx]? = some m) (g : Bytes)
    (hg : g.length = 257) :
    ∃ c, statusToString st g = .ok c ∧ c.length = 257 ∧ Holds c (ascii m) := by
  have hmem : m ∈ statusString := List.mem_of_getElem? hm
  have hall : ∀ m ∈ statusString, (0 : Byte) ∉ ascii m ∧ (ascii m).length ≤ 81 := by decide +kernel
  obtain ⟨h0, hl⟩ := hall m hmem
  obtain ⟨c, e, l, h⟩ := fixedSet_holds (len := 256) hg (t := ascii m ++ [0]) (s := ascii m) ⟨h0, [], rfl⟩
  rw [List.take_of_length_le (by omega)] at h
  exact ⟨c, by simp only [statusToString, hm]; exact e, l, h⟩

/-- All statuses in the order of the enumeration. -/
def allStatus : List Status :=
  [.kOk, .KFileOpenError, .KFileReadError, .KFileTooLarge, .kTextBufferContentsInvalid, .kUnterminatedTextBuffer,
   .kExpectedOpeningCurlyBraces, .kExpectedClosingCurlyBracesOrComma, .kExpectedOpeningSquareBrackets,
   .kExpectedClosingSquareBracketsOrComma, .kStringIllegalChar, .kStringIllegalEscape, .kExpectedColon,
   .kExpectedBeginingDoubleQuotes, .kExpectedEndingDoubleQuotes, .kFloatInvalid, .kExpectedTrueOrFalse, .kExpectedNull,
   .kExpectedJsonValue, .kExpectedEndOfFile, .kPrematureNullTerminator, .kNumbersCannotHaveLeadingZeros,
   .kInvalidStructuredData, .kMissingObjectElement, .kException, .kInvalidValueType, .kNameNotPresent]

theorem allStatus_get (st : Status) : allStatus[st.ctorIdx]?.getD .kOk = st := by cases st <;> rfl

/-- The enumerator that follows in the enumeration. -/
def NextStatus (st st' : Status) : Prop := st'.ctorIdx = st.ctorIdx + 1

/-- What the messages really are: the first three statuses have the right message; `KFileTooLarge` and
everything after it, except the last, has the message of the **next** status. -/
theorem C49_message_of_next_status (st st' : Status) (m : String) (g : Bytes) (hg : g.length = 257)
    (h3 : 3 ≤ st.ctorIdx) (hn : NextStatus st st') (hm : intended st' = some m) :
    ∃ c, statusToString st g = .ok c ∧ Holds c (ascii m) := by
  have prev : ∀ st' : Status, 3 < st'.ctorIdx → statusString[st'.ctorIdx - 1]? = intended st' := by
    intro st'; cases st' <;> first | (intro _; rfl) | (intro h; exact absurd h (by decide))
  have hn' : st'.ctorIdx = st.ctorIdx + 1 := hn
  have key : statusString[st.ctorIdx]? = some m := by
    have := prev st' (by omega)
    rwa [hn', Nat.add_sub_cancel, hm] at this
  obtain ⟨c, e, -, h⟩ := statusToString_ok st m key g hg
  exact ⟨c, e, h⟩

/-- C49 for the first three statuses (missing: all others, which have a wrong message or none). -/
theorem C49_message_partial (st : Status) (m : String) (g : Bytes) (hg : g.length = 257) (h3 : st.ctorIdx < 3)
    (hm : intended st = some m) : ∃ c, statusToString st g = .ok c ∧ Holds c (ascii m) := by
  have key : statusString[st.ctorIdx]? = some m := by
    cases st <;> first | exact absurd h3 (by decide) | exact hm
  obtain ⟨c, e, -, h⟩ := statusToString_ok st m key g hg
  exact ⟨c, e, h⟩

/-- The second half of C49: two different statuses never have the same message. -/
theorem C49_distinct_partial (st st' : Status) (g c c' s : Bytes) (hg : g.length = 257)
    (h : statusToString st g = .ok c) (h' : statusToString st' g = .ok c') (hs : Holds c s) (hs' : Holds c' s) :
    st = st' := by
  have some_of : ∀ {st : Status} {c : Bytes}, statusToString st g = .ok c → ∃ m, statusString[st.ctorIdx]? = some m := by
    intro st c h
    cases e : statusString[st.ctorIdx]? with
    | none => simp [statusToString, e] at h
    | some m => exact ⟨m, rfl⟩
  obtain ⟨m, hm⟩ := some_of h
  obtain ⟨m', hm'⟩ := some_of h'
  obtain ⟨d, e, -, hd⟩ := statusToString_ok st m hm g hg
  obtain ⟨d', e', -, hd'⟩ := statusToString_ok st' m' hm' g hg
  rw [h] at e; rw [h'] at e'
  cases e; cases e'
  have ha : ascii m = ascii m' := (holds_unique hd hs).trans (holds_unique hs' hd')
  have inj : ∀ m ∈ statusString, ∀ m' ∈ statusString, ascii m = ascii m' → m = m' := by decide +kernel
  have hmm := inj m (List.mem_of_getElem? hm) m' (List.mem_of_getElem? hm') ha
  subst hmm
  have nd : statusString.Nodup := by decide +kernel
  have hi : st.ctorIdx = st'.ctorIdx := by
    have hlt : st.ctorIdx < statusString.length := (List.getElem?_eq_some_iff.mp hm).1
    exact (List.getElem?_inj hlt nd).mp (hm.trans hm'.symm)
  rw [← allStatus_get st, ← allStatus_get st', hi]

example : ∃ c, statusToString .kStringIllegalChar (List.replicate 257 9) = .ok c ∧ Holds c (ascii "Illegal escape") :=
  C49_message_of_next_status .kStringIllegalChar .kStringIllegalEscape _ _ List.length_replicate (by decide) rfl rfl

/-! ## C50: the error text contains the full line and column -/

/-- C50: when there is an error position, the text is the message followed by `. Line: L, column: C`. -/
def C50_statement : Prop :=
  ∀ (wrapv : Bool) (st : Status) (m : String) (line column : Int) (g h L C : Bytes),
    statusString[st.ctorIdx]? = some m → st ≠ .kException → g.length = 257 → h.length = 25 →
    0 < line → line < 2 ^ 31 → 0 < column → column < 2 ^ 31 → IntText line L → IntText column C →
    ∃ c, parseResultToString wrapv st line column g h = .ok c ∧
      Holds c (ascii m ++ ascii ". Line: " ++ L ++ ascii ", column: " ++ C)

/-- The text in general: at most 24 bytes follow the message. -/
theorem C50_text_partial (wrapv : Bool) (st : Status) (m : String) (line column : Int) (g h L C : Bytes)
    (hm : statusString[st.ctorIdx]? = some m) (hst : st ≠ .kException) (hg : g.length = 257) (hh : h.length = 25)
    (hl : line ≠ 0) (l1 : -(2 ^ 31) < line) (l2 : line < 2 ^ 31) (c1 : -(2 ^ 31) < column) (c2 : column < 2 ^ 31)
    (hL : IntText line L) (hC : IntText column C) :
    ∃ c, parseResultToString wrapv st line column g h = .ok c ∧
      Holds c (ascii m ++ (ascii ". Line: " ++ L ++ ascii ", column: " ++ C).take 24) := by
  obtain ⟨s0, e0, k0, h0⟩ := statusToString_ok st m hm g hg
  obtain ⟨t1, e1, k1, h1⟩ := fixedSet_holds (len := 24) hh (t := ascii ". Line: " ++ [0]) (s := ascii ". Line: ")
    ⟨by decide +kernel, [], rfl⟩
  obtain ⟨t2, L', e2, k2, hL', h2⟩ := fixedSetInt_holds (len := 24) hh wrapv line l1 l2
  obtain ⟨t3, e3, k3, h3⟩ := fixedSet_holds (len := 24) hh (t := ascii ", column: " ++ [0]) (s := ascii ", column: ")
    ⟨by decide +kernel, [], rfl⟩
  obtain ⟨t4, C', e4, k4, hC', h4⟩ := fixedSetInt_holds (len := 24) hh wrapv column c1 c2
  obtain rfl := intText_unique hL hL'
  obtain rfl := intText_unique hC hC'
  obtain ⟨u1, f1, q1, r1⟩ := fixedPlus_holds hh h1 h2
  obtain ⟨u2, f2, q2, r2⟩ := fixedPlus_holds hh r1 h3
  obtain ⟨u3, f3, q3, r3⟩ := fixedPlus_holds hh r2 h4
  obtain ⟨c, f4, -, r4⟩ := fixedAppend_holds (len := 256) k0 h0 r3
  refine ⟨c, ?_, ?_⟩
  · simp only [parseResultToString]
    rw [e0, Out.ok_bind, if_pos ⟨hl, hst⟩, e1, Out.ok_bind, e2, Out.ok_bind, e3, Out.ok_bind, e4, Out.ok_bind,
      f1, Out.ok_bind, f2, Out.ok_bind, f3, Out.ok_bind, f4]
  · have hall : ∀ m ∈ statusString, (ascii m).length ≤ 81 := by decide +kernel
    have hlen := hall m (List.mem_of_getElem? hm)
    have hT : ∀ a b : Bytes, (a ++ b.take 24).take 24 = (a ++ b).take 24 := by
      intro a b
      rw [List.take_append, List.take_append, List.take_take, Nat.min_eq_left (by omega)]
    have e : ((((((ascii ". Line: ").take 24 ++ L.take 24).take 24 ++ (ascii ", column: ").take 24).take 24)
        ++ C.take 24).take 24) = (ascii ". Line: " ++ L ++ ascii ", column: " ++ C).take 24 := by
      simp only [hT, take_take_append]
    rw [e] at r4
    rwa [List.take_of_length_le (l := ascii m ++ _)] at r4
    simp only [List.length_append, List.length_take]
    omega

/-- C50 for line and column with at most six digits together. Missing: longer positions, which are cut
(`C50_violated`), and the wrong messages of C49. -/
theorem C50_short_positions_partial (wrapv : Bool) (st : Status) (m : String) (line column : Int) (g h L C : Bytes)
    (hm : statusString[st.ctorIdx]? = some m) (hst : st ≠ .kException) (hg : g.length = 257) (hh : h.length = 25)
    (hl : 0 < line) (l2 : line < 2 ^ 31) (c1 : 0 < column) (c2 : column < 2 ^ 31)
    (hL : IntText line L) (hC : IntText column C) (h6 : L.length + C.length ≤ 6) :
    ∃ c, parseResultToString wrapv st line column g h = .ok c ∧
      Holds c (ascii m ++ ascii ". Line: " ++ L ++ ascii ", column: " ++ C) := by
  obtain ⟨c, e, hc⟩ := C50_text_partial wrapv st m line column g h L C hm hst hg hh (by omega) (by omega) l2
    (by omega) c2 hL hC
  refine ⟨c, e, ?_⟩
  rw [List.take_of_length_le] at hc
  · simpa only [List.append_assoc] using hc
  · have a1 : (ascii ". Line: ").length = 8 := by decide +kernel
    have a2 : (ascii ", column: ").length = 10 := by decide +kernel
    simp only [List.length_append, a1, a2]; omega

/-- C50 fails: for line 1234567, column 1 the column is not in the text at all. -/
theorem C50_violated : ¬ C50_statement := by
  intro h
  have hL : IntText 1234567 (ascii "1234567") :=
    Or.inl ⟨by decide, ⟨by decide +kernel, by decide +kernel, by decide +kernel⟩, by decide +kernel⟩
  have hC : IntText 1 (ascii "1") :=
    Or.inl ⟨by decide, ⟨by decide +kernel, by decide +kernel, by decide +kernel⟩, by decide +kernel⟩
  obtain ⟨c, e, hc⟩ := h false .kOk "Ok" 1234567 1 (List.replicate 257 0) (List.replicate 25 0) _ _ rfl (by decide)
    List.length_replicate List.length_replicate (by decide) (by decide) (by decide) (by decide) hL hC
  obtain ⟨c', e', hc'⟩ := C50_text_partial false .kOk "Ok" 1234567 1 (List.replicate 257 0) (List.replicate 25 0) _ _
    rfl (by decide) List.length_replicate List.length_replicate (by decide) (by decide) (by decide) (by decide) (by decide) hL hC
  rw [e] at e'
  cases e'
  exact absurd (congrArg List.length (holds_unique hc hc')) (by decide +kernel)

/-- Without an error position, or for `kException`, the text is the message alone. -/
theorem C50_no_position (wrapv : Bool) (st : Status) (line column : Int) (g h : Bytes)
    (hl : line = 0 ∨ st = .kException) :
    parseResultToString wrapv st line column g h = statusToString st g := by
  have hc : ¬ (line ≠ 0 ∧ st ≠ .kException) := by
    rintro ⟨h1, h2⟩; rcases hl with h | h
    · exact h1 h
    · exact h2 h
  simp only [parseResultToString, if_neg hc]
  cases statusToString st g <;> rfl

example : ∃ c, parseResultToString false .kExpectedColon 12 345 (List.replicate 257 1) (List.replicate 25 1) = .ok c ∧
    Holds c (ascii "Expected begining double quotes. Line: 12, column: 345") := by
  obtain ⟨c, e, h⟩ := C50_short_positions_partial false .kExpectedColon _ 12 345 (List.replicate 257 1)
    (List.replicate 25 1) (ascii "12") (ascii "345") rfl (by decide) List.length_replicate List.length_replicate (by decide) (by decide)
    (by decide) (by decide)
    (Or.inl ⟨by decide, ⟨by decide +kernel, by decide +kernel, by decide +kernel⟩, by decide +kernel⟩)
    (Or.inl ⟨by decide, ⟨by decide +kernel, by decide +kernel, by decide +kernel⟩, by decide +kernel⟩) (by decide +kernel)
  refine ⟨c, e, ?_⟩
  have : ascii "Expected begining double quotes" ++ ascii ". Line: " ++ ascii "12" ++ ascii ", column: " ++ ascii "345"
      = ascii "Expected begining double quotes. Line: 12, column: 345" := by decide +kernel
  rwa [this] at h

end Verif.Props
