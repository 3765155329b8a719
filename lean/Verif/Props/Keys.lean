import Verif.Model.Keys
import Verif.Lemmas.MapKeys
import Verif.Props.Map
import Verif.Props.Text
import Verif.Props.TextTools

/-!
# Properties of keys that are texts: C131, C132
-/

namespace Verif.Props

open Verif Verif.Text Verif.Str Verif.Texts Verif.Tools Verif.Spec Verif.Keys Verif.Map

/-! ## C131: the operators of a key class agree -/

/-- Exactly one of three holds. -/
def OneOf (a b c : Bool) : Prop :=
  (a = true ∧ b = false ∧ c = false) ∨ (a = false ∧ b = true ∧ c = false) ∨ (a = false ∧ b = false ∧ c = true)

/-- **C131**, full statement: the operators of a key class are defined for all texts; `!=` is the opposite of `==`; of
`x == y`, `x < y` and `y < x` exactly one holds; and `<` is transitive. -/
def C131_statement : Prop :=
  ∀ K,
    (∀ s t a b, Holds s a → Holds t b → ∃ e l g, keyEq K s t = .ok e ∧ keyNe K s t = .ok (!e) ∧ keyLess K s t = .ok l ∧
      keyLess K t s = .ok g ∧ OneOf e l g) ∧
    (∀ s t u a b c, Holds s a → Holds t b → Holds u c → keyLess K s t = .ok true → keyLess K t u = .ok true →
      keyLess K s u = .ok true)

theorem holds_ascii (s : String) (h : (0 : UInt8) ∉ ascii s) : Holds (ascii s ++ [0]) (ascii s) := ⟨h, [], rfl⟩

/-- Of the file names "1b" and "01a" each is less than the other one. -/
theorem C131_violated : ¬ C131_statement := by
  intro h
  obtain ⟨e, l, g, _, _, h1, h2, h3⟩ := (h .fileName).1 (ascii "1b" ++ [0]) (ascii "01a" ++ [0]) (ascii "1b") (ascii "01a")
    (holds_ascii _ (by decide)) (holds_ascii _ (by decide))
  have e1 : keyLess .fileName (ascii "1b" ++ [0]) (ascii "01a" ++ [0]) = .ok true := by decide
  have e2 : keyLess .fileName (ascii "01a" ++ [0]) (ascii "1b" ++ [0]) = .ok true := by decide
  rw [e1] at h1
  rw [e2] at h2
  cases h1
  cases h2
  simp [OneOf] at h3

/-- The file names "4294967297" and "8589934593" are different, but neither is less than the other one. -/
theorem C131_violated_large :
    keyEq .fileName (ascii "4294967297" ++ [0]) (ascii "8589934593" ++ [0]) = .ok false ∧
    keyLess .fileName (ascii "4294967297" ++ [0]) (ascii "8589934593" ++ [0]) = .ok false ∧
    keyLess .fileName (ascii "8589934593" ++ [0]) (ascii "4294967297" ++ [0]) = .ok false := by decide

/-- The rest of a number in a terminated text is read within the text. -/
theorem readDigits_ok (s : Bytes) (num : UInt32) (count : Nat) (h : (0 : UInt8) ∈ s) :
    ∃ n c s', readDigits num count s = .ok (n, c, s') ∧ (0 : UInt8) ∈ s' ∧ s'.length ≤ s.length := by
  induction s generalizing num count with
  | nil => simp at h
  | cons x s ih =>
    unfold readDigits
    by_cases hx : isDigit x = true
    · rw [if_pos hx]
      have h0 : (0 : UInt8) ∈ s := by
        rcases List.mem_cons.1 h with rfl | h
        · exact absurd hx (by decide)
        · exact h
      obtain ⟨n, c, s', h1, h2, h3⟩ := ih (num * 10 + UInt32.ofNat (x.toNat - 48)) (count + 1) h0
      exact ⟨n, c, s', h1, h2, by simp; omega⟩
    · rw [if_neg hx]
      exact ⟨num, count, x :: s, rfl, h, Nat.le_refl _⟩

/-- The comparison of terminated texts with numbers is defined. -/
theorem numberedLess_ok {f : Byte → Nat} (hf : CharValue f) (n : Nat) (s t : Bytes) (hs : (0 : UInt8) ∈ s)
    (ht : (0 : UInt8) ∈ t) (hn : s.length < n) : ∃ r, numberedLess f n s t = .ok r := by
  induction n generalizing s t with
  | zero => omega
  | succ n ih =>
    cases s with
    | nil => simp at hs
    | cons x s =>
      cases t with
      | nil => simp at ht
      | cons y t =>
        simp only [List.length_cons] at hn
        unfold numberedLess
        by_cases hd : isDigit x = true ∧ isDigit y = true
        · rw [if_pos hd]
          have h0 : (0 : UInt8) ∈ s := by
            rcases List.mem_cons.1 hs with rfl | h
            · exact absurd hd.1 (by decide)
            · exact h
          have h0' : (0 : UInt8) ∈ t := by
            rcases List.mem_cons.1 ht with rfl | h
            · exact absurd hd.2 (by decide)
            · exact h
          obtain ⟨m, c, s', h1, h2, h3⟩ := readDigits_ok s (UInt32.ofNat (x.toNat - 48)) 1 h0
          obtain ⟨m', c', t', g1, g2, _⟩ := readDigits_ok t (UInt32.ofNat (y.toNat - 48)) 1 h0'
          rw [h1]
          simp only [Out.ok_bind, g1]
          split
          · exact ⟨_, rfl⟩
          · split
            · exact ⟨_, rfl⟩
            · exact ih s' t' h2 g2 (by omega)
        · rw [if_neg hd]
          by_cases he : f x ≠ f y ∨ f x = 0
          · rw [if_pos he]; exact ⟨_, rfl⟩
          · rw [if_neg he]
            have e1 : x ≠ 0 := fun e => he (.inr ((hf.zero x).2 e))
            have e2 : y ≠ 0 := fun e => he (.inl (fun e' => e1 ((hf.zero x).1 (by rw [e', (hf.zero y).2 e]))))
            have h0 : (0 : UInt8) ∈ s := by
              rcases List.mem_cons.1 hs with h | h
              · exact absurd h.symm e1
              · exact h
            have h0' : (0 : UInt8) ∈ t := by
              rcases List.mem_cons.1 ht with h | h
              · exact absurd h.symm e2
              · exact h
            exact ih s t h0 h0' (by omega)

/-- A file name without superfluous zeros, and with numbers below 2^32. -/
def Tidy (a : Bytes) : Prop := ∃ ps, Parts (2 ^ 32) (fun c => (capital c).toNat) a ps

theorem digit_capital (c : Byte) (h : IsDigit c) : capital c = c := by
  unfold IsDigit at h
  unfold capital
  rw [if_neg (by omega)]

theorem isDigit_capital (c : Byte) : IsDigit (capital c) ↔ IsDigit c := by
  unfold IsDigit capital
  by_cases h : 97 ≤ c.toNat ∧ c.toNat ≤ 122
  · rw [if_pos h, UInt8.toNat_ofNat']; omega
  · rw [if_neg h]

/-- The parts of a text without regard to case are those of the text in capitals. -/
theorem parts_capital {a : Bytes} {ps : List Part} (h : Parts (2 ^ 32) (fun c => (capital c).toNat) a ps) :
    Parts (2 ^ 32) UInt8.toNat (a.map capital) ps := by
  induction h with
  | nil => exact .nil
  | @chr c t ps hc _ ih => exact .chr (by rwa [isDigit_capital]) ih
  | @num n d t ps hd hn hs _ ih =>
    have e : d.map capital = d := by
      refine (List.map_congr_left fun c hc => ?_).trans (List.map_id d)
      exact digit_capital c (hd.1.2.1 c hc)
    rw [List.map_append, e]
    refine .num hd hn ?_ ih
    intro c hc
    cases t with
    | nil => simp at hc
    | cons x t =>
      simp only [List.map_cons, List.head?_cons, Option.some.injEq] at hc
      rw [← hc, isDigit_capital]
      exact hs x rfl

/-- A text has one list of parts. -/
theorem parts_unique {a : Bytes} {ps qs : List Part} (h0 : (0 : UInt8) ∉ a) (hp : Parts (2 ^ 32) UInt8.toNat a ps)
    (hq : Parts (2 ^ 32) UInt8.toNat a qs) : ps = qs := by
  have hh : Holds (a ++ [0]) a := ⟨h0, [], rfl⟩
  obtain ⟨N, _, I, _⟩ := C71_numbered_partial
  obtain ⟨⟨r, e, hr⟩, _⟩ := N _ _ a a ps ps hh hh hp hp
  obtain ⟨⟨r', e', hr'⟩, _⟩ := N _ _ a a ps qs hh hh hp hq
  obtain ⟨⟨r'', e'', hr''⟩, _⟩ := N _ _ a a qs ps hh hh hq hp
  rw [e] at e' e''
  cases e'
  cases e''
  have hf : ¬ r = true := fun h => I ps (hr.1 h)
  rcases parts_total charValue_toNat hp a qs hq with h | h | h
  · exact absurd (hr'.2 h) hf
  · exact h
  · exact absurd (hr''.2 h) hf

theorem zero_capital {a : Bytes} (h : (0 : UInt8) ∉ a) : (0 : UInt8) ∉ a.map capital := by
  intro hm
  obtain ⟨c, hc, e⟩ := List.mem_map.1 hm
  have : (capital c).toNat = 0 := by rw [e]; rfl
  unfold capital at this
  split at this
  · rw [UInt8.toNat_ofNat'] at this; have := c.toNat_lt; omega
  · exact h (by rwa [show c = 0 from UInt8.toNat_inj.mp this] at hc)

/-- File names are the same up to case if they have the same parts. -/
theorem same_iff_parts {a b : Bytes} {ps qs : List Part} (ha : (0 : UInt8) ∉ a)
    (hp : Parts (2 ^ 32) (fun c => (capital c).toNat) a ps) (hq : Parts (2 ^ 32) (fun c => (capital c).toNat) b qs) :
    SameCaseless a b ↔ ps = qs := by
  constructor
  · intro h
    have h1 := parts_capital hp
    have h2 := parts_capital hq
    rw [← show a.map capital = b.map capital from h] at h2
    exact parts_unique (zero_capital ha) h1 h2
  · rintro rfl
    exact parts_injective (fun c d h => UInt8.toNat_inj.mp h) (parts_capital hp) _ (parts_capital hq)

/-- **C131**, partial: for `ConstCharKey` and `StringKey` everything holds. For `FileNameKey` the operators are defined,
and `!=` is the opposite of `==`, for all texts; the rest holds for texts whose numbers have no superfluous zeros and
are below 2^32. Missing: other file names, for which it is false. -/
theorem C131_keys_partial :
    (∀ K, K ≠ .fileName →
      (∀ s t a b, Holds s a → Holds t b → ∃ e l g, keyEq K s t = .ok e ∧ keyNe K s t = .ok (!e) ∧ keyLess K s t = .ok l ∧
        keyLess K t s = .ok g ∧ OneOf e l g) ∧
      (∀ s t u a b c, Holds s a → Holds t b → Holds u c → keyLess K s t = .ok true → keyLess K t u = .ok true →
        keyLess K s u = .ok true)) ∧
    (∀ s t a b, Holds s a → Holds t b → ∃ e l, keyEq .fileName s t = .ok e ∧ keyNe .fileName s t = .ok (!e) ∧
      keyLess .fileName s t = .ok l) ∧
    (∀ s t a b, Holds s a → Holds t b → Tidy a → Tidy b → ∃ e l g, keyEq .fileName s t = .ok e ∧
      keyLess .fileName s t = .ok l ∧ keyLess .fileName t s = .ok g ∧ OneOf e l g) ∧
    (∀ s t u a b c, Holds s a → Holds t b → Holds u c → Tidy a → Tidy b → Tidy c →
      keyLess .fileName s t = .ok true → keyLess .fileName t u = .ok true → keyLess .fileName s u = .ok true) := by
  have text : (∀ s t a b, Holds s a → Holds t b → ∃ e l g, compareText s t = .ok e ∧
        (compareText s t >>= fun r => .ok !r) = .ok (!e) ∧ compareTextLessThan s t = .ok l ∧
        compareTextLessThan t s = .ok g ∧ OneOf e l g) ∧
      (∀ s t u a b c, Holds s a → Holds t b → Holds u c → compareTextLessThan s t = .ok true →
        compareTextLessThan t u = .ok true → compareTextLessThan s u = .ok true) := by
    obtain ⟨T, I, Tr, Tot⟩ := C40_text_order
    constructor
    · rintro s t a b ⟨ha, x, rfl⟩ ⟨hb, y, rfl⟩
      obtain ⟨⟨l, e1, hl⟩, _, ⟨e, e2, he⟩⟩ := T a b x y ha hb
      obtain ⟨⟨g, e3, hg⟩, _, _⟩ := T b a y x hb ha
      refine ⟨e, l, g, e2, by rw [e2]; rfl, e1, e3, ?_⟩
      rcases Tot a b with h | h | h
      · have n1 : e ≠ true := fun e0 => I a (by have := he.1 e0; subst this; exact h)
        have n2 : g ≠ true := fun g0 => I a (Tr _ _ _ h (hg.1 g0))
        exact .inr (.inl ⟨by simpa using n1, hl.2 h, by simpa using n2⟩)
      · subst h
        exact .inl ⟨he.2 rfl, by simpa using fun h => I a (hl.1 h), by simpa using fun h => I a (hg.1 h)⟩
      · have n1 : e ≠ true := fun e0 => I a (by have := he.1 e0; subst this; exact h)
        have n2 : l ≠ true := fun g0 => I a (Tr _ _ _ (hl.1 g0) h)
        exact .inr (.inr ⟨by simpa using n1, by simpa using n2, hg.2 h⟩)
    · rintro s t u a b c ⟨ha, x, rfl⟩ ⟨hb, y, rfl⟩ ⟨hc, z, rfl⟩ h1 h2
      obtain ⟨⟨l, e1, hl⟩, _⟩ := T a b x y ha hb
      obtain ⟨⟨l', e2, hl'⟩, _⟩ := T b c y z hb hc
      obtain ⟨⟨l'', e3, hl''⟩, _⟩ := T a c x z ha hc
      rw [e1] at h1
      rw [e2] at h2
      cases h1
      cases h2
      rw [e3, hl''.2 (Tr _ _ _ (hl.1 rfl) (hl'.1 rfl))]
  obtain ⟨_, N, I, Tr⟩ := C71_numbered_partial
  have C := C70_compare.1
  refine ⟨?_, ?_, ?_, ?_⟩
  · intro K hK
    cases K with
    | constChar => exact text
    | string => exact text
    | fileName => exact absurd rfl hK
  · intro s t a b hs ht
    obtain ⟨⟨e, e1, _⟩, _⟩ := C s t a b hs ht
    have h0 : (0 : UInt8) ∈ s := by obtain ⟨_, r, rfl⟩ := hs; simp
    have h0' : (0 : UInt8) ∈ t := by obtain ⟨_, r, rfl⟩ := ht; simp
    obtain ⟨l, e2⟩ := numberedLess_ok charValue_upper (s.length + 1) s t h0 h0' (by omega)
    exact ⟨e, l, e1, by simp only [keyNe]; rw [e1]; rfl, e2⟩
  · rintro s t a b hs ht ⟨ps, hp⟩ ⟨qs, hq⟩
    obtain ⟨⟨e, e1, he⟩, _⟩ := C s t a b hs ht
    obtain ⟨⟨l, e2, hl⟩, tot⟩ := N s t a b ps qs hs ht hp hq
    obtain ⟨⟨g, e3, hg⟩, _⟩ := N t s b a qs ps ht hs hq hp
    rw [same_iff_parts hs.1 hp hq] at he
    refine ⟨e, l, g, e1, e2, e3, ?_⟩
    rcases tot with h | h | h
    · have n1 : e ≠ true := fun e0 => I ps (by have := he.1 e0; subst this; exact h)
      have n2 : g ≠ true := fun g0 => I ps (Tr _ _ _ h (hg.1 g0))
      exact .inr (.inl ⟨by simpa using n1, hl.2 h, by simpa using n2⟩)
    · subst h
      exact .inl ⟨he.2 rfl, by simpa using fun h => I ps (hl.1 h), by simpa using fun h => I ps (hg.1 h)⟩
    · have n1 : e ≠ true := fun e0 => I ps (by have := he.1 e0; subst this; exact h)
      have n2 : l ≠ true := fun g0 => I ps (Tr _ _ _ (hl.1 g0) h)
      exact .inr (.inr ⟨by simpa using n1, by simpa using n2, hg.2 h⟩)
  · rintro s t u a b c hs ht hu ⟨ps, hp⟩ ⟨qs, hq⟩ ⟨rs, hr⟩ h1 h2
    obtain ⟨⟨l, e1, hl⟩, _⟩ := N s t a b ps qs hs ht hp hq
    obtain ⟨⟨l', e2, hl'⟩, _⟩ := N t u b c qs rs ht hu hq hr
    obtain ⟨⟨l'', e3, hl''⟩, _⟩ := N s u a c ps rs hs hu hp hr
    simp only [keyLess] at h1 h2 ⊢
    rw [e1] at h1
    rw [e2] at h2
    cases h1
    cases h2
    rw [e3, hl''.2 (Tr _ _ _ (hl.1 rfl) (hl'.1 rfl))]

/-- "file9" is a file name less than "FILE10", which is equal to "file10"; as strings they are ordered otherwise. -/
example : keyLess .fileName (ascii "file9" ++ [0]) (ascii "FILE10" ++ [0]) = .ok true ∧
    keyEq .fileName (ascii "file10" ++ [0]) (ascii "FILE10" ++ [0]) = .ok true ∧
    keyNe .fileName (ascii "file10" ++ [0]) (ascii "FILE11" ++ [0]) = .ok true ∧
    keyLess .string (ascii "file9" ++ [0]) (ascii "FILE10" ++ [0]) = .ok false ∧
    keyEq .constChar (ascii "file10" ++ [0]) (ascii "FILE10" ++ [0]) = .ok false ∧
    Tidy (ascii "F9") :=
  ⟨by decide, by decide, by decide, by decide, by decide,
    [.chr 70, .num 9], .chr (by unfold IsDigit; decide)
      (.num (d := [57]) (t := []) ⟨⟨by decide, by decide, by decide⟩, by decide⟩ (by decide) (by simp) .nil)⟩

/-! ## C132: maps with keys that are texts -/

/-- The text of a key, without its terminator. -/
abbrev KeyText := { a : Bytes // (0 : UInt8) ∉ a }

/-- A file name as in `Tidy`. -/
abbrev TidyText := { a : Bytes // (0 : UInt8) ∉ a ∧ Tidy a }

/-- What a key class regards as the same key. -/
def canonical : KeyClass → Bytes → Bytes
  | .fileName, a => a.map capital
  | _, a => a

/-- The operation on the map in which a canonical key has the element (key and value) with that key. -/
def canonicalOp {κ α : Type} (K : KeyClass) (text : κ → Bytes) : MapOp κ α → MapOp Bytes (κ × α)
  | .insert k v => .insert (canonical K (text k)) (k, v)
  | .remove k => .remove (canonical K (text k))

/-- **C132**, full statement: a map whose elements have keys that are texts contains, after any history of
insertions and removals, for every key the element that was inserted for it (first insertion wins); file names are
the same key if they differ in case only. -/
def C132_statement : Prop :=
  ∀ (K : KeyClass) (ops : List (MapOp KeyText Nat)),
    ∃ t, mapRun (mapLess K fun a : KeyText => a.1 ++ [0]) ops = some t ∧
      ∀ k : KeyText, findMapElement (mapLess K fun a : KeyText => a.1 ++ [0]) k t =
        AMap.run (ops.map (canonicalOp K Subtype.val)) (canonical K k.1)

/-- After the insertion of "1b", "01a" and "0" there is no "1b". -/
theorem C132_violated : ¬ C132_statement := by
  intro h
  obtain ⟨t, e, hf⟩ := h .fileName [.insert ⟨ascii "1b", by decide⟩ 1, .insert ⟨ascii "01a", by decide⟩ 2,
    .insert ⟨ascii "0", by decide⟩ 3]
  have e' : mapRun (mapLess .fileName fun a : KeyText => a.1 ++ [0]) [.insert ⟨ascii "1b", by decide⟩ 1,
      .insert ⟨ascii "01a", by decide⟩ 2, .insert ⟨ascii "0", by decide⟩ 3] =
      some (.node 0 (.node 0 .nil ⟨ascii "0", by decide⟩ 3 .nil) ⟨ascii "01a", by decide⟩ 2
        (.node 0 .nil ⟨ascii "1b", by decide⟩ 1 .nil)) := by decide
  rw [e'] at e
  cases e
  have := hf ⟨ascii "1b", by decide⟩
  revert this
  decide

/-- "8589934593" cannot be inserted into a map that contains "4294967297". -/
theorem C132_violated_large : ∃ t : Tree KeyText Nat,
    mapRun (mapLess .fileName fun a : KeyText => a.1 ++ [0]) [.insert ⟨ascii "4294967297", by decide⟩ 1] = some t ∧
    insertMapElement (mapLess .fileName fun a : KeyText => a.1 ++ [0]) t ⟨ascii "8589934593", by decide⟩ 2 =
      some (false, t) := by
  refine ⟨_, rfl, by decide⟩

/-- An operation with other names for the keys. -/
def rekey {κ κ' α : Type} (g : κ → κ') : MapOp κ α → MapOp κ' α
  | .insert k v => .insert (g k) v
  | .remove k => .remove (g k)

theorem run_injective {κ κ' α : Type} [DecidableEq κ] [DecidableEq κ'] (g : κ → κ') (inj : ∀ a b, g a = g b → a = b)
    (ops : List (MapOp κ α)) (k : κ) :
    AMap.run (ops.map (rekey g)) (g k) =
      AMap.run ops k := by
  have gen : ∀ (ops : List (MapOp κ α)) (m : AMap κ α) (m' : AMap κ' α), (∀ k, m' (g k) = m k) →
      ∀ k, (ops.map (rekey g)).foldl
        AMap.apply m' (g k) = ops.foldl AMap.apply m k := by
    intro ops
    induction ops with
    | nil => intro m m' h k; exact h k
    | cons o ops ih =>
      intro m m' h k
      simp only [List.map_cons, List.foldl_cons]
      apply ih
      intro x
      have hx : ∀ y, g x = g y ↔ x = y := fun y => ⟨inj x y, fun e => by rw [e]⟩
      cases o with
      | insert y v => simp [rekey, AMap.apply, AMap.insertNew, hx, h]
      | remove y => simp [rekey, AMap.apply, AMap.erase, hx, h]
  exact gen ops _ _ (fun _ => rfl) k

/-- An operation with the keys replaced by their images. -/
def imageOp {κ κ' α : Type} (f : κ → κ') : MapOp κ α → MapOp κ' (κ × α)
  | .insert k v => .insert (f k) (k, v)
  | .remove k => .remove (f k)

/-- If keys are compared through a function into a totally ordered type, the map is a finite map on its values. -/
theorem keyed_map {κ κ' α : Type} [DecidableEq κ] [DecidableEq κ'] {lt : κ → κ → Bool} {lt' : κ' → κ' → Bool}
    (O : StrictTotal lt') (f : κ → κ') (h : ∀ a b, lt a b = lt' (f a) (f b)) (ops : List (MapOp κ α)) :
    ∃ t, mapRun lt ops = some t ∧
      (∀ k, findMapElement lt k t = AMap.run (ops.map (imageOp f)) (f k)) ∧
      (∀ k v, ∃ t', insertMapElement lt t k v = some ((AMap.run (ops.map (imageOp f)) (f k)).isNone, t')) := by
  have ins : ∀ (t : Tree κ α) (m : AMap κ' (κ × α)), MapInv lt' (t.img f) m → ∀ k v,
      ∃ t', insertMapElement lt t k v = some ((m (f k)).isNone, t') ∧ MapInv lt' (t'.img f) (m.insertNew (f k) (k, v)) := by
    intro t m hm k v
    obtain ⟨t', e, h'⟩ := mapInv_insert O hm (f k) (k, v)
    rw [img_insert h] at e
    cases hi : insertMapElement lt t k v with
    | none => rw [hi] at e; cases e
    | some x =>
      rw [hi] at e
      simp only [Option.map_some, Option.some.injEq, Prod.mk.injEq] at e
      exact ⟨x.2, by rw [← e.1], by rw [e.2]; exact h'⟩
  have gen : ∀ (ops : List (MapOp κ α)) (t : Tree κ α) (m : AMap κ' (κ × α)), MapInv lt' (t.img f) m →
      ∃ t', ops.foldl (mapStep lt) (some t) = some t' ∧ MapInv lt' (t'.img f) ((ops.map (imageOp f)).foldl AMap.apply m) := by
    intro ops
    induction ops with
    | nil => intro t m hm; exact ⟨t, rfl, hm⟩
    | cons o ops ih =>
      intro t m hm
      cases o with
      | insert k v =>
        obtain ⟨t', e, h'⟩ := ins t m hm k v
        simpa [mapStep, e, AMap.apply, imageOp] using ih t' _ h'
      | remove k =>
        obtain ⟨t', e, h'⟩ := mapInv_remove O hm (f k)
        have inj : ∀ x ∈ toList t, ∀ y ∈ toList t, f x.1 = f y.1 → x.1 = y.1 := by
          intro x hx y hy e
          have h1 := (hm.mem (f x.1) x).1 (by rw [img_toList]; exact List.mem_map.2 ⟨x, hx, rfl⟩)
          have h2 := (hm.mem (f y.1) y).1 (by rw [img_toList]; exact List.mem_map.2 ⟨y, hy, rfl⟩)
          rw [e, h2] at h1
          cases h1
          rfl
        rw [img_remove h k t inj] at e
        cases hr : removeMapElement lt t k with
        | none => rw [hr] at e; cases e
        | some u =>
          rw [hr] at e
          simp only [Option.map_some, Option.some.injEq] at e
          subst e
          simpa [mapStep, hr, AMap.apply, imageOp] using ih u _ h'
  obtain ⟨t, e, hm⟩ := gen ops .nil AMap.empty (mapInv_empty lt')
  refine ⟨t, e, fun k => ?_, fun k v => ?_⟩
  · have e1 := mapInv_find O hm (f k)
    rw [img_find h] at e1
    cases hf : findMapElement lt k t with
    | none =>
      rw [hf] at e1
      cases hx : (ops.map (imageOp f)).foldl AMap.apply AMap.empty (f k) with
      | none => exact hx.symm
      | some y => rw [hx] at e1; cases e1
    | some x =>
      rw [hf] at e1
      cases hx : (ops.map (imageOp f)).foldl AMap.apply AMap.empty (f k) with
      | none => rw [hx] at e1; cases e1
      | some y =>
        rw [hx] at e1
        simp only [Option.map_some, Option.some.injEq, Prod.mk.injEq] at e1
        rw [e1.2]; exact hx.symm
  · obtain ⟨t', e', _⟩ := ins t _ hm k v
    exact ⟨t', e'⟩

/-- The order of texts as keys is a total order. -/
theorem mapLess_text (K : KeyClass) (hK : K ≠ .fileName) : StrictTotal (mapLess K fun a : KeyText => a.1 ++ [0]) := by
  obtain ⟨T, I, Tr, Tot⟩ := C40_text_order
  have key : ∀ a b : KeyText, mapLess K (fun a : KeyText => a.1 ++ [0]) a b = true ↔ LexLt a.1 b.1 := by
    intro a b
    obtain ⟨⟨l, e, hl⟩, _⟩ := T a.1 b.1 [] [] a.2 b.2
    have : keyLess K (a.1 ++ [0]) (b.1 ++ [0]) = .ok l := by
      cases K with
      | constChar => exact e
      | string => exact e
      | fileName => exact absurd rfl hK
    simp only [mapLess, this, hl]
  refine ⟨fun a => ?_, fun a b c h1 h2 => ?_, fun a b h1 h2 => ?_⟩
  · rw [Bool.eq_false_iff]; intro h; exact I _ ((key a a).1 h)
  · exact (key a c).2 (Tr _ _ _ ((key a b).1 h1) ((key b c).1 h2))
  · rw [Bool.eq_false_iff, ne_eq, key] at h1 h2
    rcases Tot a.1 b.1 with h | h | h
    · exact absurd h h1
    · exact Subtype.ext h
    · exact absurd h h2

/-- Capitalised file names. -/
abbrev CapitalText := { a : Bytes // (0 : UInt8) ∉ a ∧ ∃ ps, Parts (2 ^ 32) UInt8.toNat a ps }

/-- Their order. -/
def capitalLess (a b : CapitalText) : Bool :=
  match compareNumbered (a.1 ++ [0]) (b.1 ++ [0]) with
  | .ok r => r
  | _ => false

theorem capitalLess_iff (a b : CapitalText) {ps qs} (hp : Parts (2 ^ 32) UInt8.toNat a.1 ps)
    (hq : Parts (2 ^ 32) UInt8.toNat b.1 qs) : capitalLess a b = true ↔ LexBy Part.lt ps qs := by
  obtain ⟨⟨r, e, hr⟩, _⟩ := C71_numbered_partial.1 _ _ a.1 b.1 ps qs ⟨a.2.1, [], rfl⟩ ⟨b.2.1, [], rfl⟩ hp hq
  simp only [capitalLess, e, hr]

theorem capitalLess_total : StrictTotal capitalLess := by
  obtain ⟨N, _, I, Tr⟩ := C71_numbered_partial
  refine ⟨fun a => ?_, fun a b c h1 h2 => ?_, fun a b h1 h2 => ?_⟩
  · obtain ⟨ps, hp⟩ := a.2.2
    rw [Bool.eq_false_iff, ne_eq, capitalLess_iff a a hp hp]
    exact I ps
  · obtain ⟨ps, hp⟩ := a.2.2
    obtain ⟨qs, hq⟩ := b.2.2
    obtain ⟨rs, hr⟩ := c.2.2
    rw [capitalLess_iff a b hp hq] at h1
    rw [capitalLess_iff b c hq hr] at h2
    rw [capitalLess_iff a c hp hr]
    exact Tr _ _ _ h1 h2
  · obtain ⟨ps, hp⟩ := a.2.2
    obtain ⟨qs, hq⟩ := b.2.2
    rw [Bool.eq_false_iff, ne_eq, capitalLess_iff a b hp hq] at h1
    rw [Bool.eq_false_iff, ne_eq, capitalLess_iff b a hq hp] at h2
    rcases (N _ _ a.1 b.1 ps qs ⟨a.2.1, [], rfl⟩ ⟨b.2.1, [], rfl⟩ hp hq).2 with h | h | h
    · exact absurd h h1
    · exact Subtype.ext h
    · exact absurd h h2

/-- A file name in capitals. -/
def toCapital (a : TidyText) : CapitalText :=
  ⟨a.1.map capital, zero_capital a.2.1, a.2.2.elim fun ps h => ⟨ps, parts_capital h⟩⟩

theorem mapLess_tidy (a b : TidyText) :
    mapLess .fileName (fun a : TidyText => a.1 ++ [0]) a b = capitalLess (toCapital a) (toCapital b) := by
  obtain ⟨ps, hp⟩ := a.2.2
  obtain ⟨qs, hq⟩ := b.2.2
  obtain ⟨⟨r, e, hr⟩, _⟩ := C71_numbered_partial.2.1 _ _ a.1 b.1 ps qs ⟨a.2.1, [], rfl⟩ ⟨b.2.1, [], rfl⟩ hp hq
  rw [Bool.eq_iff_iff, capitalLess_iff (toCapital a) (toCapital b) (parts_capital hp) (parts_capital hq), ← hr]
  simp only [mapLess, keyLess, e]

/-- **C132**, partial: with keys of the classes `ConstCharKey` and `StringKey` the map is a finite map for every
history; with keys of the class `FileNameKey` it is, up to case, if the numbers in the names have no superfluous zeros
and are below 2^32. `InsertMapElement` says whether there was no such key. Missing: other file names, for which the
statement is false. -/
theorem C132_keyed_map_partial {α : Type} :
    (∀ K, K ≠ .fileName → ∀ (ops : List (MapOp KeyText α)),
      ∃ t, mapRun (mapLess K fun a : KeyText => a.1 ++ [0]) ops = some t ∧
        (∀ k : KeyText, findMapElement (mapLess K fun a : KeyText => a.1 ++ [0]) k t =
          AMap.run (ops.map (canonicalOp K Subtype.val)) (canonical K k.1)) ∧
        (∀ (k : KeyText) v, ∃ t', insertMapElement (mapLess K fun a : KeyText => a.1 ++ [0]) t k v =
          some ((AMap.run (ops.map (canonicalOp K Subtype.val)) (canonical K k.1)).isNone, t'))) ∧
    (∀ (ops : List (MapOp TidyText α)),
      ∃ t, mapRun (mapLess .fileName fun a : TidyText => a.1 ++ [0]) ops = some t ∧
        (∀ k : TidyText, findMapElement (mapLess .fileName fun a : TidyText => a.1 ++ [0]) k t =
          AMap.run (ops.map (canonicalOp .fileName Subtype.val)) (canonical .fileName k.1)) ∧
        (∀ (k : TidyText) v, ∃ t', insertMapElement (mapLess .fileName fun a : TidyText => a.1 ++ [0]) t k v =
          some ((AMap.run (ops.map (canonicalOp .fileName Subtype.val)) (canonical .fileName k.1)).isNone, t'))) := by
  constructor
  · intro K hK ops
    obtain ⟨t, e, hf, hi⟩ := keyed_map (lt := mapLess K fun a : KeyText => a.1 ++ [0]) (mapLess_text K hK) id (fun _ _ => rfl) ops
    have hc : ∀ a, canonical K a = a := by
      cases K with
      | constChar => exact fun _ => rfl
      | string => exact fun _ => rfl
      | fileName => exact absurd rfl hK
    have ho : (ops.map (imageOp id)).map (rekey Subtype.val) =
        ops.map (canonicalOp K Subtype.val) := by
      rw [List.map_map]
      apply List.map_congr_left
      intro o _
      cases o <;> simp [rekey, imageOp, canonicalOp, hc]
    have hr : ∀ k : KeyText, AMap.run (ops.map (imageOp id)) (id k) =
        AMap.run (ops.map (canonicalOp K Subtype.val)) (canonical K k.1) := by
      intro k
      rw [← ho, hc]
      exact (run_injective Subtype.val (fun a b => Subtype.ext) _ k).symm
    exact ⟨t, e, fun k => by rw [hf, hr], fun k v => by rw [← hr]; exact hi k v⟩
  · intro ops
    obtain ⟨t, e, hf, hi⟩ := keyed_map capitalLess_total toCapital mapLess_tidy ops
    have ho : (ops.map (imageOp toCapital)).map (rekey Subtype.val) =
        ops.map (canonicalOp .fileName Subtype.val) := by
      rw [List.map_map]
      apply List.map_congr_left
      intro o _
      cases o <;> simp [rekey, imageOp, canonicalOp, canonical, toCapital]
    have hr : ∀ k : TidyText, AMap.run (ops.map (imageOp toCapital)) (toCapital k) =
        AMap.run (ops.map (canonicalOp .fileName Subtype.val)) (canonical .fileName k.1) := by
      intro k
      rw [← ho]
      exact (run_injective Subtype.val (fun a b => Subtype.ext) _ (toCapital k)).symm
    exact ⟨t, e, fun k => by rw [hf, hr], fun k v => by rw [← hr]; exact hi k v⟩

/-- "File2", "file10" and "FILE2" are two files: the third name finds the first one. -/
example : mapRun (mapLess .fileName fun a : KeyText => a.1 ++ [0]) [.insert ⟨ascii "file10", by decide⟩ 1,
      .insert ⟨ascii "File2", by decide⟩ 2, .insert ⟨ascii "FILE2", by decide⟩ 3] =
      some (.node (-1) (.node 0 .nil ⟨ascii "File2", by decide⟩ 2 .nil) ⟨ascii "file10", by decide⟩ 1 .nil) ∧
    AMap.run ([.insert ⟨ascii "file10", by decide⟩ 1, .insert ⟨ascii "File2", by decide⟩ 2,
      .insert ⟨ascii "FILE2", by decide⟩ (3 : Nat)].map (canonicalOp .fileName (Subtype.val : KeyText → Bytes)))
        (canonical .fileName (ascii "file2")) = some (⟨ascii "File2", by decide⟩, 2) := by decide

end Verif.Props
