import Verif.Lemmas.ReaderBuiltin
import Verif.Lemmas.Rfc
import Verif.Props.Builtin

/-!
# Properties of the parser with the built-in number reader (C143, C144)
-/

namespace Verif.Props

open Verif Verif.Text Verif.Number Verif.Map Verif.Parser Verif.Spec Verif.Builtin Verif.Doc

variable {D : Type}

/-! ## C143: the language of the other configuration -/

/-- What the access functions show of one node. -/
def NodeShows {ν : Type} (val : ν → D → Prop) : Option (Syn ν) → Option (Value D) → Prop
  | none, none => True
  | some .null, some .null => True
  | some (.bool b), some (.bool b') => b' = b
  | some (.num x), some (.num y) => val x y
  | some (.str s), some (.str s') => s' = s
  | some (.arr l), some (.arr l') => l'.length = l.length
  | some (.obj m), some (.obj _ order) => order = m.names
  | _, _ => False

/-- The number a signed literal denotes: what the reader gives for the literal alone, negated if there is a minus sign. -/
def LitValue (A : Arith D) (neg : D → D) (x : SignedLit) (y : D) : Prop :=
  ∃ v, readDouble A (x.lit ++ [0]) = .ok (.inr (v, [0])) ∧ y = if x.neg then neg v else v

/-- Texts of this configuration. -/
abbrev BuiltinText : Bytes → Syn SignedLit → Prop := SynText SignedNum DialStr

theorem sval_lits {val : SignedLit → Prop} (hval : ∀ t x, SignedNum t x → val x) {t : Bytes} {j : Syn SignedLit}
    (h : SVal SignedNum DialStr t j) : ∀ p x, j.walk p = some (.num x) → val x := by
  refine SVal.rec (motive_1 := fun _ j _ => ∀ p x, j.walk p = some (.num x) → val x)
    (motive_2 := fun _ l _ => ∀ i j, l.get i = some j → ∀ p x, j.walk p = some (.num x) → val x)
    (motive_3 := fun _ m _ => ∀ k j, m.first k = some j → ∀ p x, j.walk p = some (.num x) → val x)
    ?_ ?_ ?_ ?_ ?_ ?_ ?_ ?_ ?_ ?_ ?_ ?_ ?_ h
  · intro p x; cases p <;> simp [Syn.walk, Syn.step]
  · intro p x; cases p <;> simp [Syn.walk, Syn.step]
  · intro p x; cases p <;> simp [Syn.walk, Syn.step]
  · intro t d hd p x; cases p <;> simp [Syn.walk, Syn.step]
    rintro rfl; exact hval _ _ hd
  · intro t s hs p x; cases p <;> simp [Syn.walk, Syn.step]
  · intro w hw p x; rcases p with _ | ⟨s, p⟩
    · simp [Syn.walk]
    · cases s <;> simp [Syn.walk, Syn.step, SynL.get]
  · intro t l hl ih p x; rcases p with _ | ⟨s, p⟩
    · simp [Syn.walk]
    · cases s with
      | member k => simp [Syn.walk, Syn.step]
      | index i =>
        simp only [Syn.walk, Syn.step, Option.bind_eq_some_iff]
        rintro ⟨j, h1, h2⟩; exact ih i j h1 p x h2
  · intro w hw p x; rcases p with _ | ⟨s, p⟩
    · simp [Syn.walk]
    · cases s <;> simp [Syn.walk, Syn.step, SynM.first]
  · intro t m hm ih p x; rcases p with _ | ⟨s, p⟩
    · simp [Syn.walk]
    · cases s with
      | index k => simp [Syn.walk, Syn.step]
      | member k =>
        simp only [Syn.walk, Syn.step, Option.bind_eq_some_iff]
        rintro ⟨j, h1, h2⟩; exact ih k j h1 p x h2
  · intro w1 t w2 j _ _ _ ih i j' h
    cases i with
    | zero => simp only [SynL.get, Option.some.injEq] at h; subst h; exact ih
    | succ i => simp [SynL.get] at h
  · intro w1 t w2 j ts l _ _ _ _ ih ihl i j' h
    cases i with
    | zero => simp only [SynL.get, Option.some.injEq] at h; subst h; exact ih
    | succ i => exact ihl i j' h
  · intro w1 n w2 w3 t w4 s j _ _ _ _ _ _ ih k j' h
    simp only [SynM.first] at h
    split at h
    · simp only [Option.some.injEq] at h; subst h; exact ih
    · simp at h
  · intro w1 n w2 w3 t w4 s j ts m _ _ _ _ _ _ _ ih ihm k j' h
    simp only [SynM.first] at h
    split at h
    · simp only [Option.some.injEq] at h; subst h; exact ih
    · exact ihm k j' h

theorem litVal_value (A : Arith D) (neg : D → D) {t : Bytes} {x : SignedLit} (h : SignedNum t x) :
    LitValue A neg x (ParserB.litVal A neg x) := by
  have key : ∀ (b : Bool) {p ip fp : Bytes} {e : Option Int}, UnderNum p ip fp e → LitValue A neg ⟨b, p⟩ (ParserB.litVal A neg ⟨b, p⟩) := by
    intro b p ip fp e h
    refine ⟨valueOf A ip fp e, ?_, ParserB.litVal_eq A neg h b⟩
    exact readDouble_ok A h (ParserB.Follows.final (.inr (.inr (.inr (.inr rfl))))) []
  cases h with
  | plain h => exact key _ h
  | plus _ h => exact key _ h
  | minus _ h => exact key _ h

theorem interp_shows (A : Arith D) (neg : D → D) {t : Bytes} {j : Syn SignedLit} (h : BuiltinText t j) (p : List Step) :
    NodeShows (LitValue A neg) (j.walk p) (walk (ParserB.interp (ParserB.litVal A neg) j) p) := by
  obtain ⟨w1, v, w2, -, hv, -, -⟩ := h
  rw [ParserB.walk_interp]
  cases hw : j.walk p with
  | none => trivial
  | some k =>
    cases k with
    | null => trivial
    | bool b => rfl
    | num x =>
      refine sval_lits (val := fun x => LitValue A neg x (ParserB.litVal A neg x)) ?_ hv p x hw
      intro t x h; exact litVal_value A neg h
    | str s => rfl
    | arr l => exact ParserB.interpL_length _ l
    | obj m => rfl

/-- **C143.** Without the C library's conversions, parsing a buffer of at least three bytes that ends in NUL always returns; it
succeeds exactly if the text is a JSON text with the strings of the dialect and signed literals as numbers, and then the
accessible value is that of the text. -/
theorem C143_builtin_language (A : Arith D) (neg : D → D) (fuel : Nat) (buf : Bytes) (h3 : 3 ≤ buf.length)
    (hlast : buf.getLast? = some 0) (hf : parseFuel buf ≤ fuel) :
    ∃ res, ParserB.parseRoot (ParserB.parseNumberB A neg) fuel buf = .ok res ∧
      (res.status = .kOk ↔ ∃ j, BuiltinText (cstr buf) j) ∧
      (∀ j, BuiltinText (cstr buf) j → ∃ v, res = ⟨.kOk, some v, 0, 0⟩ ∧
        ∀ p, NodeShows (LitValue A neg) (j.walk p) (walk v p)) := by
  have hR := ParserB.readerOk A neg
  have hc : ∀ j, BuiltinText (cstr buf) j → ParserB.parseRoot (ParserB.parseNumberB A neg) fuel buf =
      .ok ⟨.kOk, some (ParserB.interp (ParserB.litVal A neg) j), 0, 0⟩ :=
    fun j h => ParserB.root_complete hR fuel buf h3 hlast hf h
  rcases ParserB.root_total hR fuel buf h3 hlast hf with ⟨j, hj, e⟩ | ⟨res, e, hfail⟩
  · refine ⟨_, e, ⟨fun _ => ⟨j, hj⟩, fun _ => rfl⟩, fun j' hj' => ⟨_, ?_, fun p => interp_shows A neg hj' p⟩⟩
    have := e.symm.trans (hc j' hj')
    injection this
  · refine ⟨res, e, ⟨fun h => absurd h hfail.status, ?_⟩, ?_⟩
    · rintro ⟨j, hj⟩
      have := e.symm.trans (hc j hj)
      injection this with this
      rw [this]
    · intro j hj
      have := e.symm.trans (hc j hj)
      injection this with this
      rw [this]
      exact ⟨_, rfl, fun p => interp_shows A neg hj p⟩

/-- **C143**, buffers of fewer than three bytes or without a NUL at the end: refused, as with the C library's conversions. -/
theorem C143_builtin_refused (A : Arith D) (neg : D → D) (fuel : Nat) (buf : Bytes) :
    (buf.length < 3 → ParserB.parseRoot (ParserB.parseNumberB A neg) fuel buf = .ok ⟨.kTextBufferContentsInvalid, none, 0, 0⟩) ∧
    (3 ≤ buf.length → buf.getLast? ≠ some 0 →
      ParserB.parseRoot (ParserB.parseNumberB A neg) fuel buf = .ok ⟨.kUnterminatedTextBuffer, none, 0, 0⟩) := by
  refine ⟨fun h => by unfold ParserB.parseRoot; rw [if_pos h], fun h hl => ?_⟩
  obtain ⟨c, hc, hr⟩ : ∃ c, buf.getLast? = some c ∧ rd buf (buf.length - 1) = .ok c := by
    have hne : buf ≠ [] := by rintro rfl; simp at h
    refine ⟨buf.getLast hne, List.getLast?_eq_some_getLast hne, ?_⟩
    unfold rd
    rw [List.getElem?_eq_getElem (by omega)]
    simp [List.getLast_eq_getElem]
  unfold ParserB.parseRoot
  rw [if_neg (by omega), hr]
  simp only [Out.ok_bind]
  rw [if_pos (by rintro rfl; exact hl hc)]

/-- `7` and `[]` without a NUL. -/
example (A : Arith D) (neg : D → D) :
    ParserB.parseRoot (ParserB.parseNumberB A neg) 9 [0x37, 0] = .ok ⟨.kTextBufferContentsInvalid, none, 0, 0⟩ ∧
    ParserB.parseRoot (ParserB.parseNumberB A neg) 9 [0x5B, 0x5D, 0x20] = .ok ⟨.kUnterminatedTextBuffer, none, 0, 0⟩ := ⟨rfl, rfl⟩

/-- **C143, failures.** If the text is not accepted, the reported line and column are those of a position, behind whitespace, such
that the text before it can be completed to an accepted text, and no root is kept unless only the end was expected. -/
theorem C143_builtin_failure (A : Arith D) (neg : D → D) (fuel : Nat) (buf : Bytes) (h3 : 3 ≤ buf.length)
    (hlast : buf.getLast? = some 0) (hf : parseFuel buf ≤ fuel) (hno : ¬ ∃ j, BuiltinText (cstr buf) j) :
    ∃ res, ParserB.parseRoot (ParserB.parseNumberB A neg) fuel buf = .ok res ∧ res.status ≠ .kOk ∧
      (res.root.isSome → res.status = .kExpectedEndOfFile) ∧
      ∃ w q w' c s ext j, Ws w ∧ Ws w' ∧ buf = w ++ (q ++ (w' ++ c :: s)) ∧ (0 : Byte) ∉ q ∧ isWs c = false ∧
        res.errorLine = lineOf (q ++ w') ∧ res.errorColumn = colOf (q ++ w') ∧ BuiltinText (w ++ (q ++ ext)) j := by
  rcases ParserB.root_total (ParserB.readerOk A neg) fuel buf h3 hlast hf with ⟨j, hj, -⟩ | ⟨res, e, hfail⟩
  · exact absurd ⟨j, hj⟩ hno
  · obtain ⟨w, q, w', c, s, h1, h2, h4, h5, h6, -, h7, h8, ext, j, h9⟩ := hfail.position
    refine ⟨res, e, hfail.status, ?_, w, q, w', c, s, ext, j, h1, h2, h4, h5, h6, h7, h8, h9⟩
    intro h
    rcases hfail.root with hr | hr
    · rw [hr] at h; simp at h
    · exact hr.1

/-! ## C144: RFC 8259 in the other configuration -/

/-- What the access functions show of one node of an RFC 8259 text: a number is what the reader gives for some RFC 8259 token of
the same decimal value. -/
def RfcShows (A : Arith D) (neg : D → D) : Option J → Option (Value D) → Prop
  | none, none => True
  | some .null, some .null => True
  | some (.bool b), some (.bool b') => b' = b
  | some (.num d), some (.num y) =>
    ∃ x : SignedLit, RfcNum ((if x.neg then [0x2D] else []) ++ x.lit) d ∧ x.neg = d.neg ∧ LitValue A neg x y
  | some (.str s), some (.str s') => s' = s
  | some (.arr l), some (.arr l') => l'.length = l.length
  | some (.obj m), some (.obj _ order) => order = m.names
  | _, _ => False

/-- Corresponding nodes of the two kinds of trees. -/
def SameNode : Option J → Option (Syn SignedLit) → Prop
  | none, none => True
  | some .null, some .null => True
  | some (.bool b), some (.bool b') => b' = b
  | some (.num d), some (.num x) => RfcNum ((if x.neg then [0x2D] else []) ++ x.lit) d ∧ x.neg = d.neg
  | some (.str s), some (.str s') => s' = s
  | some (.arr l), some (.arr l') => l'.length = l.length
  | some (.obj m), some (.obj m') => m'.names = m.names
  | _, _ => False

theorem rfc_signed {t : Bytes} {d : Dec} (h : RfcNum t d) :
    ∃ x : SignedLit, SignedNum t x ∧ RfcNum ((if x.neg then [0x2D] else []) ++ x.lit) d ∧ x.neg = d.neg := by
  cases h with
  | pos hi hf he =>
    obtain ⟨e', h, -⟩ := rfc_under hi hf he
    exact ⟨⟨false, _⟩, .plain h, .pos hi hf he, rfl⟩
  | neg hi hf he =>
    obtain ⟨e', h, -⟩ := rfc_under hi hf he
    exact ⟨⟨true, _⟩, .minus (w := []) Ws.nil h, .neg hi hf he, rfl⟩

theorem rfc_syn {t : Bytes} {j : J} (h : Val RfcNum SafeStr t j) :
    ∃ s : Syn SignedLit, SVal SignedNum DialStr t s ∧ ∀ p, SameNode (j.walk p) (s.walk p) := by
  refine Val.rec (motive_1 := fun t j _ => ∃ s : Syn SignedLit, SVal SignedNum DialStr t s ∧ ∀ p, SameNode (j.walk p) (s.walk p))
    (motive_2 := fun t l _ => ∃ l' : SynL SignedLit, SElems SignedNum DialStr t l' ∧ l'.length = l.length ∧
      ∀ i p, SameNode ((l.get i).bind fun j => j.walk p) ((l'.get i).bind fun j => j.walk p))
    (motive_3 := fun t m _ => ∃ m' : SynM SignedLit, SMembers SignedNum DialStr t m' ∧ m'.names = m.names ∧
      ∀ k p, SameNode ((m.first k).bind fun j => j.walk p) ((m'.first k).bind fun j => j.walk p))
    ?_ ?_ ?_ ?_ ?_ ?_ ?_ ?_ ?_ ?_ ?_ ?_ ?_ h
  · refine ⟨.null, .null, fun p => ?_⟩; cases p <;> trivial
  · refine ⟨.bool true, .true, fun p => ?_⟩; cases p <;> trivial
  · refine ⟨.bool false, .false, fun p => ?_⟩; cases p <;> trivial
  · intro t d hd
    obtain ⟨x, h1, h2⟩ := rfc_signed hd
    refine ⟨.num x, .num h1, fun p => ?_⟩
    cases p with
    | nil => exact h2
    | cons => trivial
  · intro t s hs
    refine ⟨.str s, .str (safeStr_dial hs), fun p => ?_⟩
    cases p <;> trivial
  · intro w hw
    refine ⟨.arr .nil, .arrEmpty hw, fun p => ?_⟩
    rcases p with _ | ⟨s, p⟩
    · rfl
    · cases s <;> trivial
  · rintro t l - ⟨l', h1, h2, h3⟩
    refine ⟨.arr l', .arr h1, fun p => ?_⟩
    rcases p with _ | ⟨s, p⟩
    · exact h2
    · cases s with
      | index i => exact h3 i p
      | member => trivial
  · intro w hw
    refine ⟨.obj .nil, .objEmpty hw, fun p => ?_⟩
    rcases p with _ | ⟨s, p⟩
    · rfl
    · cases s <;> trivial
  · rintro t m - ⟨m', h1, h2, h3⟩
    refine ⟨.obj m', .obj h1, fun p => ?_⟩
    rcases p with _ | ⟨s, p⟩
    · exact h2
    · cases s with
      | member k => exact h3 k p
      | index => trivial
  · rintro w1 t w2 j hw1 - hw2 ⟨s, h1, h2⟩
    refine ⟨.cons s .nil, .one hw1 h1 hw2, rfl, fun i p => ?_⟩
    cases i with
    | zero => exact h2 p
    | succ i => trivial
  · rintro w1 t w2 j ts l hw1 - hw2 - ⟨s, h1, h2⟩ ⟨l', h3, h4, h5⟩
    refine ⟨.cons s l', .cons hw1 h1 hw2 h3, by simp [SynL.length, JL.length, h4], fun i p => ?_⟩
    cases i with
    | zero => exact h2 p
    | succ i => exact h5 i p
  · rintro w1 n w2 w3 t w4 k j hw1 hn hw2 hw3 - hw4 ⟨s, h1, h2⟩
    refine ⟨.cons k s .nil, .one hw1 (safeStr_dial hn) hw2 hw3 h1 hw4, rfl, fun k' p => ?_⟩
    simp only [JM.first, SynM.first]
    split
    · exact h2 p
    · trivial
  · rintro w1 n w2 w3 t w4 k j ts m hw1 hn hw2 hw3 - hw4 - ⟨s, h1, h2⟩ ⟨m', h3, h4, h5⟩
    refine ⟨.cons k s m', .cons hw1 (safeStr_dial hn) hw2 hw3 h1 hw4 h3, by simp [SynM.names, JM.names, h4], fun k' p => ?_⟩
    simp only [JM.first, SynM.first]
    split
    · exact h2 p
    · exact h5 k' p

/-- **C144.** Without the C library's conversions, every text of RFC 8259 of at least two bytes whose strings contain neither DEL nor
`\u0000` nor an escaped high surrogate is accepted, whatever its numbers are (`0e1` included, which the other configuration
refuses, C03), and the accessible value is that of the text. -/
theorem C144_builtin_rfc (A : Arith D) (neg : D → D) (t : Bytes) (j : J) (h : JsonText RfcNum SafeStr t j) (h2 : 2 ≤ t.length)
    (fuel : Nat) (hf : parseFuel (t ++ [0]) ≤ fuel) :
    ∃ v, ParserB.parseRoot (ParserB.parseNumberB A neg) fuel (t ++ [0]) = .ok ⟨.kOk, some v, 0, 0⟩ ∧
      ∀ p, RfcShows A neg (j.walk p) (walk v p) := by
  obtain ⟨w1, tok, w2, hw1, hv, hw2, e⟩ := h
  obtain ⟨s, hs, hsame⟩ := rfc_syn hv
  have ht : BuiltinText t s := ⟨w1, tok, w2, hw1, hs, hw2, e⟩
  have h0 : (0 : Byte) ∉ t := by
    have := hw1.nul_free; have := hw2.nul_free; have := ParserB.val_nul_free (ParserB.readerOk A neg) hs
    rw [e]; simp [*]
  have hb : cstr (t ++ [0]) = t := cstr_append h0 []
  obtain ⟨res, h3, -, h4⟩ := C143_builtin_language A neg fuel (t ++ [0]) (by simp; omega) (by simp) hf
  rw [hb] at h4
  obtain ⟨v, rfl, h5⟩ := h4 s ht
  refine ⟨v, h3, fun p => ?_⟩
  have a := hsame p
  have b := h5 p
  cases hj : j.walk p with
  | none =>
    rw [hj] at a
    cases hs' : s.walk p with
    | none => rw [hs'] at b; cases hv' : walk v p <;> rw [hv'] at b <;> trivial
    | some x => rw [hs'] at a; exact absurd a (by simp [SameNode])
  | some x =>
    rw [hj] at a
    cases hs' : s.walk p with
    | none => rw [hs'] at a; cases x <;> exact absurd a (by simp [SameNode])
    | some y =>
      rw [hs'] at a b
      cases hv' : walk v p with
      | none => rw [hv'] at b; cases y <;> exact absurd b (by simp [NodeShows])
      | some z =>
        rw [hv'] at b
        cases x <;> cases y <;> simp only [SameNode] at a <;> cases z <;> simp only [NodeShows] at b <;> simp only [RfcShows]
        · exact b.trans a
        · exact ⟨_, a.1, a.2, b⟩
        · exact b.trans a
        · exact b.trans a
        · exact b.trans a

/-- **C144, difference.** Neither configuration accepts all texts of the other: `[1_0]` and `0e1` are accepted only without the C
library, `[1+2]` only with it. -/
theorem C144_configurations_differ (A : Arith D) (neg : D → D) (N : NumOps D) :
    (∃ v, ParserB.parseRoot (ParserB.parseNumberB A neg) 30 [0x5B, 0x31, 0x5F, 0x30, 0x5D, 0] = .ok ⟨.kOk, some v, 0, 0⟩) ∧
    (∃ r, parseRoot N 30 [0x5B, 0x31, 0x5F, 0x30, 0x5D, 0] = .ok r ∧ r.status = .kExpectedClosingSquareBracketsOrComma) ∧
    (∃ v, ParserB.parseRoot (ParserB.parseNumberB A neg) 30 [0x30, 0x65, 0x31, 0] = .ok ⟨.kOk, some v, 0, 0⟩) ∧
    (∃ r, parseRoot N 30 [0x30, 0x65, 0x31, 0] = .ok r ∧ r.status = .kNumbersCannotHaveLeadingZeros) ∧
    (∃ r, ParserB.parseRoot (ParserB.parseNumberB A neg) 30 [0x5B, 0x31, 0x2B, 0x32, 0x5D, 0] = .ok r ∧
      r.status = .kExpectedClosingSquareBracketsOrComma) ∧
    (∃ v, parseRoot N 30 [0x5B, 0x31, 0x2B, 0x32, 0x5D, 0] = .ok ⟨.kOk, some v, 0, 0⟩) := by
  refine ⟨⟨_, rfl⟩, ⟨_, rfl, rfl⟩, ⟨_, rfl⟩, ⟨_, rfl, rfl⟩, ⟨_, rfl, rfl⟩, ⟨_, rfl⟩⟩

/-! ## Examples -/

/-- `{"a":- 1_2}` has one member, whose value is minus the value of the literal `1_2`. -/
example (A : Arith D) (neg : D → D) : ∃ v, ParserB.parseRoot (ParserB.parseNumberB A neg) 60
      [0x7B, 0x22, 0x61, 0x22, 0x3A, 0x2D, 0x20, 0x31, 0x5F, 0x32, 0x7D, 0] = .ok ⟨.kOk, some v, 0, 0⟩ ∧
    walk v [.member [0x61]] = some (.num (neg (A.add (A.mul (A.add (A.mul (A.ofNat 0) (A.ofNat 10)) (A.ofNat 1)) (A.ofNat 10))
      (A.ofNat 2)))) :=
  ⟨_, rfl, rfl⟩
/-- `[1_]` is refused at the first position of the element, `[-01]` behind the sign. -/
example (A : Arith D) (neg : D → D) : ParserB.parseRoot (ParserB.parseNumberB A neg) 60 [0x5B, 0x31, 0x5F, 0x5D, 0] =
    .ok ⟨.kExpectedJsonValue, none, 1, 2⟩ := rfl
example (A : Arith D) (neg : D → D) : ParserB.parseRoot (ParserB.parseNumberB A neg) 60 [0x5B, 0x2D, 0x30, 0x31, 0x5D, 0] =
    .ok ⟨.kNumbersCannotHaveLeadingZeros, none, 1, 3⟩ := rfl

end Verif.Props
