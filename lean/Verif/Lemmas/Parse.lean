import Verif.Lemmas.NumTokens
import Verif.Lemmas.MapInv

/-!
# The recursive parser against the dialect grammar

`any_total`: on every terminated text the parser returns (no undefined behaviour, fuel linear in
the length suffices), and success means a token of the dialect was read.
`any_complete`: every token of the dialect is read.
-/

namespace Verif.Parser

open Verif Verif.Text Verif.Number Verif.Map Verif.Spec

/-- A dialect value token. -/
abbrev DVal := Val DialNum DialStr
/-- A dialect element list. -/
abbrev DElems := Elems DialNum DialStr
/-- A dialect member list. -/
abbrev DMembers := Members DialNum DialStr

variable {D : Type}

/-- Insertion of a member, keeping the map unchanged in the (impossible) case of undefined behaviour. -/
def addMember (t : Tree Bytes (Value D)) (k : Bytes) (v : Value D) : Tree Bytes (Value D) :=
  match insertMapElement nameLt t k v with
  | some (_, t') => t'
  | none => t

mutual
/-- The tree of value objects built for an abstract value. -/
def interp (N : NumOps D) : J → Value D
  | .null => .null
  | .bool b => .bool b
  | .num d => .num (numVal N d)
  | .str s => .str s
  | .arr l => .arr (interpL N l)
  | .obj m => .obj (interpM N m .nil) m.names
/-- Elements. -/
def interpL (N : NumOps D) : JL → List (Value D)
  | .nil => []
  | .cons j l => interp N j :: interpL N l
/-- Members, inserted in the order of the text. -/
def interpM (N : NumOps D) : JM → Tree Bytes (Value D) → Tree Bytes (Value D)
  | .nil, t => t
  | .cons k j m, t => interpM N m (addMember t k (interp N j))
end

/-- The tree is a search tree for the order of names. -/
def TreeOk (t : Tree Bytes (Value D)) : Prop := ∃ A, MapInv nameLt t A

theorem treeOk_nil : TreeOk (.nil : Tree Bytes (Value D)) := ⟨_, mapInv_empty _⟩

theorem insertAccounted_ok {t : Tree Bytes (Value D)} (h : TreeOk t) (order : List Bytes) (k : Bytes)
    (v : Value D) :
    insertAccounted t order k v = .ok (addMember t k v, order ++ [k]) ∧ TreeOk (addMember t k v) := by
  obtain ⟨A, hA⟩ := h
  obtain ⟨t', e, h'⟩ := mapInv_insert nameLt_strict hA k v
  unfold insertAccounted addMember
  rw [e]
  exact ⟨rfl, _, h'⟩

/-! ## Branches of `ParseAnyValue` -/

theorem parseAny_succ (N : NumOps D) (n : Nat) (start : Bytes) : parseAny N (n + 1) start =
    (parseString start >>= fun r =>
      match r with
      | .ok rest s => .ok (.ok rest (.str s))
      | .err status pos =>
        if status ≠ .kExpectedBeginingDoubleQuotes then .ok (.err status pos)
        else
          parseNumber N start >>= fun r =>
          match r with
          | .ok rest d => .ok (.ok rest (.num d))
          | .err status pos =>
            if status = .kNumbersCannotHaveLeadingZeros then .ok (.err status pos)
            else
              parseBool start >>= fun r =>
              match r with
              | .ok rest b => .ok (.ok rest (.bool b))
              | .err _ _ =>
                parseNull start >>= fun r =>
                match r with
                | .ok rest _ => .ok (.ok rest .null)
                | .err _ _ =>
                  parseArray N n start >>= fun r =>
                  match r with
                  | .ok rest v => .ok (.ok rest v)
                  | .err status pos =>
                    if status ≠ .kExpectedOpeningSquareBrackets then .ok (.err status pos)
                    else
                      parseObject N n pos >>= fun r =>
                      match r with
                      | .ok rest v => .ok (.ok rest v)
                      | .err status pos =>
                        if status ≠ .kExpectedOpeningCurlyBraces ∨
                            status = .kNumbersCannotHaveLeadingZeros then .ok (.err status pos)
                        else .ok (.err .kExpectedJsonValue pos)) := rfl

theorem parseString_other {c : Byte} {s : Bytes} (h : c ≠ 34) :
    parseString (c :: s) = .ok (.err .kExpectedBeginingDoubleQuotes (c :: s)) := by
  unfold parseString
  simp only [rd_cons_zero, Out.ok_bind]
  rw [if_pos h]

/-- The word at the beginning of a text. -/
theorem matchWord_total (ws t : Bytes) (ht : Term t) (hw : (0 : Byte) ∉ ws) :
    (matchWord ws t = .ok true ∧ ∃ r, t = ws ++ r ∧ Term r) ∨ matchWord ws t = .ok false := by
  induction ws generalizing t with
  | nil => exact .inl ⟨rfl, t, rfl, ht⟩
  | cons w ws ih =>
    obtain ⟨c, s, rfl⟩ := ht.ne_nil
    rw [matchWord]
    by_cases h : c = w
    · subst h
      rw [if_pos rfl]
      have hc : c ≠ 0 := fun e => hw (by simp [e])
      rcases ih s (ht.tail hc) (fun h => hw (by simp [h])) with ⟨h1, r, rfl, hr⟩ | h1
      · exact .inl ⟨h1, r, rfl, hr⟩
      · exact .inr h1
    · rw [if_neg h]; exact .inr rfl

theorem matchWord_append (ws r : Bytes) : matchWord ws (ws ++ r) = .ok true := by
  induction ws with
  | nil => rfl
  | cons w ws ih => rw [List.cons_append, matchWord, if_pos rfl, ih]

theorem matchWord_head {w c : Byte} {ws s : Bytes} (h : c ≠ w) :
    matchWord (w :: ws) (c :: s) = .ok false := by
  rw [matchWord, if_neg h]

theorem parseBool_total (t : Bytes) (ht : Term t) :
    (∃ tok b rest, DVal tok (.bool b) ∧ t = tok ++ rest ∧ Term rest ∧
      parseBool t = .ok (.ok rest b)) ∨
    parseBool t = .ok (.err .kExpectedTrueOrFalse t) := by
  unfold parseBool
  rcases matchWord_total [116, 114, 117, 101] t ht (by decide) with ⟨h, r, rfl, hr⟩ | h
  · left
    exact ⟨_, true, r, .true, rfl, hr, by rw [h]; rfl⟩
  · rw [h]
    simp only [Out.ok_bind]
    rcases matchWord_total [102, 97, 108, 115, 101] t ht (by decide) with ⟨h, r, rfl, hr⟩ | h
    · left
      exact ⟨_, false, r, .false, rfl, hr, by rw [h]; rfl⟩
    · right
      rw [h]; rfl

theorem parseBool_other {c : Byte} {s : Bytes} (h1 : c ≠ 116) (h2 : c ≠ 102) :
    parseBool (c :: s) = .ok (.err .kExpectedTrueOrFalse (c :: s)) := by
  unfold parseBool
  rw [matchWord_head h1, matchWord_head h2]; rfl

theorem parseNull_total (t : Bytes) (ht : Term t) :
    (∃ tok rest, DVal tok .null ∧ t = tok ++ rest ∧ Term rest ∧ parseNull t = .ok (.ok rest ())) ∨
    parseNull t = .ok (.err .kExpectedNull t) := by
  unfold parseNull
  rcases matchWord_total [110, 117, 108, 108] t ht (by decide) with ⟨h, r, rfl, hr⟩ | h
  · left
    exact ⟨_, r, .null, rfl, hr, by rw [h]; rfl⟩
  · right
    rw [h]; rfl

theorem parseNull_other {c : Byte} {s : Bytes} (h1 : c ≠ 110) :
    parseNull (c :: s) = .ok (.err .kExpectedNull (c :: s)) := by
  unfold parseNull
  rw [matchWord_head h1]; rfl

/-! ## Tokens of values -/

/-- Tokens contain no NUL. -/
theorem val_nul_free {tok : Bytes} {j : J} (h : DVal tok j) : (0 : Byte) ∉ tok := by
  refine Val.rec (motive_1 := fun t _ _ => (0 : Byte) ∉ t) (motive_2 := fun t _ _ => (0 : Byte) ∉ t)
    (motive_3 := fun t _ _ => (0 : Byte) ∉ t) ?_ ?_ ?_ ?_ ?_ ?_ ?_ ?_ ?_ ?_ ?_ ?_ ?_ h
  · decide
  · decide
  · decide
  · intro t d h; exact dialNum_nul_free h
  · intro t s h; exact h.nul_free
  · intro w h; have := h.nul_free; simp [this]
  · intro t l _ h; simp [h]
  · intro w h; have := h.nul_free; simp [this]
  · intro t m _ h; simp [h]
  · intro w1 t w2 j h1 _ h2 h3; have := h1.nul_free; have := h2.nul_free; simp [*]
  · intro w1 t w2 j ts l h1 _ h2 _ h3 h4; have := h1.nul_free; have := h2.nul_free; simp [*]
  · intro w1 n w2 w3 t w4 s j h1 hn h2 h3 _ h4 h5
    have := h1.nul_free; have := h2.nul_free; have := h3.nul_free; have := h4.nul_free
    have := hn.nul_free
    simp [*]
  · intro w1 n w2 w3 t w4 s j ts m h1 hn h2 h3 _ h4 _ h5 h6
    have := h1.nul_free; have := h2.nul_free; have := h3.nul_free; have := h4.nul_free
    have := hn.nul_free
    simp [*]

/-- First byte of a token. -/
theorem val_head {tok : Bytes} {j : J} (h : DVal tok j) :
    ∃ c s, tok = c :: s ∧ isWs c = false ∧ c ≠ 93 ∧ c ≠ 125 := by
  cases h with
  | null => exact ⟨_, _, rfl, by decide, by decide, by decide⟩
  | true => exact ⟨_, _, rfl, by decide, by decide, by decide⟩
  | false => exact ⟨_, _, rfl, by decide, by decide, by decide⟩
  | num h =>
    obtain ⟨c, s, rfl, hc⟩ := dialNum_head h
    refine ⟨c, s, rfl, ?_, ?_, ?_⟩
    · cases hw : isWs c with
      | false => rfl
      | true => exact absurd hc (ws_not_num hw)
    · rintro rfl; revert hc; simp [NumChar, Digit]
    · rintro rfl; revert hc; simp [NumChar, Digit]
  | str h =>
    obtain ⟨r, rfl⟩ := h.head
    exact ⟨_, _, rfl, by decide, by decide, by decide⟩
  | arrEmpty => exact ⟨_, _, rfl, by decide, by decide, by decide⟩
  | arr => exact ⟨_, _, rfl, by decide, by decide, by decide⟩
  | objEmpty => exact ⟨_, _, rfl, by decide, by decide, by decide⟩
  | obj => exact ⟨_, _, rfl, by decide, by decide, by decide⟩

theorem val_nul_free_ne {tok : Bytes} {j : J} (h : DVal tok j) : (0 : Byte) ∉ tok ∧ tok ≠ [] := by
  obtain ⟨c, s, e, -⟩ := val_head h
  exact ⟨val_nul_free h, by rw [e]; simp⟩

/-! ## Soundness, safety, termination -/

/-- Statuses `ParseAnyValue` can return on failure. -/
abbrev GoodErr (st : Status) : Prop :=
  st ∈ [Status.kExpectedJsonValue, .kExpectedClosingSquareBracketsOrComma, .kExpectedClosingCurlyBracesOrComma,
    .kExpectedColon, .kExpectedBeginingDoubleQuotes, .kPrematureNullTerminator, .kStringIllegalChar,
    .kStringIllegalEscape, .kNumbersCannotHaveLeadingZeros]

theorem GoodErr.ne {st : Status} (h : GoodErr st) :
    st ≠ .kOk ∧ st ≠ .kExpectedOpeningSquareBrackets ∧ st ≠ .kExpectedOpeningCurlyBraces := by
  refine ⟨?_, ?_, ?_⟩ <;> (rintro rfl; revert h; decide)

/-- The part of `t` before the position `p` can be completed to a value. -/
def ViaV (t p : Bytes) : Prop := ∃ c ext j, t = c ++ p ∧ DVal (c ++ ext) j
/-- The part of `t` before `p` can be completed to a list of elements. -/
def ViaE (t p : Bytes) : Prop := ∃ c ext l, t = c ++ p ∧ DElems (c ++ ext) l
/-- The part of `t` before `p` can be completed to a list of members. -/
def ViaM (t p : Bytes) : Prop := ∃ c ext l, t = c ++ p ∧ DMembers (c ++ ext) l

theorem dialNum_one : DialNum [0x31] ⟨false, 1, 0⟩ := by
  refine .plain (by simp [NumChar, Digit]) ?_ (by simp) (by simp) (by simp)
  rw [← strtodParts_iff]; rfl

theorem dialNum_plus {w : Bytes} (hw : Ws w) : DialNum (0x2B :: (w ++ [0x31])) ⟨false, 1, 0⟩ := by
  refine .plus hw (by simp [NumChar, Digit]) ?_ (by simp)
  rw [← strtodParts_iff]; rfl

theorem dialNum_minus {w : Bytes} (hw : Ws w) : DialNum (0x2D :: (w ++ [0x31])) ⟨!false, 1, 0⟩ := by
  refine .minus hw (by simp [NumChar, Digit]) ?_ (by simp)
  rw [← strtodParts_iff]; rfl

theorem parseNumber_err_pos (N : NumOps D) {t : Bytes} (ht : Term t) {st : Status} {p : Bytes}
    (h : parseNumber N t = .ok (.err st p)) : ViaV t p := by
  have key : ∀ neg t1, parseSign t = .ok (neg, t1) → p = t1 := by
    intro neg t1 hs
    unfold parseNumber at h
    rw [hs] at h
    simp only [Out.ok_bind] at h
    rw [Out.bind_eq_ok] at h
    obtain ⟨r, -, h⟩ := h
    cases r with
    | inl st => simp at h; exact h.2.symm
    | inr x =>
      simp only at h
      rw [Out.bind_eq_ok] at h
      obtain ⟨r, -, h⟩ := h
      simp at h
  rcases parseSign_total t ht with ⟨w, c, s, hw, hc, rfl, hp⟩ | ⟨w, c, s, hw, hc, rfl, hp⟩ | ⟨-, -, hp⟩
  · have := key _ _ hp; subst this
    exact ⟨0x2D :: w, [0x31], _, by simp, .num (by simpa using dialNum_minus hw)⟩
  · have := key _ _ hp; subst this
    exact ⟨0x2B :: w, [0x31], _, by simp, .num (by simpa using dialNum_plus hw)⟩
  · have := key _ _ hp; subst this
    exact ⟨[], [0x31], _, by simp, .num dialNum_one⟩

theorem dialStr_empty : DialStr [0x22, 0x22] [] := ⟨[], by simp, rfl, rfl⟩

/-- Outcome of `ParseAnyValue`. -/
def AnyTotal (N : NumOps D) (n : Nat) (t : Bytes) : Prop :=
  (∃ tok j w rest, DVal tok j ∧ Ws w ∧ t = tok ++ (w ++ rest) ∧ Term rest ∧
    parseAny N n t = .ok (.ok rest (interp N j))) ∨
  (∃ st p, parseAny N n t = .ok (.err st p) ∧ GoodErr st ∧ Adv t p ∧ ViaV t p)

/-- Outcome of the loop over elements (after the opening bracket or a comma `c`). -/
def ArrTotal (N : NumOps D) (n : Nat) (c : Byte) (t : Bytes) (acc : List (Value D)) : Prop :=
  (acc = [] ∧ ∃ w rest, Ws w ∧ t = w ++ 0x5D :: rest ∧ Term rest ∧
    arrayLoop N n (c :: t) acc = .ok (.ok rest (.arr []))) ∨
  (∃ ts l rest, DElems ts l ∧ t = ts ++ 0x5D :: rest ∧ Term rest ∧
    arrayLoop N n (c :: t) acc = .ok (.ok rest (.arr (acc ++ interpL N l)))) ∨
  (∃ st p, arrayLoop N n (c :: t) acc = .ok (.err st p) ∧ GoodErr st ∧ Adv t p ∧ ViaE t p)

/-- Outcome of the loop over members. -/
def ObjTotal (N : NumOps D) (n : Nat) (c : Byte) (t : Bytes) (m : Tree Bytes (Value D))
    (order : List Bytes) : Prop :=
  (order = [] ∧ ∃ w rest, Ws w ∧ t = w ++ 0x7D :: rest ∧ Term rest ∧
    objectLoop N n (c :: t) m order = .ok (.ok rest (.obj m []))) ∨
  (∃ ts l rest, DMembers ts l ∧ t = ts ++ 0x7D :: rest ∧ Term rest ∧
    objectLoop N n (c :: t) m order = .ok (.ok rest (.obj (interpM N l m) (order ++ l.names)))) ∨
  (∃ st p, objectLoop N n (c :: t) m order = .ok (.err st p) ∧ GoodErr st ∧ Adv t p ∧ ViaM t p)

theorem arrayLoop_succ (N : NumOps D) (n : Nat) (t : Bytes) (acc : List (Value D)) :
    arrayLoop N (n + 1) t acc =
      (skipWs (t.drop 1) >>= fun t =>
      rd t 0 >>= fun c =>
      if c = 93 then
        if ¬ acc.isEmpty then .ok (.err .kExpectedJsonValue t) else .ok (.ok (t.drop 1) (.arr acc))
      else
        parseAny N n t >>= fun r =>
        match r with
        | .err status pos => .ok (.err status pos)
        | .ok t v =>
            skipWs t >>= fun t =>
            rd t 0 >>= fun c =>
            if c ≠ 44 then
              if c ≠ 93 then .ok (.err .kExpectedClosingSquareBracketsOrComma t)
              else .ok (.ok (t.drop 1) (.arr (acc ++ [v])))
            else arrayLoop N n t (acc ++ [v])) := rfl

theorem objectLoop_succ (N : NumOps D) (n : Nat) (t : Bytes) (m : Tree Bytes (Value D))
    (order : List Bytes) :
    objectLoop N (n + 1) t m order =
      (skipWs (t.drop 1) >>= fun t =>
      rd t 0 >>= fun c =>
      if c = 125 then
        if ¬ order.isEmpty then .ok (.err .kExpectedJsonValue t)
        else .ok (.ok (t.drop 1) (.obj m order))
      else
        parseString t >>= fun r =>
        match r with
        | .err status pos => .ok (.err status pos)
        | .ok t name =>
            skipWs t >>= fun t =>
            rd t 0 >>= fun c =>
            if c ≠ 58 then .ok (.err .kExpectedColon t)
            else
              skipWs (t.drop 1) >>= fun t =>
              parseAny N n t >>= fun r =>
              match r with
              | .err status pos => .ok (.err status pos)
              | .ok t v =>
                  insertAccounted m order name v >>= fun (m, order) =>
                  skipWs t >>= fun t =>
                  rd t 0 >>= fun c =>
                  if c ≠ 44 then
                    if c ≠ 125 then .ok (.err .kExpectedClosingCurlyBracesOrComma t)
                    else .ok (.ok (t.drop 1) (.obj m order))
                  else objectLoop N n t m order) := rfl

theorem parseArray_succ (N : NumOps D) (n : Nat) (t : Bytes) : parseArray N (n + 1) t =
    (rd t 0 >>= fun c =>
      if c ≠ 91 then .ok (.err .kExpectedOpeningSquareBrackets t) else arrayLoop N n t []) := rfl

theorem parseObject_succ (N : NumOps D) (n : Nat) (t : Bytes) : parseObject N (n + 1) t =
    (rd t 0 >>= fun c =>
      if c ≠ 123 then .ok (.err .kExpectedOpeningCurlyBraces t) else objectLoop N n t .nil []) := rfl

theorem arr_total (N : NumOps D) (n : Nat)
    (ihA : ∀ t, Term t → 3 * t.length + 1 ≤ n → AnyTotal N n t)
    (ihL : ∀ c t acc, Term t → 3 * t.length + 2 ≤ n → ArrTotal N n c t acc)
    (c : Byte) (t : Bytes) (acc : List (Value D)) (ht : Term t) (hn : 3 * t.length + 2 ≤ n + 1) :
    ArrTotal N (n + 1) c t acc := by
  obtain ⟨w1, a, s, hw1, e1, ha, hs1⟩ := skipWs_total ht
  have hadv1 : Adv t (a :: s) := ⟨w1, e1, hw1.nul_free⟩
  have hts := hadv1.term ht
  have hlen1 := hadv1.length_le
  unfold ArrTotal
  rw [arrayLoop_succ]
  simp only [List.drop_one, List.tail_cons, hs1, Out.ok_bind, rd_cons_zero]
  by_cases h93 : a = 93
  · subst h93
    rw [if_pos rfl]
    cases acc with
    | nil =>
      left
      exact ⟨rfl, w1, s, hw1, e1, hts.tail (by decide), by simp⟩
    | cons x acc =>
      right; right
      exact ⟨.kExpectedJsonValue, 93 :: s, by simp, by decide, hadv1,
        w1, [0x6E, 0x75, 0x6C, 0x6C], _, e1, by simpa using Elems.one hw1 .null Ws.nil⟩
  · rw [if_neg h93]
    rcases ihA (a :: s) hts (by omega) with
      ⟨tok, j, w2, rest, hv, hw2, e2, hr, hp⟩ | ⟨st, p, hp, hst, hadv, cv, ext, jv, ec, hvia⟩
    · rw [hp]
      simp only [Out.ok_bind]
      have hadv2 : Adv (a :: s) rest ∧ rest.length < (a :: s).length := by
        have hz := val_nul_free_ne hv
        refine ⟨⟨tok ++ w2, by rw [e2]; simp, by simp [hz.1, hw2.nul_free]⟩, ?_⟩
        have := congrArg List.length e2
        have : 0 < tok.length := List.length_pos_iff.2 hz.2
        simp only [List.length_append] at *
        omega
      obtain ⟨w3, b, s3, hw3, e3, hb, hs3⟩ := skipWs_total hr
      have hadv3 : Adv rest (b :: s3) := ⟨w3, e3, hw3.nul_free⟩
      have hlen3 := hadv3.length_le
      have hadv := (hadv1.trans hadv2.1).trans hadv3
      have ht3 := hadv.term ht
      rw [hs3]
      simp only [Out.ok_bind, rd_cons_zero]
      have etext : t = w1 ++ (tok ++ ((w2 ++ w3) ++ b :: s3)) := by
        rw [e1, e2, e3]; simp
      by_cases h44 : b = 44
      · subst h44
        rw [if_neg (by simp)]
        have ht4 : Term s3 := ht3.tail (by decide)
        rcases ihL 44 s3 (acc ++ [interp N j]) ht4 (by
            simp only [List.length_cons] at *; omega) with
          ⟨he, -⟩ | ⟨ts, l, rest', hl, e4, hr', hloop⟩ |
          ⟨st, p, hloop, hst, hadv', cv, ext, jv, ec, hvia⟩
        · simp at he
        · right; left
          refine ⟨w1 ++ (tok ++ ((w2 ++ w3) ++ 0x2C :: ts)), .cons j l, rest',
            .cons hw1 hv (hw2.append hw3) hl, ?_, hr', ?_⟩
          · rw [etext, e4]; simp
          · rw [hloop]; simp [interpL]
        · right; right
          exact ⟨st, p, hloop, hst, hadv.trans ((Adv.cons s3 (by decide)).trans hadv'),
            w1 ++ (tok ++ ((w2 ++ w3) ++ 0x2C :: cv)), ext, _, by rw [etext, ec]; simp,
            by simpa using Elems.cons hw1 hv (hw2.append hw3) hvia⟩
      · rw [if_pos h44]
        by_cases h93' : b = 93
        · subst h93'
          rw [if_neg (by simp)]
          right; left
          refine ⟨w1 ++ (tok ++ (w2 ++ w3)), .cons j .nil, s3, .one hw1 hv (hw2.append hw3), ?_,
            ht3.tail (by decide), ?_⟩
          · rw [etext]; simp
          · simp [interpL]
        · rw [if_pos h93']
          right; right
          exact ⟨_, _, rfl, by decide, hadv,
            w1 ++ (tok ++ (w2 ++ w3)), [], _, by rw [etext]; simp,
            by simpa using Elems.one hw1 hv (hw2.append hw3)⟩
    · rw [hp]
      right; right
      exact ⟨st, p, rfl, hst, hadv1.trans hadv, w1 ++ cv, ext, _, by rw [e1, ec]; simp,
        by simpa using Elems.one hw1 hvia Ws.nil⟩

theorem obj_total (N : NumOps D) (n : Nat)
    (ihA : ∀ t, Term t → 3 * t.length + 1 ≤ n → AnyTotal N n t)
    (ihL : ∀ c t m order, TreeOk m → Term t → 3 * t.length + 2 ≤ n → ObjTotal N n c t m order)
    (c : Byte) (t : Bytes) (m : Tree Bytes (Value D)) (order : List Bytes) (hm : TreeOk m)
    (ht : Term t) (hn : 3 * t.length + 2 ≤ n + 1) :
    ObjTotal N (n + 1) c t m order := by
  obtain ⟨w1, a, s, hw1, e1, ha, hs1⟩ := skipWs_total ht
  have hadv1 : Adv t (a :: s) := ⟨w1, e1, hw1.nul_free⟩
  have hts := hadv1.term ht
  have hlen1 := hadv1.length_le
  unfold ObjTotal
  rw [objectLoop_succ]
  simp only [List.drop_one, List.tail_cons, hs1, Out.ok_bind, rd_cons_zero]
  by_cases h125 : a = 125
  · subst h125
    rw [if_pos rfl]
    cases order with
    | nil =>
      left
      exact ⟨rfl, w1, s, hw1, e1, hts.tail (by decide), by simp⟩
    | cons x order =>
      right; right
      exact ⟨.kExpectedJsonValue, 125 :: s, by simp, by decide, hadv1,
        w1, [0x22, 0x22, 0x3A, 0x6E, 0x75, 0x6C, 0x6C], _, e1,
        by simpa using Members.one hw1 dialStr_empty Ws.nil Ws.nil .null Ws.nil⟩
  · rw [if_neg h125]
    rcases parseString_total (a :: s) hts with
      ⟨tn, name, rest, hname, e2, hr, hp⟩ | ⟨st, p, hp, hadv, hst⟩
    · rw [hp]
      simp only [Out.ok_bind]
      have hadv2 : Adv (a :: s) rest := ⟨tn, e2, hname.nul_free⟩
      have hlen2 := hadv2.length_le
      obtain ⟨w2, b, s2, hw2, e3, hb, hs2⟩ := skipWs_total hr
      have hadv3 : Adv rest (b :: s2) := ⟨w2, e3, hw2.nul_free⟩
      have hlen3 := hadv3.length_le
      rw [hs2]
      simp only [Out.ok_bind, rd_cons_zero]
      by_cases h58 : b = 58
      · subst h58
        rw [if_neg (by simp)]
        have hts2 : Term s2 := (hadv3.term hr).tail (by decide)
        obtain ⟨w3, d, s3, hw3, e4, hd, hs3⟩ := skipWs_total hts2
        have hadv4 : Adv s2 (d :: s3) := ⟨w3, e4, hw3.nul_free⟩
        have hlen4 := hadv4.length_le
        have ht4 := hadv4.term hts2
        have hadvV : Adv t (d :: s3) :=
          ((hadv1.trans hadv2).trans hadv3).trans ((Adv.cons s2 (by decide)).trans hadv4)
        simp only [List.drop_one, List.tail_cons, hs3, Out.ok_bind]
        rcases ihA (d :: s3) ht4 (by simp only [List.length_cons] at *; omega) with
          ⟨tok, j, w4, rest', hv, hw4, e5, hr', hp'⟩ | ⟨st, p, hp', hst, hadv, cv, ext, jv, ec, hvia⟩
        · rw [hp']
          obtain ⟨hins, hm'⟩ := insertAccounted_ok hm order name (interp N j)
          simp only [Out.ok_bind, hins]
          have hz := val_nul_free_ne hv
          have hadv5 : Adv (d :: s3) rest' :=
            ⟨tok ++ w4, by rw [e5]; simp, by simp [hz.1, hw4.nul_free]⟩
          have hlen5 := hadv5.length_le
          obtain ⟨w5, b, s5, hw5, e6, hb, hs5⟩ := skipWs_total hr'
          have hadv6 : Adv rest' (b :: s5) := ⟨w5, e6, hw5.nul_free⟩
          have hlen6 := hadv6.length_le
          have hadv := (hadvV.trans hadv5).trans hadv6
          have ht6 := hadv.term ht
          rw [hs5]
          simp only [Out.ok_bind, rd_cons_zero]
          have etext : t = w1 ++ (tn ++ (w2 ++ 0x3A :: (w3 ++ (tok ++ ((w4 ++ w5) ++ b :: s5))))) := by
            rw [e1, e2, e3, e4, e5, e6]; simp
          by_cases h44 : b = 44
          · subst h44
            rw [if_neg (by simp)]
            have ht7 : Term s5 := ht6.tail (by decide)
            rcases ihL 44 s5 (addMember m name (interp N j)) (order ++ [name]) hm' ht7 (by
                simp only [List.length_cons] at *; omega) with
              ⟨he, -⟩ | ⟨ts, l, rest', hl, e4, hr', hloop⟩ |
          ⟨st, p, hloop, hst, hadv', cv, ext, jv, ec, hvia⟩
            · simp at he
            · right; left
              refine ⟨w1 ++ (tn ++ (w2 ++ 0x3A :: (w3 ++ (tok ++ ((w4 ++ w5) ++ 0x2C :: ts))))),
                .cons name j l, rest',
                .cons hw1 hname hw2 hw3 hv (hw4.append hw5) hl, ?_, hr', ?_⟩
              · rw [etext, e4]; simp
              · rw [hloop]; simp [interpM, JM.names]
            · right; right
              exact ⟨st, p, hloop, hst, hadv.trans ((Adv.cons s5 (by decide)).trans hadv'),
                w1 ++ (tn ++ (w2 ++ 0x3A :: (w3 ++ (tok ++ ((w4 ++ w5) ++ 0x2C :: cv))))), ext, _,
                by rw [etext, ec]; simp,
                by simpa using Members.cons hw1 hname hw2 hw3 hv (hw4.append hw5) hvia⟩
          · rw [if_pos h44]
            by_cases h125' : b = 125
            · subst h125'
              rw [if_neg (by simp)]
              right; left
              refine ⟨w1 ++ (tn ++ (w2 ++ 0x3A :: (w3 ++ (tok ++ (w4 ++ w5))))), .cons name j .nil,
                s5, .one hw1 hname hw2 hw3 hv (hw4.append hw5), ?_, ht6.tail (by decide), ?_⟩
              · rw [etext]; simp
              · simp [interpM, JM.names]
            · rw [if_pos h125']
              right; right
              exact ⟨_, _, rfl, by decide, hadv,
                w1 ++ (tn ++ (w2 ++ 0x3A :: (w3 ++ (tok ++ (w4 ++ w5))))), [], _, by rw [etext]; simp,
                by simpa using Members.one hw1 hname hw2 hw3 hv (hw4.append hw5)⟩
        · rw [hp']
          right; right
          exact ⟨st, p, rfl, hst, hadvV.trans hadv,
            w1 ++ (tn ++ (w2 ++ 0x3A :: (w3 ++ cv))), ext, _, by rw [e1, e2, e3, e4, ec]; simp,
            by simpa using Members.one hw1 hname hw2 hw3 hvia Ws.nil⟩
      · rw [if_pos h58]
        right; right
        exact ⟨_, _, rfl, by decide, (hadv1.trans hadv2).trans hadv3,
          w1 ++ (tn ++ w2), [0x3A, 0x6E, 0x75, 0x6C, 0x6C], _, by rw [e1, e2, e3]; simp,
          by simpa using Members.one hw1 hname hw2 Ws.nil .null Ws.nil⟩
    · rw [hp]
      right; right
      refine ⟨st, p, rfl, ?_, hadv1.trans hadv, ?_⟩
      rotate_left
      · rcases hst with ⟨-, rfl, -⟩ | ⟨-, e2⟩
        · exact ⟨w1, [0x22, 0x22, 0x3A, 0x6E, 0x75, 0x6C, 0x6C], _, e1,
            by simpa using Members.one hw1 dialStr_empty Ws.nil Ws.nil .null Ws.nil⟩
        · exact ⟨w1 ++ [0x22], [0x22, 0x3A, 0x6E, 0x75, 0x6C, 0x6C], _, by rw [e1, e2]; simp,
            by simpa using Members.one hw1 dialStr_empty Ws.nil Ws.nil .null Ws.nil⟩
      rcases hst with ⟨rfl, -⟩ | ⟨rfl | rfl | rfl, -⟩ <;> exact by decide

theorem all_total (N : NumOps D) (hN : NegLaw N) (n : Nat) :
    (∀ t, Term t → 3 * t.length + 1 ≤ n → AnyTotal N n t) ∧
    (∀ c t acc, Term t → 3 * t.length + 2 ≤ n → ArrTotal N n c t acc) ∧
    (∀ c t m order, TreeOk m → Term t → 3 * t.length + 2 ≤ n → ObjTotal N n c t m order) := by
  induction n using Nat.strongRecOn with
  | _ n ih =>
    refine ⟨?_, ?_, ?_⟩
    · intro t ht hn
      obtain ⟨k, rfl⟩ : ∃ k, n = k + 1 := ⟨n - 1, by omega⟩
      unfold AnyTotal
      rw [parseAny_succ]
      rcases parseString_total t ht with
        ⟨tok, s, rest, hs, e, hr, hp⟩ | ⟨st, p, hp, hadv, hst⟩
      · left
        exact ⟨tok, .str s, [], rest, .str hs, Ws.nil, by simpa using e, hr, by rw [hp]; rfl⟩
      rcases hst with ⟨rfl, rfl, h34⟩ | ⟨hst, e34⟩
      rotate_left
      · right
        refine ⟨st, p, ?_, ?_, hadv, [0x22], [0x22], _, e34, .str dialStr_empty⟩
        · rw [hp]
          simp only [Out.ok_bind]
          rw [if_pos (by rcases hst with rfl | rfl | rfl <;> decide)]
        · rcases hst with rfl | rfl | rfl <;> exact by decide
      rw [hp]
      simp only [Out.ok_bind, ne_eq, not_true_eq_false, if_false]
      rcases parseNumber_total N hN p ht with
        ⟨tok, w, d, rest, hd, hw, e, hr, hp⟩ | ⟨st, p', hp, hadv', hst⟩
      · left
        exact ⟨tok, .num d, w, rest, .num hd, hw, e, hr, by rw [hp]; rfl⟩
      by_cases hz : st = .kNumbersCannotHaveLeadingZeros
      · subst hz
        have hvia := parseNumber_err_pos N ht hp
        rw [hp]
        right
        exact ⟨_, _, rfl, by decide, hadv', hvia⟩
      rw [hp]
      simp only [Out.ok_bind]
      rw [if_neg hz]
      rcases parseBool_total p ht with ⟨tok, b, rest, hv, e, hr, hp⟩ | hp
      · left
        exact ⟨tok, .bool b, [], rest, hv, Ws.nil, by simpa using e, hr, by rw [hp]; rfl⟩
      rw [hp]
      simp only [Out.ok_bind]
      rcases parseNull_total p ht with ⟨tok, rest, hv, e, hr, hp⟩ | hp
      · left
        exact ⟨tok, .null, [], rest, hv, Ws.nil, by simpa using e, hr, by rw [hp]; rfl⟩
      rw [hp]
      simp only [Out.ok_bind]
      obtain ⟨c, s, rfl⟩ := ht.ne_nil
      obtain ⟨k, rfl⟩ : ∃ i, k = i + 1 := ⟨k - 1, by simp at hn; omega⟩
      rw [parseArray_succ]
      simp only [rd_cons_zero, Out.ok_bind]
      by_cases h91 : c = 91
      · subst h91
        rw [if_neg (by simp)]
        have hs := ht.tail (by decide)
        rcases (ih k (by omega)).2.1 91 s [] hs (by simp at hn; omega) with
          ⟨-, w, rest, hw, e, hr, hp⟩ | ⟨ts, l, rest, hl, e, hr, hp⟩ |
          ⟨st, p, hp, hst, hadv, cv, ext, jv, ec, hvia⟩
        · left
          refine ⟨91 :: (w ++ [93]), .arr .nil, [], rest, .arrEmpty hw, Ws.nil, ?_, hr, ?_⟩
          · rw [e]; simp
          · rw [hp]; simp [interp, interpL]
        · left
          refine ⟨91 :: (ts ++ [93]), .arr l, [], rest, .arr hl, Ws.nil, ?_, hr, ?_⟩
          · rw [e]; simp
          · rw [hp]; simp [interp]
        · right
          rw [hp]
          refine ⟨st, p, ?_, hst, (Adv.cons s (by decide)).trans hadv, 91 :: cv, ext ++ [93], _,
            by rw [ec]; simp, by simpa using Val.arr hvia⟩
          simp only [Out.ok_bind]
          rw [if_pos hst.ne.2.1]
      · rw [if_pos h91]
        simp only [Out.ok_bind, not_true_eq_false, if_false, parseObject_succ, rd_cons_zero]
        by_cases h123 : c = 123
        · subst h123
          rw [if_neg (by simp)]
          have hs := ht.tail (by decide)
          rcases (ih k (by omega)).2.2 123 s .nil [] treeOk_nil hs (by simp at hn; omega) with
            ⟨-, w, rest, hw, e, hr, hp⟩ | ⟨ts, l, rest, hl, e, hr, hp⟩ |
          ⟨st, p, hp, hst, hadv, cv, ext, jv, ec, hvia⟩
          · left
            refine ⟨123 :: (w ++ [125]), .obj .nil, [], rest, .objEmpty hw, Ws.nil, ?_, hr, ?_⟩
            · rw [e]; simp
            · rw [hp]; simp [interp, interpM, JM.names]
          · left
            refine ⟨123 :: (ts ++ [125]), .obj l, [], rest, .obj hl, Ws.nil, ?_, hr, ?_⟩
            · rw [e]; simp
            · rw [hp]; simp [interp]
          · right
            rw [hp]
            refine ⟨st, p, ?_, hst, (Adv.cons s (by decide)).trans hadv, 123 :: cv, ext ++ [125], _,
              by rw [ec]; simp, by simpa using Val.obj hvia⟩
            simp only [Out.ok_bind]
            rw [if_pos (.inl hst.ne.2.2)]
        · rw [if_pos h123]
          right
          refine ⟨.kExpectedJsonValue, c :: s, ?_, by decide, Adv.refl _,
            [], [0x6E, 0x75, 0x6C, 0x6C], _, rfl, .null⟩
          simp only [Out.ok_bind]
          rw [if_neg (by decide)]
    · intro c t acc ht hn
      obtain ⟨k, rfl⟩ : ∃ k, n = k + 1 := ⟨n - 1, by omega⟩
      exact arr_total N k (ih k (by omega)).1 (ih k (by omega)).2.1 c t acc ht hn
    · intro c t m order hm ht hn
      obtain ⟨k, rfl⟩ : ∃ k, n = k + 1 := ⟨n - 1, by omega⟩
      exact obj_total N k (ih k (by omega)).1 (ih k (by omega)).2.2 c t m order hm ht hn

theorem any_total (N : NumOps D) (hN : NegLaw N) (n : Nat) (t : Bytes) (ht : Term t)
    (hn : 3 * t.length + 1 ≤ n) : AnyTotal N n t := (all_total N hN n).1 t ht hn

/-! ## Completeness -/

/-- A value token is read, if it is not a number or the next byte does not continue the number. -/
def ValC (N : NumOps D) (tok : Bytes) (j : J) : Prop :=
  ∀ n c s r, 3 * tok.length + 1 ≤ n → (¬ NumChar c ∨ ∀ d, j ≠ .num d) → Term (c :: s) → skipWs (c :: s) = .ok r →
    ∃ rest, parseAny N n (tok ++ c :: s) = .ok (.ok rest (interp N j)) ∧ skipWs rest = .ok r

/-- A list of elements is read. -/
def ElemsC (N : NumOps D) (ts : Bytes) (l : JL) : Prop :=
  ∀ n c acc s, 3 * ts.length + 2 ≤ n → Term s →
    arrayLoop N n (c :: (ts ++ 0x5D :: s)) acc = .ok (.ok s (.arr (acc ++ interpL N l)))

/-- A list of members is read. -/
def MembersC (N : NumOps D) (ts : Bytes) (l : JM) : Prop :=
  ∀ n c m order s, 3 * ts.length + 2 ≤ n → Term s → TreeOk m →
    objectLoop N n (c :: (ts ++ 0x7D :: s)) m order =
      .ok (.ok s (.obj (interpM N l m) (order ++ l.names)))

theorem parseAny_str (N : NumOps D) {n : Nat} (hn : 0 < n) {tok s rest : Bytes} (h : DialStr tok s)
    (hr : Term rest) : parseAny N n (tok ++ rest) = .ok (.ok rest (.str s)) := by
  obtain ⟨k, rfl⟩ : ∃ k, n = k + 1 := ⟨n - 1, by omega⟩
  rw [parseAny_succ, parseString_complete _ _ _ h hr]; rfl

theorem parseAny_num (N : NumOps D) (hN : NegLaw N) {n : Nat} (hn : 0 < n) {tok : Bytes} {d : Dec}
    (h : DialNum tok d) {c : Byte} {s r : Bytes} (hc : ¬ NumChar c) (hs : skipWs (c :: s) = .ok r) :
    parseAny N n (tok ++ c :: s) = .ok (.ok r (.num (numVal N d))) := by
  obtain ⟨k, rfl⟩ : ∃ k, n = k + 1 := ⟨n - 1, by omega⟩
  have hp := parseNumber_complete N hN tok d h c s r hc hs
  obtain ⟨a, u, rfl, ha⟩ := dialNum_head h
  have h34 : a ≠ 34 := by rintro rfl; revert ha; simp [NumChar, Digit]
  rw [parseAny_succ, hp, List.cons_append, parseString_other h34]; rfl

/-- The branches that are left when the text begins with another byte. -/
theorem parseAny_other (N : NumOps D) (n : Nat) {c : Byte} {s : Bytes} (h34 : c ≠ 34)
    (hnum : ¬ NumChar c) :
    parseAny N (n + 1) (c :: s) =
      (parseBool (c :: s) >>= fun r =>
        match r with
        | .ok rest b => .ok (.ok rest (.bool b))
        | .err _ _ =>
          parseNull (c :: s) >>= fun r =>
          match r with
          | .ok rest _ => .ok (.ok rest .null)
          | .err _ _ =>
            parseArray N n (c :: s) >>= fun r =>
            match r with
            | .ok rest v => .ok (.ok rest v)
            | .err status pos =>
              if status ≠ .kExpectedOpeningSquareBrackets then .ok (.err status pos)
              else
                parseObject N n pos >>= fun r =>
                match r with
                | .ok rest v => .ok (.ok rest v)
                | .err status pos =>
                  if status ≠ .kExpectedOpeningCurlyBraces ∨
                      status = .kNumbersCannotHaveLeadingZeros then .ok (.err status pos)
                  else .ok (.err .kExpectedJsonValue pos)) := by
  have hp := parseNumber_other N c s hnum
  rw [parseAny_succ, parseString_other h34]
  simp only [Out.ok_bind, ne_eq, not_true_eq_false, if_false, hp]
  rfl

theorem parseAny_arr (N : NumOps D) (n : Nat) {s r : Bytes} {v : Value D}
    (h : arrayLoop N n (91 :: s) [] = .ok (.ok r v)) :
    parseAny N (n + 2) (91 :: s) = .ok (.ok r v) := by
  rw [parseAny_other N (n + 1) (by decide) (by simp [NumChar, Digit]),
    parseBool_other (by decide) (by decide)]
  simp only [Out.ok_bind]
  rw [parseNull_other (by decide)]
  simp only [Out.ok_bind]
  rw [parseArray_succ]
  simp only [rd_cons_zero, Out.ok_bind]
  rw [if_neg (by simp), h]; rfl

theorem parseAny_obj (N : NumOps D) (n : Nat) {s r : Bytes} {v : Value D}
    (h : objectLoop N n (123 :: s) .nil [] = .ok (.ok r v)) :
    parseAny N (n + 2) (123 :: s) = .ok (.ok r v) := by
  rw [parseAny_other N (n + 1) (by decide) (by simp [NumChar, Digit]),
    parseBool_other (by decide) (by decide)]
  simp only [Out.ok_bind]
  rw [parseNull_other (by decide)]
  simp only [Out.ok_bind]
  rw [parseArray_succ]
  simp only [rd_cons_zero, Out.ok_bind]
  rw [if_pos (by decide)]
  simp only [Out.ok_bind, ne_eq, not_true_eq_false, if_false]
  rw [parseObject_succ]
  simp only [rd_cons_zero, Out.ok_bind]
  rw [if_neg (by simp), h]; rfl

/-- The byte after a token inside an array or object, and the text after the whitespace. -/
theorem after_token {w s : Bytes} {c : Byte} (hw : Ws w) (hc : ¬ NumChar c) (hcw : isWs c = false)
    (hs : Term (c :: s)) : ∃ a u, w ++ c :: s = a :: u ∧ ¬ NumChar a ∧ Term (a :: u) ∧
      skipWs (a :: u) = .ok (c :: s) := by
  have hsk : skipWs (w ++ c :: s) = .ok (c :: s) := by rw [skipWs_append hw, skipWs_stop hcw]
  cases w with
  | nil => exact ⟨c, s, rfl, hc, hs, hsk⟩
  | cons a w =>
    refine ⟨a, w ++ c :: s, rfl, ?_, ?_, hsk⟩
    · exact ws_not_num ((Ws.cons_iff.1 hw).1)
    · simp only [Term, List.mem_cons, List.mem_append] at *; grind

theorem any_complete (N : NumOps D) (hN : NegLaw N) {tok : Bytes} {j : J} (h : DVal tok j) :
    ValC N tok j := by
  refine Val.rec (motive_1 := fun t j _ => ValC N t j) (motive_2 := fun t l _ => ElemsC N t l)
    (motive_3 := fun t m _ => MembersC N t m) ?_ ?_ ?_ ?_ ?_ ?_ ?_ ?_ ?_ ?_ ?_ ?_ ?_ h
  · intro n c s r hn hc ht hs
    obtain ⟨k, rfl⟩ : ∃ k, n = k + 1 := ⟨n - 1, by omega⟩
    refine ⟨c :: s, ?_, hs⟩
    rw [List.cons_append, parseAny_other N k (by decide) (by simp [NumChar, Digit]),
      parseBool_other (by decide) (by decide)]
    rfl
  · intro n c s r hn hc ht hs
    obtain ⟨k, rfl⟩ : ∃ k, n = k + 1 := ⟨n - 1, by omega⟩
    refine ⟨c :: s, ?_, hs⟩
    rw [List.cons_append, parseAny_other N k (by decide) (by simp [NumChar, Digit])]
    rfl
  · intro n c s r hn hc ht hs
    obtain ⟨k, rfl⟩ : ∃ k, n = k + 1 := ⟨n - 1, by omega⟩
    refine ⟨c :: s, ?_, hs⟩
    rw [List.cons_append, parseAny_other N k (by decide) (by simp [NumChar, Digit])]
    rfl
  · intro t d hd n c s r hn hc ht hs
    refine ⟨r, parseAny_num N hN (by omega) hd (hc.resolve_right fun h => h d rfl) hs, skipWs_idem hs⟩
  · intro t s hs n c u r hn hc ht hsk
    exact ⟨c :: u, parseAny_str N (by omega) hs ht, hsk⟩
  · -- empty array
    intro w hw n c s r hn hc ht hs
    obtain ⟨k, rfl⟩ : ∃ k, n = k + 3 := ⟨n - 3, by simp at hn; omega⟩
    refine ⟨c :: s, ?_, hs⟩
    rw [List.cons_append, List.append_assoc]
    apply parseAny_arr
    rw [arrayLoop_succ]
    simp only [List.drop_one, List.tail_cons]
    rw [skipWs_append hw, List.cons_append, skipWs_stop (by decide)]
    rfl
  · intro t l _ ih n c s r hn hc ht hs
    obtain ⟨k, rfl⟩ : ∃ k, n = k + 2 := ⟨n - 2, by simp at hn; omega⟩
    refine ⟨c :: s, ?_, hs⟩
    rw [List.cons_append, List.append_assoc]
    apply parseAny_arr
    exact ih k 91 [] (c :: s) (by simp at hn; omega) ht
  · intro w hw n c s r hn hc ht hs
    obtain ⟨k, rfl⟩ : ∃ k, n = k + 3 := ⟨n - 3, by simp at hn; omega⟩
    refine ⟨c :: s, ?_, hs⟩
    rw [List.cons_append, List.append_assoc]
    apply parseAny_obj
    rw [objectLoop_succ]
    simp only [List.drop_one, List.tail_cons]
    rw [skipWs_append hw, List.cons_append, skipWs_stop (by decide)]
    rfl
  · intro t m _ ih n c s r hn hc ht hs
    obtain ⟨k, rfl⟩ : ∃ k, n = k + 2 := ⟨n - 2, by simp at hn; omega⟩
    refine ⟨c :: s, ?_, hs⟩
    rw [List.cons_append, List.append_assoc]
    apply parseAny_obj
    exact ih k 123 .nil [] (c :: s) (by simp at hn; omega) ht treeOk_nil
  · -- last element
    intro w1 t w2 j hw1 hv hw2 ih n c acc s hn hs
    obtain ⟨k, rfl⟩ : ∃ k, n = k + 1 := ⟨n - 1, by omega⟩
    obtain ⟨a, u, hau, haw, ha93, ha125⟩ := val_head hv
    have e : (w1 ++ (t ++ w2)) ++ 0x5D :: s = w1 ++ (t ++ (w2 ++ 93 :: s)) := by simp
    obtain ⟨b, x, hbx, hb, hbt, hbs⟩ :=
      after_token (c := 93) hw2 (by simp [NumChar, Digit]) (by decide) (s := s)
        (by simp [Term] at *; exact hs)
    obtain ⟨rest, hp, hrest⟩ := ih k b x _ (by simp at hn; omega) (.inl hb) hbt hbs
    rw [arrayLoop_succ]
    simp only [List.drop_one, List.tail_cons]
    rw [e, skipWs_append hw1, hbx]
    have : skipWs (t ++ b :: x) = .ok (t ++ b :: x) := by
      rw [hau, List.cons_append, skipWs_stop haw]
    rw [this]
    simp only [Out.ok_bind]
    have : rd (t ++ b :: x) 0 = .ok a := by rw [hau]; rfl
    rw [this]
    simp only [Out.ok_bind]
    rw [if_neg ha93, hp]
    simp only [Out.ok_bind, hrest]
    simp [rd_cons_zero, Out.ok_bind, interpL]
  · intro w1 t w2 j ts l hw1 hv hw2 hl ih ihl n c acc s hn hs
    obtain ⟨k, rfl⟩ : ∃ k, n = k + 1 := ⟨n - 1, by omega⟩
    obtain ⟨a, u, hau, haw, ha93, ha125⟩ := val_head hv
    have e : (w1 ++ (t ++ (w2 ++ 0x2C :: ts))) ++ 0x5D :: s =
      w1 ++ (t ++ (w2 ++ 44 :: (ts ++ 93 :: s))) := by simp
    obtain ⟨b, x, hbx, hb, hbt, hbs⟩ :=
      after_token (c := 44) hw2 (by simp [NumChar, Digit]) (by decide) (s := ts ++ 93 :: s)
        (by simp [Term] at *; exact .inr hs)
    obtain ⟨rest, hp, hrest⟩ := ih k b x _ (by simp at hn; omega) (.inl hb) hbt hbs
    rw [arrayLoop_succ]
    simp only [List.drop_one, List.tail_cons]
    rw [e, skipWs_append hw1, hbx]
    have : skipWs (t ++ b :: x) = .ok (t ++ b :: x) := by
      rw [hau, List.cons_append, skipWs_stop haw]
    rw [this]
    simp only [Out.ok_bind]
    have : rd (t ++ b :: x) 0 = .ok a := by rw [hau]; rfl
    rw [this]
    simp only [Out.ok_bind]
    rw [if_neg ha93, hp]
    simp only [Out.ok_bind, hrest]
    have := ihl k 44 (acc ++ [interp N j]) s (by simp at hn; omega) hs
    simp [rd_cons_zero, Out.ok_bind, interpL, this]
  · intro w1 tn w2 w3 t w4 name j hw1 hname hw2 hw3 hv hw4 ih n c m order s hn hs hm
    obtain ⟨k, rfl⟩ : ∃ k, n = k + 1 := ⟨n - 1, by omega⟩
    obtain ⟨a, u, hau, haw, ha93, ha125⟩ := val_head hv
    obtain ⟨u', hu'⟩ := hname.head
    have e : (w1 ++ (tn ++ (w2 ++ 0x3A :: (w3 ++ (t ++ w4))))) ++ 0x7D :: s =
      w1 ++ (tn ++ (w2 ++ 58 :: (w3 ++ (t ++ (w4 ++ 125 :: s))))) := by simp
    obtain ⟨b, x, hbx, hb, hbt, hbs⟩ :=
      after_token (c := 125) hw4 (by simp [NumChar, Digit]) (by decide) (s := s)
        (by simp [Term] at *; exact hs)
    obtain ⟨rest, hp, hrest⟩ := ih k b x _ (by simp at hn; omega) (.inl hb) hbt hbs
    obtain ⟨hins, hm'⟩ := insertAccounted_ok hm order name (interp N j)
    rw [objectLoop_succ]
    simp only [List.drop_one, List.tail_cons]
    rw [e, skipWs_append hw1, hbx]
    have hsn : ∀ q, skipWs (tn ++ q) = .ok (tn ++ q) ∧ rd (tn ++ q) 0 = .ok 34 := by
      intro q; rw [hu', List.cons_append, skipWs_stop (by decide)]; exact ⟨rfl, rfl⟩
    rw [(hsn _).1]
    simp only [Out.ok_bind]
    rw [(hsn _).2]
    simp only [Out.ok_bind]
    rw [if_neg (by decide), parseString_complete _ _ _ hname
      (by simp only [Term, List.mem_append, List.mem_cons] at *; grind)]
    simp only [Out.ok_bind]
    rw [skipWs_append hw2, skipWs_stop (by decide)]
    simp only [Out.ok_bind, rd_cons_zero, List.drop_one, List.tail_cons]
    rw [if_neg (by decide), skipWs_append hw3]
    have : skipWs (t ++ b :: x) = .ok (t ++ b :: x) := by
      rw [hau, List.cons_append, skipWs_stop haw]
    rw [this]
    simp only [Out.ok_bind]
    rw [hp]
    simp only [Out.ok_bind, hrest, hins]
    simp [rd_cons_zero, Out.ok_bind, interpM, JM.names]
  · intro w1 tn w2 w3 t w4 name j ts l hw1 hname hw2 hw3 hv hw4 hl ih ihl n c m order s hn hs hm
    obtain ⟨k, rfl⟩ : ∃ k, n = k + 1 := ⟨n - 1, by omega⟩
    obtain ⟨a, u, hau, haw, ha93, ha125⟩ := val_head hv
    obtain ⟨u', hu'⟩ := hname.head
    have e : (w1 ++ (tn ++ (w2 ++ 0x3A :: (w3 ++ (t ++ (w4 ++ 0x2C :: ts)))))) ++ 0x7D :: s =
      w1 ++ (tn ++ (w2 ++ 58 :: (w3 ++ (t ++ (w4 ++ 44 :: (ts ++ 125 :: s)))))) := by simp
    obtain ⟨b, x, hbx, hb, hbt, hbs⟩ :=
      after_token (c := 44) hw4 (by simp [NumChar, Digit]) (by decide) (s := ts ++ 125 :: s)
        (by simp [Term] at *; exact .inr hs)
    obtain ⟨rest, hp, hrest⟩ := ih k b x _ (by simp at hn; omega) (.inl hb) hbt hbs
    obtain ⟨hins, hm'⟩ := insertAccounted_ok hm order name (interp N j)
    rw [objectLoop_succ]
    simp only [List.drop_one, List.tail_cons]
    rw [e, skipWs_append hw1, hbx]
    have hsn : ∀ q, skipWs (tn ++ q) = .ok (tn ++ q) ∧ rd (tn ++ q) 0 = .ok 34 := by
      intro q; rw [hu', List.cons_append, skipWs_stop (by decide)]; exact ⟨rfl, rfl⟩
    rw [(hsn _).1]
    simp only [Out.ok_bind]
    rw [(hsn _).2]
    simp only [Out.ok_bind]
    rw [if_neg (by decide), parseString_complete _ _ _ hname
      (by simp only [Term, List.mem_append, List.mem_cons] at *; grind)]
    simp only [Out.ok_bind]
    rw [skipWs_append hw2, skipWs_stop (by decide)]
    simp only [Out.ok_bind, rd_cons_zero, List.drop_one, List.tail_cons]
    rw [if_neg (by decide), skipWs_append hw3]
    have : skipWs (t ++ b :: x) = .ok (t ++ b :: x) := by
      rw [hau, List.cons_append, skipWs_stop haw]
    rw [this]
    simp only [Out.ok_bind]
    rw [hp]
    simp only [Out.ok_bind, hrest, hins]
    have := ihl k 44 (addMember m name (interp N j)) (order ++ [name]) s (by simp at hn; omega) hs hm'
    simp [rd_cons_zero, Out.ok_bind, interpM, JM.names, this]

end Verif.Parser
