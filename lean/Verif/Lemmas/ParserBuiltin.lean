import Verif.Model.ParserBuiltin
import Verif.Spec.Syntax
import Verif.Lemmas.Walk

/-!
# The recursive parser with any number reader

The theorems of `Verif/Lemmas/Parse.lean` and `Verif/Lemmas/Root.lean` for a parser whose number reader satisfies `ReaderOk`.
-/

namespace Verif.ParserB

open Verif Verif.Text Verif.Number Verif.Map Verif.Parser Verif.Spec Verif.Doc

variable {D ν : Type} {numTok : Bytes → ν → Prop} {val : ν → D}

/-- A byte that may follow a number in a text: whitespace, a comma, a closing bracket, the end. -/
def Follows (c : Byte) : Prop := isWs c = true ∨ c = 93 ∨ c = 44 ∨ c = 125 ∨ c = 0

/-- What a number reader must do: read the longest token and the whitespace behind it, or fail. -/
structure ReaderOk (R : Bytes → Out (PRes D)) (numTok : Bytes → ν → Prop) (val : ν → D) : Prop where
  total : ∀ t, Term t →
    (∃ tok w d rest, numTok tok d ∧ Ws w ∧ t = tok ++ (w ++ rest) ∧ Term rest ∧ R t = .ok (.ok rest (val d))) ∨
    (∃ st p, R t = .ok (.err st p) ∧ Adv t p ∧ ∃ c ext d, t = c ++ p ∧ numTok (c ++ ext) d)
  complete : ∀ tok d, numTok tok d → ∀ c s r, Follows c → Term (c :: s) → skipWs (c :: s) = .ok r →
    R (tok ++ c :: s) = .ok (.ok r (val d))
  other : ∀ c s, c ∈ [0x6E, 0x74, 0x66, 0x5B, (0x7B : Byte)] → R (c :: s) = .ok (.err .kFloatInvalid (c :: s))
  nul_free : ∀ tok d, numTok tok d → (0 : Byte) ∉ tok
  head : ∀ tok d, numTok tok d → ∃ c s, tok = c :: s ∧ isWs c = false ∧ c ≠ 93 ∧ c ≠ 125 ∧ c ≠ 34

mutual
/-- The tree of value objects built for an abstract value. -/
def interp (val : ν → D) : Syn ν → Value D
  | .null => .null
  | .bool b => .bool b
  | .num d => .num (val d)
  | .str s => .str s
  | .arr l => .arr (interpL val l)
  | .obj m => .obj (interpM val m .nil) m.names
/-- Elements. -/
def interpL (val : ν → D) : SynL ν → List (Value D)
  | .nil => []
  | .cons j l => interp val j :: interpL val l
/-- Members, inserted in the order of the text. -/
def interpM (val : ν → D) : SynM ν → Tree Bytes (Value D) → Tree Bytes (Value D)
  | .nil, t => t
  | .cons k j m, t => interpM val m (addMember t k (interp val j))
end

theorem parseAny_succ (R : Bytes → Out (PRes D)) (n : Nat) (start : Bytes) : parseAny R (n + 1) start =
    (parseString start >>= fun r =>
      match r with
      | .ok rest s => .ok (.ok rest (.str s))
      | .err status pos =>
        if status ≠ .kExpectedBeginingDoubleQuotes then .ok (.err status pos)
        else
          R start >>= fun r =>
          match r with
          | .ok rest d => .ok (.ok rest (.num d))
          | .err status pos =>
            if status = .kNumbersCannotHaveLeadingZeros then .ok (.err status pos)
            else
              parseBool start >>= fun r =>
              match r with
              | .ok rest b => .ok (.ok rest (.bool b))
              | .err _ _ =>
                parseNull start >>= fun r =>
                match r with
                | .ok rest _ => .ok (.ok rest .null)
                | .err _ _ =>
                  parseArray R n start >>= fun r =>
                  match r with
                  | .ok rest v => .ok (.ok rest v)
                  | .err status pos =>
                    if status ≠ .kExpectedOpeningSquareBrackets then .ok (.err status pos)
                    else
                      parseObject R n pos >>= fun r =>
                      match r with
                      | .ok rest v => .ok (.ok rest v)
                      | .err status pos =>
                        if status ≠ .kExpectedOpeningCurlyBraces ∨
                            status = .kNumbersCannotHaveLeadingZeros then .ok (.err status pos)
                        else .ok (.err .kExpectedJsonValue pos)) := rfl

/-- Tokens contain no NUL. -/
theorem val_nul_free {R : Bytes → Out (PRes D)} (hR : ReaderOk R numTok val) {tok : Bytes} {j : Syn ν} (h : SVal numTok DialStr tok j) : (0 : Byte) ∉ tok := by
  refine SVal.rec (motive_1 := fun t _ _ => (0 : Byte) ∉ t) (motive_2 := fun t _ _ => (0 : Byte) ∉ t)
    (motive_3 := fun t _ _ => (0 : Byte) ∉ t) ?_ ?_ ?_ ?_ ?_ ?_ ?_ ?_ ?_ ?_ ?_ ?_ ?_ h
  · decide
  · decide
  · decide
  · intro t d h; exact hR.nul_free t d h
  · intro t s h; exact h.nul_free
  · intro w h; have := h.nul_free; simp [this]
  · intro t l _ h; simp [h]
  · intro w h; have := h.nul_free; simp [this]
  · intro t m _ h; simp [h]
  · intro w1 t w2 j h1 _ h2 h3; have := h1.nul_free; have := h2.nul_free; simp [*]
  · intro w1 t w2 j ts l h1 _ h2 _ h3 h4; have := h1.nul_free; have := h2.nul_free; simp [*]
  · intro w1 n w2 w3 t w4 s j h1 hn h2 h3 _ h4 h5
    have := h1.nul_free; have := h2.nul_free; have := h3.nul_free; have := h4.nul_free
    have := hn.nul_free
    simp [*]
  · intro w1 n w2 w3 t w4 s j ts m h1 hn h2 h3 _ h4 _ h5 h6
    have := h1.nul_free; have := h2.nul_free; have := h3.nul_free; have := h4.nul_free
    have := hn.nul_free
    simp [*]

/-- First byte of a token. -/
theorem val_head {R : Bytes → Out (PRes D)} (hR : ReaderOk R numTok val) {tok : Bytes} {j : Syn ν} (h : SVal numTok DialStr tok j) :
    ∃ c s, tok = c :: s ∧ isWs c = false ∧ c ≠ 93 ∧ c ≠ 125 := by
  cases h with
  | null => exact ⟨_, _, rfl, by decide, by decide, by decide⟩
  | true => exact ⟨_, _, rfl, by decide, by decide, by decide⟩
  | false => exact ⟨_, _, rfl, by decide, by decide, by decide⟩
  | num h =>
    obtain ⟨c, s, e, h1, h2, h3, -⟩ := hR.head _ _ h
    exact ⟨c, s, e, h1, h2, h3⟩
  | str h =>
    obtain ⟨r, rfl⟩ := h.head
    exact ⟨_, _, rfl, by decide, by decide, by decide⟩
  | arrEmpty => exact ⟨_, _, rfl, by decide, by decide, by decide⟩
  | arr => exact ⟨_, _, rfl, by decide, by decide, by decide⟩
  | objEmpty => exact ⟨_, _, rfl, by decide, by decide, by decide⟩
  | obj => exact ⟨_, _, rfl, by decide, by decide, by decide⟩

theorem val_nul_free_ne {R : Bytes → Out (PRes D)} (hR : ReaderOk R numTok val) {tok : Bytes} {j : Syn ν} (h : SVal numTok DialStr tok j) : (0 : Byte) ∉ tok ∧ tok ≠ [] := by
  obtain ⟨c, s, e, -⟩ := val_head hR h
  exact ⟨val_nul_free hR h, by rw [e]; simp⟩

/-- The part of `t` before the position `p` can be completed to a value. -/
def ViaV (numTok : Bytes → ν → Prop) (t p : Bytes) : Prop := ∃ c ext j, t = c ++ p ∧ SVal numTok DialStr (c ++ ext) j
/-- The part of `t` before `p` can be completed to a list of elements. -/
def ViaE (numTok : Bytes → ν → Prop) (t p : Bytes) : Prop := ∃ c ext l, t = c ++ p ∧ SElems numTok DialStr (c ++ ext) l
/-- The part of `t` before `p` can be completed to a list of members. -/
def ViaM (numTok : Bytes → ν → Prop) (t p : Bytes) : Prop := ∃ c ext l, t = c ++ p ∧ SMembers numTok DialStr (c ++ ext) l

/-- Outcome of `ParseAnyValue`. -/
def AnyTotal (numTok : Bytes → ν → Prop) (val : ν → D) (R : Bytes → Out (PRes D)) (n : Nat) (t : Bytes) : Prop :=
  (∃ tok j w rest, SVal numTok DialStr tok j ∧ Ws w ∧ t = tok ++ (w ++ rest) ∧ Term rest ∧
    parseAny R n t = .ok (.ok rest (interp val j))) ∨
  (∃ st p, parseAny R n t = .ok (.err st p) ∧ GoodErr st ∧ Adv t p ∧ ViaV numTok t p)

/-- Outcome of the loop over elements (after the opening bracket or a comma `c`). -/
def ArrTotal (numTok : Bytes → ν → Prop) (val : ν → D) (R : Bytes → Out (PRes D)) (n : Nat) (c : Byte) (t : Bytes) (acc : List (Value D)) : Prop :=
  (acc = [] ∧ ∃ w rest, Ws w ∧ t = w ++ 0x5D :: rest ∧ Term rest ∧
    arrayLoop R n (c :: t) acc = .ok (.ok rest (.arr []))) ∨
  (∃ ts l rest, SElems numTok DialStr ts l ∧ t = ts ++ 0x5D :: rest ∧ Term rest ∧
    arrayLoop R n (c :: t) acc = .ok (.ok rest (.arr (acc ++ interpL val l)))) ∨
  (∃ st p, arrayLoop R n (c :: t) acc = .ok (.err st p) ∧ GoodErr st ∧ Adv t p ∧ ViaE numTok t p)

/-- Outcome of the loop over members. -/
def ObjTotal (numTok : Bytes → ν → Prop) (val : ν → D) (R : Bytes → Out (PRes D)) (n : Nat) (c : Byte) (t : Bytes) (m : Tree Bytes (Value D))
    (order : List Bytes) : Prop :=
  (order = [] ∧ ∃ w rest, Ws w ∧ t = w ++ 0x7D :: rest ∧ Term rest ∧
    objectLoop R n (c :: t) m order = .ok (.ok rest (.obj m []))) ∨
  (∃ ts l rest, SMembers numTok DialStr ts l ∧ t = ts ++ 0x7D :: rest ∧ Term rest ∧
    objectLoop R n (c :: t) m order = .ok (.ok rest (.obj (interpM val l m) (order ++ l.names)))) ∨
  (∃ st p, objectLoop R n (c :: t) m order = .ok (.err st p) ∧ GoodErr st ∧ Adv t p ∧ ViaM numTok t p)

theorem arrayLoop_succ (R : Bytes → Out (PRes D)) (n : Nat) (t : Bytes) (acc : List (Value D)) :
    arrayLoop R (n + 1) t acc =
      (skipWs (t.drop 1) >>= fun t =>
      rd t 0 >>= fun c =>
      if c = 93 then
        if ¬ acc.isEmpty then .ok (.err .kExpectedJsonValue t) else .ok (.ok (t.drop 1) (.arr acc))
      else
        parseAny R n t >>= fun r =>
        match r with
        | .err status pos => .ok (.err status pos)
        | .ok t v =>
            skipWs t >>= fun t =>
            rd t 0 >>= fun c =>
            if c ≠ 44 then
              if c ≠ 93 then .ok (.err .kExpectedClosingSquareBracketsOrComma t)
              else .ok (.ok (t.drop 1) (.arr (acc ++ [v])))
            else arrayLoop R n t (acc ++ [v])) := rfl

theorem objectLoop_succ (R : Bytes → Out (PRes D)) (n : Nat) (t : Bytes) (m : Tree Bytes (Value D))
    (order : List Bytes) :
    objectLoop R (n + 1) t m order =
      (skipWs (t.drop 1) >>= fun t =>
      rd t 0 >>= fun c =>
      if c = 125 then
        if ¬ order.isEmpty then .ok (.err .kExpectedJsonValue t)
        else .ok (.ok (t.drop 1) (.obj m order))
      else
        parseString t >>= fun r =>
        match r with
        | .err status pos => .ok (.err status pos)
        | .ok t name =>
            skipWs t >>= fun t =>
            rd t 0 >>= fun c =>
            if c ≠ 58 then .ok (.err .kExpectedColon t)
            else
              skipWs (t.drop 1) >>= fun t =>
              parseAny R n t >>= fun r =>
              match r with
              | .err status pos => .ok (.err status pos)
              | .ok t v =>
                  insertAccounted m order name v >>= fun (m, order) =>
                  skipWs t >>= fun t =>
                  rd t 0 >>= fun c =>
                  if c ≠ 44 then
                    if c ≠ 125 then .ok (.err .kExpectedClosingCurlyBracesOrComma t)
                    else .ok (.ok (t.drop 1) (.obj m order))
                  else objectLoop R n t m order) := rfl

theorem parseArray_succ (R : Bytes → Out (PRes D)) (n : Nat) (t : Bytes) : parseArray R (n + 1) t =
    (rd t 0 >>= fun c =>
      if c ≠ 91 then .ok (.err .kExpectedOpeningSquareBrackets t) else arrayLoop R n t []) := rfl

theorem parseObject_succ (R : Bytes → Out (PRes D)) (n : Nat) (t : Bytes) : parseObject R (n + 1) t =
    (rd t 0 >>= fun c =>
      if c ≠ 123 then .ok (.err .kExpectedOpeningCurlyBraces t) else objectLoop R n t .nil []) := rfl

theorem arr_total {R : Bytes → Out (PRes D)} (hR : ReaderOk R numTok val) (n : Nat)
    (ihA : ∀ t, Term t → 3 * t.length + 1 ≤ n → AnyTotal numTok val R n t)
    (ihL : ∀ c t acc, Term t → 3 * t.length + 2 ≤ n → ArrTotal numTok val R n c t acc)
    (c : Byte) (t : Bytes) (acc : List (Value D)) (ht : Term t) (hn : 3 * t.length + 2 ≤ n + 1) :
    ArrTotal numTok val R (n + 1) c t acc := by
  obtain ⟨w1, a, s, hw1, e1, ha, hs1⟩ := skipWs_total ht
  have hadv1 : Adv t (a :: s) := ⟨w1, e1, hw1.nul_free⟩
  have hts := hadv1.term ht
  have hlen1 := hadv1.length_le
  unfold ArrTotal
  rw [arrayLoop_succ]
  simp only [List.drop_one, List.tail_cons, hs1, Out.ok_bind, rd_cons_zero]
  by_cases h93 : a = 93
  · subst h93
    rw [if_pos rfl]
    cases acc with
    | nil =>
      left
      exact ⟨rfl, w1, s, hw1, e1, hts.tail (by decide), by simp⟩
    | cons x acc =>
      right; right
      exact ⟨.kExpectedJsonValue, 93 :: s, by simp, by decide, hadv1,
        w1, [0x6E, 0x75, 0x6C, 0x6C], _, e1, by simpa using SElems.one hw1 .null Ws.nil⟩
  · rw [if_neg h93]
    rcases ihA (a :: s) hts (by omega) with
      ⟨tok, j, w2, rest, hv, hw2, e2, hr, hp⟩ | ⟨st, p, hp, hst, hadv, cv, ext, jv, ec, hvia⟩
    · rw [hp]
      simp only [Out.ok_bind]
      have hadv2 : Adv (a :: s) rest ∧ rest.length < (a :: s).length := by
        have hz := val_nul_free_ne hR hv
        refine ⟨⟨tok ++ w2, by rw [e2]; simp, by simp [hz.1, hw2.nul_free]⟩, ?_⟩
        have := congrArg List.length e2
        have : 0 < tok.length := List.length_pos_iff.2 hz.2
        simp only [List.length_append] at *
        omega
      obtain ⟨w3, b, s3, hw3, e3, hb, hs3⟩ := skipWs_total hr
      have hadv3 : Adv rest (b :: s3) := ⟨w3, e3, hw3.nul_free⟩
      have hlen3 := hadv3.length_le
      have hadv := (hadv1.trans hadv2.1).trans hadv3
      have ht3 := hadv.term ht
      rw [hs3]
      simp only [Out.ok_bind, rd_cons_zero]
      have etext : t = w1 ++ (tok ++ ((w2 ++ w3) ++ b :: s3)) := by
        rw [e1, e2, e3]; simp
      by_cases h44 : b = 44
      · subst h44
        rw [if_neg (by simp)]
        have ht4 : Term s3 := ht3.tail (by decide)
        rcases ihL 44 s3 (acc ++ [interp val j]) ht4 (by
            simp only [List.length_cons] at *; omega) with
          ⟨he, -⟩ | ⟨ts, l, rest', hl, e4, hr', hloop⟩ |
          ⟨st, p, hloop, hst, hadv', cv, ext, jv, ec, hvia⟩
        · simp at he
        · right; left
          refine ⟨w1 ++ (tok ++ ((w2 ++ w3) ++ 0x2C :: ts)), .cons j l, rest',
            .cons hw1 hv (hw2.append hw3) hl, ?_, hr', ?_⟩
          · rw [etext, e4]; simp
          · rw [hloop]; simp [interpL]
        · right; right
          exact ⟨st, p, hloop, hst, hadv.trans ((Adv.cons s3 (by decide)).trans hadv'),
            w1 ++ (tok ++ ((w2 ++ w3) ++ 0x2C :: cv)), ext, _, by rw [etext, ec]; simp,
            by simpa using SElems.cons hw1 hv (hw2.append hw3) hvia⟩
      · rw [if_pos h44]
        by_cases h93' : b = 93
        · subst h93'
          rw [if_neg (by simp)]
          right; left
          refine ⟨w1 ++ (tok ++ (w2 ++ w3)), .cons j .nil, s3, .one hw1 hv (hw2.append hw3), ?_,
            ht3.tail (by decide), ?_⟩
          · rw [etext]; simp
          · simp [interpL]
        · rw [if_pos h93']
          right; right
          exact ⟨_, _, rfl, by decide, hadv,
            w1 ++ (tok ++ (w2 ++ w3)), [], _, by rw [etext]; simp,
            by simpa using SElems.one hw1 hv (hw2.append hw3)⟩
    · rw [hp]
      right; right
      exact ⟨st, p, rfl, hst, hadv1.trans hadv, w1 ++ cv, ext, _, by rw [e1, ec]; simp,
        by simpa using SElems.one hw1 hvia Ws.nil⟩

theorem obj_total {R : Bytes → Out (PRes D)} (hR : ReaderOk R numTok val) (n : Nat)
    (ihA : ∀ t, Term t → 3 * t.length + 1 ≤ n → AnyTotal numTok val R n t)
    (ihL : ∀ c t m order, TreeOk m → Term t → 3 * t.length + 2 ≤ n → ObjTotal numTok val R n c t m order)
    (c : Byte) (t : Bytes) (m : Tree Bytes (Value D)) (order : List Bytes) (hm : TreeOk m)
    (ht : Term t) (hn : 3 * t.length + 2 ≤ n + 1) :
    ObjTotal numTok val R (n + 1) c t m order := by
  obtain ⟨w1, a, s, hw1, e1, ha, hs1⟩ := skipWs_total ht
  have hadv1 : Adv t (a :: s) := ⟨w1, e1, hw1.nul_free⟩
  have hts := hadv1.term ht
  have hlen1 := hadv1.length_le
  unfold ObjTotal
  rw [objectLoop_succ]
  simp only [List.drop_one, List.tail_cons, hs1, Out.ok_bind, rd_cons_zero]
  by_cases h125 : a = 125
  · subst h125
    rw [if_pos rfl]
    cases order with
    | nil =>
      left
      exact ⟨rfl, w1, s, hw1, e1, hts.tail (by decide), by simp⟩
    | cons x order =>
      right; right
      exact ⟨.kExpectedJsonValue, 125 :: s, by simp, by decide, hadv1,
        w1, [0x22, 0x22, 0x3A, 0x6E, 0x75, 0x6C, 0x6C], _, e1,
        by simpa using SMembers.one hw1 dialStr_empty Ws.nil Ws.nil .null Ws.nil⟩
  · rw [if_neg h125]
    rcases parseString_total (a :: s) hts with
      ⟨tn, name, rest, hname, e2, hr, hp⟩ | ⟨st, p, hp, hadv, hst⟩
    · rw [hp]
      simp only [Out.ok_bind]
      have hadv2 : Adv (a :: s) rest := ⟨tn, e2, hname.nul_free⟩
      have hlen2 := hadv2.length_le
      obtain ⟨w2, b, s2, hw2, e3, hb, hs2⟩ := skipWs_total hr
      have hadv3 : Adv rest (b :: s2) := ⟨w2, e3, hw2.nul_free⟩
      have hlen3 := hadv3.length_le
      rw [hs2]
      simp only [Out.ok_bind, rd_cons_zero]
      by_cases h58 : b = 58
      · subst h58
        rw [if_neg (by simp)]
        have hts2 : Term s2 := (hadv3.term hr).tail (by decide)
        obtain ⟨w3, d, s3, hw3, e4, hd, hs3⟩ := skipWs_total hts2
        have hadv4 : Adv s2 (d :: s3) := ⟨w3, e4, hw3.nul_free⟩
        have hlen4 := hadv4.length_le
        have ht4 := hadv4.term hts2
        have hadvV : Adv t (d :: s3) :=
          ((hadv1.trans hadv2).trans hadv3).trans ((Adv.cons s2 (by decide)).trans hadv4)
        simp only [List.drop_one, List.tail_cons, hs3, Out.ok_bind]
        rcases ihA (d :: s3) ht4 (by simp only [List.length_cons] at *; omega) with
          ⟨tok, j, w4, rest', hv, hw4, e5, hr', hp'⟩ | ⟨st, p, hp', hst, hadv, cv, ext, jv, ec, hvia⟩
        · rw [hp']
          obtain ⟨hins, hm'⟩ := insertAccounted_ok hm order name (interp val j)
          simp only [Out.ok_bind, hins]
          have hz := val_nul_free_ne hR hv
          have hadv5 : Adv (d :: s3) rest' :=
            ⟨tok ++ w4, by rw [e5]; simp, by simp [hz.1, hw4.nul_free]⟩
          have hlen5 := hadv5.length_le
          obtain ⟨w5, b, s5, hw5, e6, hb, hs5⟩ := skipWs_total hr'
          have hadv6 : Adv rest' (b :: s5) := ⟨w5, e6, hw5.nul_free⟩
          have hlen6 := hadv6.length_le
          have hadv := (hadvV.trans hadv5).trans hadv6
          have ht6 := hadv.term ht
          rw [hs5]
          simp only [Out.ok_bind, rd_cons_zero]
          have etext : t = w1 ++ (tn ++ (w2 ++ 0x3A :: (w3 ++ (tok ++ ((w4 ++ w5) ++ b :: s5))))) := by
            rw [e1, e2, e3, e4, e5, e6]; simp
          by_cases h44 : b = 44
          · subst h44
            rw [if_neg (by simp)]
            have ht7 : Term s5 := ht6.tail (by decide)
            rcases ihL 44 s5 (addMember m name (interp val j)) (order ++ [name]) hm' ht7 (by
                simp only [List.length_cons] at *; omega) with
              ⟨he, -⟩ | ⟨ts, l, rest', hl, e4, hr', hloop⟩ |
          ⟨st, p, hloop, hst, hadv', cv, ext, jv, ec, hvia⟩
            · simp at he
            · right; left
              refine ⟨w1 ++ (tn ++ (w2 ++ 0x3A :: (w3 ++ (tok ++ ((w4 ++ w5) ++ 0x2C :: ts))))),
                .cons name j l, rest',
                .cons hw1 hname hw2 hw3 hv (hw4.append hw5) hl, ?_, hr', ?_⟩
              · rw [etext, e4]; simp
              · rw [hloop]; simp [interpM, SynM.names]
            · right; right
              exact ⟨st, p, hloop, hst, hadv.trans ((Adv.cons s5 (by decide)).trans hadv'),
                w1 ++ (tn ++ (w2 ++ 0x3A :: (w3 ++ (tok ++ ((w4 ++ w5) ++ 0x2C :: cv))))), ext, _,
                by rw [etext, ec]; simp,
                by simpa using SMembers.cons hw1 hname hw2 hw3 hv (hw4.append hw5) hvia⟩
          · rw [if_pos h44]
            by_cases h125' : b = 125
            · subst h125'
              rw [if_neg (by simp)]
              right; left
              refine ⟨w1 ++ (tn ++ (w2 ++ 0x3A :: (w3 ++ (tok ++ (w4 ++ w5))))), .cons name j .nil,
                s5, .one hw1 hname hw2 hw3 hv (hw4.append hw5), ?_, ht6.tail (by decide), ?_⟩
              · rw [etext]; simp
              · simp [interpM, SynM.names]
            · rw [if_pos h125']
              right; right
              exact ⟨_, _, rfl, by decide, hadv,
                w1 ++ (tn ++ (w2 ++ 0x3A :: (w3 ++ (tok ++ (w4 ++ w5))))), [], _, by rw [etext]; simp,
                by simpa using SMembers.one hw1 hname hw2 hw3 hv (hw4.append hw5)⟩
        · rw [hp']
          right; right
          exact ⟨st, p, rfl, hst, hadvV.trans hadv,
            w1 ++ (tn ++ (w2 ++ 0x3A :: (w3 ++ cv))), ext, _, by rw [e1, e2, e3, e4, ec]; simp,
            by simpa using SMembers.one hw1 hname hw2 hw3 hvia Ws.nil⟩
      · rw [if_pos h58]
        right; right
        exact ⟨_, _, rfl, by decide, (hadv1.trans hadv2).trans hadv3,
          w1 ++ (tn ++ w2), [0x3A, 0x6E, 0x75, 0x6C, 0x6C], _, by rw [e1, e2, e3]; simp,
          by simpa using SMembers.one hw1 hname hw2 Ws.nil .null Ws.nil⟩
    · rw [hp]
      right; right
      refine ⟨st, p, rfl, ?_, hadv1.trans hadv, ?_⟩
      rotate_left
      · rcases hst with ⟨-, rfl, -⟩ | ⟨-, e2⟩
        · exact ⟨w1, [0x22, 0x22, 0x3A, 0x6E, 0x75, 0x6C, 0x6C], _, e1,
            by simpa using SMembers.one hw1 dialStr_empty Ws.nil Ws.nil .null Ws.nil⟩
        · exact ⟨w1 ++ [0x22], [0x22, 0x3A, 0x6E, 0x75, 0x6C, 0x6C], _, by rw [e1, e2]; simp,
            by simpa using SMembers.one hw1 dialStr_empty Ws.nil Ws.nil .null Ws.nil⟩
      rcases hst with ⟨rfl, -⟩ | ⟨rfl | rfl | rfl, -⟩ <;> exact by decide

theorem all_total {R : Bytes → Out (PRes D)} (hR : ReaderOk R numTok val) (n : Nat) :
    (∀ t, Term t → 3 * t.length + 1 ≤ n → AnyTotal numTok val R n t) ∧
    (∀ c t acc, Term t → 3 * t.length + 2 ≤ n → ArrTotal numTok val R n c t acc) ∧
    (∀ c t m order, TreeOk m → Term t → 3 * t.length + 2 ≤ n → ObjTotal numTok val R n c t m order) := by
  induction n using Nat.strongRecOn with
  | _ n ih =>
    refine ⟨?_, ?_, ?_⟩
    · intro t ht hn
      obtain ⟨k, rfl⟩ : ∃ k, n = k + 1 := ⟨n - 1, by omega⟩
      unfold AnyTotal
      rw [parseAny_succ]
      rcases parseString_total t ht with
        ⟨tok, s, rest, hs, e, hr, hp⟩ | ⟨st, p, hp, hadv, hst⟩
      · left
        exact ⟨tok, .str s, [], rest, .str hs, Ws.nil, by simpa using e, hr, by rw [hp]; rfl⟩
      rcases hst with ⟨rfl, rfl, h34⟩ | ⟨hst, e34⟩
      rotate_left
      · right
        refine ⟨st, p, ?_, ?_, hadv, [0x22], [0x22], _, e34, .str dialStr_empty⟩
        · rw [hp]
          simp only [Out.ok_bind]
          rw [if_pos (by rcases hst with rfl | rfl | rfl <;> decide)]
        · rcases hst with rfl | rfl | rfl <;> exact by decide
      rw [hp]
      simp only [Out.ok_bind, ne_eq, not_true_eq_false, if_false]
      rcases hR.total p ht with
        ⟨tok, w, d, rest, hd, hw, e, hr, hp⟩ | ⟨st, p', hp, hadv', hvia⟩
      · left
        exact ⟨tok, .num d, w, rest, .num hd, hw, e, hr, by rw [hp]; rfl⟩
      by_cases hz : st = .kNumbersCannotHaveLeadingZeros
      · subst hz
        rw [hp]
        right
        obtain ⟨c, ext, d, h1, h2⟩ := hvia
        exact ⟨_, _, rfl, by decide, hadv', c, ext, _, h1, .num h2⟩
      rw [hp]
      simp only [Out.ok_bind]
      rw [if_neg hz]
      rcases parseBool_total p ht with ⟨tok, b, rest, hv, e, hr, hp⟩ | hp
      · left
        have hv : SVal numTok DialStr tok (.bool b) := by
          cases hv
          · exact .true
          · exact .false
        exact ⟨tok, .bool b, [], rest, hv, Ws.nil, by simpa using e, hr, by rw [hp]; rfl⟩
      rw [hp]
      simp only [Out.ok_bind]
      rcases parseNull_total p ht with ⟨tok, rest, hv, e, hr, hp⟩ | hp
      · left
        have hv : SVal numTok DialStr tok .null := by cases hv; exact .null
        exact ⟨tok, .null, [], rest, hv, Ws.nil, by simpa using e, hr, by rw [hp]; rfl⟩
      rw [hp]
      simp only [Out.ok_bind]
      obtain ⟨c, s, rfl⟩ := ht.ne_nil
      obtain ⟨k, rfl⟩ : ∃ i, k = i + 1 := ⟨k - 1, by simp at hn; omega⟩
      rw [parseArray_succ]
      simp only [rd_cons_zero, Out.ok_bind]
      by_cases h91 : c = 91
      · subst h91
        rw [if_neg (by simp)]
        have hs := ht.tail (by decide)
        rcases (ih k (by omega)).2.1 91 s [] hs (by simp at hn; omega) with
          ⟨-, w, rest, hw, e, hr, hp⟩ | ⟨ts, l, rest, hl, e, hr, hp⟩ |
          ⟨st, p, hp, hst, hadv, cv, ext, jv, ec, hvia⟩
        · left
          refine ⟨91 :: (w ++ [93]), .arr .nil, [], rest, .arrEmpty hw, Ws.nil, ?_, hr, ?_⟩
          · rw [e]; simp
          · rw [hp]; simp [interp, interpL]
        · left
          refine ⟨91 :: (ts ++ [93]), .arr l, [], rest, .arr hl, Ws.nil, ?_, hr, ?_⟩
          · rw [e]; simp
          · rw [hp]; simp [interp]
        · right
          rw [hp]
          refine ⟨st, p, ?_, hst, (Adv.cons s (by decide)).trans hadv, 91 :: cv, ext ++ [93], _,
            by rw [ec]; simp, by simpa using SVal.arr hvia⟩
          simp only [Out.ok_bind]
          rw [if_pos hst.ne.2.1]
      · rw [if_pos h91]
        simp only [Out.ok_bind, not_true_eq_false, if_false, parseObject_succ, rd_cons_zero]
        by_cases h123 : c = 123
        · subst h123
          rw [if_neg (by simp)]
          have hs := ht.tail (by decide)
          rcases (ih k (by omega)).2.2 123 s .nil [] treeOk_nil hs (by simp at hn; omega) with
            ⟨-, w, rest, hw, e, hr, hp⟩ | ⟨ts, l, rest, hl, e, hr, hp⟩ |
          ⟨st, p, hp, hst, hadv, cv, ext, jv, ec, hvia⟩
          · left
            refine ⟨123 :: (w ++ [125]), .obj .nil, [], rest, .objEmpty hw, Ws.nil, ?_, hr, ?_⟩
            · rw [e]; simp
            · rw [hp]; simp [interp, interpM, SynM.names]
          · left
            refine ⟨123 :: (ts ++ [125]), .obj l, [], rest, .obj hl, Ws.nil, ?_, hr, ?_⟩
            · rw [e]; simp
            · rw [hp]; simp [interp]
          · right
            rw [hp]
            refine ⟨st, p, ?_, hst, (Adv.cons s (by decide)).trans hadv, 123 :: cv, ext ++ [125], _,
              by rw [ec]; simp, by simpa using SVal.obj hvia⟩
            simp only [Out.ok_bind]
            rw [if_pos (.inl hst.ne.2.2)]
        · rw [if_pos h123]
          right
          refine ⟨.kExpectedJsonValue, c :: s, ?_, by decide, Adv.refl _,
            [], [0x6E, 0x75, 0x6C, 0x6C], _, rfl, .null⟩
          simp only [Out.ok_bind]
          rw [if_neg (by decide)]
    · intro c t acc ht hn
      obtain ⟨k, rfl⟩ : ∃ k, n = k + 1 := ⟨n - 1, by omega⟩
      exact arr_total hR k (ih k (by omega)).1 (ih k (by omega)).2.1 c t acc ht hn
    · intro c t m order hm ht hn
      obtain ⟨k, rfl⟩ : ∃ k, n = k + 1 := ⟨n - 1, by omega⟩
      exact obj_total hR k (ih k (by omega)).1 (ih k (by omega)).2.2 c t m order hm ht hn

theorem any_total {R : Bytes → Out (PRes D)} (hR : ReaderOk R numTok val) (n : Nat) (t : Bytes) (ht : Term t)
    (hn : 3 * t.length + 1 ≤ n) : AnyTotal numTok val R n t := (all_total hR n).1 t ht hn

/-! ## Completeness -/

/-- A value token is read, if it is not a number or the next byte does not continue the number. -/
def ValC (val : ν → D) (R : Bytes → Out (PRes D)) (tok : Bytes) (j : Syn ν) : Prop :=
  ∀ n c s r, 3 * tok.length + 1 ≤ n → Follows c → Term (c :: s) → skipWs (c :: s) = .ok r →
    ∃ rest, parseAny R n (tok ++ c :: s) = .ok (.ok rest (interp val j)) ∧ skipWs rest = .ok r

/-- A list of elements is read. -/
def ElemsC (val : ν → D) (R : Bytes → Out (PRes D)) (ts : Bytes) (l : SynL ν) : Prop :=
  ∀ n c acc s, 3 * ts.length + 2 ≤ n → Term s →
    arrayLoop R n (c :: (ts ++ 0x5D :: s)) acc = .ok (.ok s (.arr (acc ++ interpL val l)))

/-- A list of members is read. -/
def MembersC (val : ν → D) (R : Bytes → Out (PRes D)) (ts : Bytes) (l : SynM ν) : Prop :=
  ∀ n c m order s, 3 * ts.length + 2 ≤ n → Term s → TreeOk m →
    objectLoop R n (c :: (ts ++ 0x7D :: s)) m order =
      .ok (.ok s (.obj (interpM val l m) (order ++ l.names)))

theorem parseAny_str (R : Bytes → Out (PRes D)) {n : Nat} (hn : 0 < n) {tok s rest : Bytes} (h : DialStr tok s)
    (hr : Term rest) : parseAny R n (tok ++ rest) = .ok (.ok rest (.str s)) := by
  obtain ⟨k, rfl⟩ : ∃ k, n = k + 1 := ⟨n - 1, by omega⟩
  rw [parseAny_succ, parseString_complete _ _ _ h hr]; rfl

theorem parseAny_num {R : Bytes → Out (PRes D)} (hR : ReaderOk R numTok val) {n : Nat} (hn : 0 < n) {tok : Bytes} {d : ν}
    (h : numTok tok d) {c : Byte} {s r : Bytes} (hc : Follows c) (ht : Term (c :: s)) (hs : skipWs (c :: s) = .ok r) :
    parseAny R n (tok ++ c :: s) = .ok (.ok r (.num (val d))) := by
  obtain ⟨k, rfl⟩ : ∃ k, n = k + 1 := ⟨n - 1, by omega⟩
  have hp := hR.complete tok d h c s r hc ht hs
  obtain ⟨a, u, rfl, -, -, -, h34⟩ := hR.head _ _ h
  rw [parseAny_succ, hp, List.cons_append, parseString_other h34]; rfl

/-- The branches that are left when the text begins with another byte. -/
theorem parseAny_other {R : Bytes → Out (PRes D)} (hR : ReaderOk R numTok val) (n : Nat) {c : Byte} {s : Bytes} (h34 : c ≠ 34)
    (hnum : c ∈ [0x6E, 0x74, 0x66, 0x5B, (0x7B : Byte)]) :
    parseAny R (n + 1) (c :: s) =
      (parseBool (c :: s) >>= fun r =>
        match r with
        | .ok rest b => .ok (.ok rest (.bool b))
        | .err _ _ =>
          parseNull (c :: s) >>= fun r =>
          match r with
          | .ok rest _ => .ok (.ok rest .null)
          | .err _ _ =>
            parseArray R n (c :: s) >>= fun r =>
            match r with
            | .ok rest v => .ok (.ok rest v)
            | .err status pos =>
              if status ≠ .kExpectedOpeningSquareBrackets then .ok (.err status pos)
              else
                parseObject R n pos >>= fun r =>
                match r with
                | .ok rest v => .ok (.ok rest v)
                | .err status pos =>
                  if status ≠ .kExpectedOpeningCurlyBraces ∨
                      status = .kNumbersCannotHaveLeadingZeros then .ok (.err status pos)
                  else .ok (.err .kExpectedJsonValue pos)) := by
  have hp := hR.other c s hnum
  rw [parseAny_succ, parseString_other h34]
  simp only [Out.ok_bind, ne_eq, not_true_eq_false, if_false, hp]
  rfl

theorem parseAny_arr {R : Bytes → Out (PRes D)} (hR : ReaderOk R numTok val) (n : Nat) {s r : Bytes} {v : Value D}
    (h : arrayLoop R n (91 :: s) [] = .ok (.ok r v)) :
    parseAny R (n + 2) (91 :: s) = .ok (.ok r v) := by
  rw [parseAny_other hR (n + 1) (by decide) (by decide),
    parseBool_other (by decide) (by decide)]
  simp only [Out.ok_bind]
  rw [parseNull_other (by decide)]
  simp only [Out.ok_bind]
  rw [parseArray_succ]
  simp only [rd_cons_zero, Out.ok_bind]
  rw [if_neg (by simp), h]; rfl

theorem parseAny_obj {R : Bytes → Out (PRes D)} (hR : ReaderOk R numTok val) (n : Nat) {s r : Bytes} {v : Value D}
    (h : objectLoop R n (123 :: s) .nil [] = .ok (.ok r v)) :
    parseAny R (n + 2) (123 :: s) = .ok (.ok r v) := by
  rw [parseAny_other hR (n + 1) (by decide) (by decide),
    parseBool_other (by decide) (by decide)]
  simp only [Out.ok_bind]
  rw [parseNull_other (by decide)]
  simp only [Out.ok_bind]
  rw [parseArray_succ]
  simp only [rd_cons_zero, Out.ok_bind]
  rw [if_pos (by decide)]
  simp only [Out.ok_bind, ne_eq, not_true_eq_false, if_false]
  rw [parseObject_succ]
  simp only [rd_cons_zero, Out.ok_bind]
  rw [if_neg (by simp), h]; rfl

/-- The byte after a token inside an array or object, and the text after the whitespace. -/
theorem after_token {w s : Bytes} {c : Byte} (hw : Ws w) (hc : Follows c) (hcw : isWs c = false)
    (hs : Term (c :: s)) : ∃ a u, w ++ c :: s = a :: u ∧ Follows a ∧ Term (a :: u) ∧
      skipWs (a :: u) = .ok (c :: s) := by
  have hsk : skipWs (w ++ c :: s) = .ok (c :: s) := by rw [skipWs_append hw, skipWs_stop hcw]
  cases w with
  | nil => exact ⟨c, s, rfl, hc, hs, hsk⟩
  | cons a w =>
    refine ⟨a, w ++ c :: s, rfl, ?_, ?_, hsk⟩
    · exact .inl ((Ws.cons_iff.1 hw).1)
    · simp only [Term, List.mem_cons, List.mem_append] at *; grind

theorem any_complete {R : Bytes → Out (PRes D)} (hR : ReaderOk R numTok val) {tok : Bytes} {j : Syn ν} (h : SVal numTok DialStr tok j) :
    ValC val R tok j := by
  refine SVal.rec (motive_1 := fun t j _ => ValC val R t j) (motive_2 := fun t l _ => ElemsC val R t l)
    (motive_3 := fun t m _ => MembersC val R t m) ?_ ?_ ?_ ?_ ?_ ?_ ?_ ?_ ?_ ?_ ?_ ?_ ?_ h
  · intro n c s r hn hc ht hs
    obtain ⟨k, rfl⟩ : ∃ k, n = k + 1 := ⟨n - 1, by omega⟩
    refine ⟨c :: s, ?_, hs⟩
    rw [List.cons_append, parseAny_other hR k (by decide) (by decide),
      parseBool_other (by decide) (by decide)]
    rfl
  · intro n c s r hn hc ht hs
    obtain ⟨k, rfl⟩ : ∃ k, n = k + 1 := ⟨n - 1, by omega⟩
    refine ⟨c :: s, ?_, hs⟩
    rw [List.cons_append, parseAny_other hR k (by decide) (by decide)]
    rfl
  · intro n c s r hn hc ht hs
    obtain ⟨k, rfl⟩ : ∃ k, n = k + 1 := ⟨n - 1, by omega⟩
    refine ⟨c :: s, ?_, hs⟩
    rw [List.cons_append, parseAny_other hR k (by decide) (by decide)]
    rfl
  · intro t d hd n c s r hn hc ht hs
    refine ⟨r, parseAny_num hR (by omega) hd hc ht hs, skipWs_idem hs⟩
  · intro t s hs n c u r hn hc ht hsk
    exact ⟨c :: u, parseAny_str R (by omega) hs ht, hsk⟩
  · -- empty array
    intro w hw n c s r hn hc ht hs
    obtain ⟨k, rfl⟩ : ∃ k, n = k + 3 := ⟨n - 3, by simp at hn; omega⟩
    refine ⟨c :: s, ?_, hs⟩
    rw [List.cons_append, List.append_assoc]
    apply parseAny_arr hR
    rw [arrayLoop_succ]
    simp only [List.drop_one, List.tail_cons]
    rw [skipWs_append hw, List.cons_append, skipWs_stop (by decide)]
    rfl
  · intro t l _ ih n c s r hn hc ht hs
    obtain ⟨k, rfl⟩ : ∃ k, n = k + 2 := ⟨n - 2, by simp at hn; omega⟩
    refine ⟨c :: s, ?_, hs⟩
    rw [List.cons_append, List.append_assoc]
    apply parseAny_arr hR
    exact ih k 91 [] (c :: s) (by simp at hn; omega) ht
  · intro w hw n c s r hn hc ht hs
    obtain ⟨k, rfl⟩ : ∃ k, n = k + 3 := ⟨n - 3, by simp at hn; omega⟩
    refine ⟨c :: s, ?_, hs⟩
    rw [List.cons_append, List.append_assoc]
    apply parseAny_obj hR
    rw [objectLoop_succ]
    simp only [List.drop_one, List.tail_cons]
    rw [skipWs_append hw, List.cons_append, skipWs_stop (by decide)]
    rfl
  · intro t m _ ih n c s r hn hc ht hs
    obtain ⟨k, rfl⟩ : ∃ k, n = k + 2 := ⟨n - 2, by simp at hn; omega⟩
    refine ⟨c :: s, ?_, hs⟩
    rw [List.cons_append, List.append_assoc]
    apply parseAny_obj hR
    exact ih k 123 .nil [] (c :: s) (by simp at hn; omega) ht treeOk_nil
  · -- last element
    intro w1 t w2 j hw1 hv hw2 ih n c acc s hn hs
    obtain ⟨k, rfl⟩ : ∃ k, n = k + 1 := ⟨n - 1, by omega⟩
    obtain ⟨a, u, hau, haw, ha93, ha125⟩ := val_head hR hv
    have e : (w1 ++ (t ++ w2)) ++ 0x5D :: s = w1 ++ (t ++ (w2 ++ 93 :: s)) := by simp
    obtain ⟨b, x, hbx, hb, hbt, hbs⟩ :=
      after_token (c := 93) hw2 (by simp [Follows]) (by decide) (s := s)
        (by simp [Term] at *; exact hs)
    obtain ⟨rest, hp, hrest⟩ := ih k b x _ (by simp at hn; omega) hb hbt hbs
    rw [arrayLoop_succ]
    simp only [List.drop_one, List.tail_cons]
    rw [e, skipWs_append hw1, hbx]
    have : skipWs (t ++ b :: x) = .ok (t ++ b :: x) := by
      rw [hau, List.cons_append, skipWs_stop haw]
    rw [this]
    simp only [Out.ok_bind]
    have : rd (t ++ b :: x) 0 = .ok a := by rw [hau]; rfl
    rw [this]
    simp only [Out.ok_bind]
    rw [if_neg ha93, hp]
    simp only [Out.ok_bind, hrest]
    simp [rd_cons_zero, Out.ok_bind, interpL]
  · intro w1 t w2 j ts l hw1 hv hw2 hl ih ihl n c acc s hn hs
    obtain ⟨k, rfl⟩ : ∃ k, n = k + 1 := ⟨n - 1, by omega⟩
    obtain ⟨a, u, hau, haw, ha93, ha125⟩ := val_head hR hv
    have e : (w1 ++ (t ++ (w2 ++ 0x2C :: ts))) ++ 0x5D :: s =
      w1 ++ (t ++ (w2 ++ 44 :: (ts ++ 93 :: s))) := by simp
    obtain ⟨b, x, hbx, hb, hbt, hbs⟩ :=
      after_token (c := 44) hw2 (by simp [Follows]) (by decide) (s := ts ++ 93 :: s)
        (by simp [Term] at *; exact .inr hs)
    obtain ⟨rest, hp, hrest⟩ := ih k b x _ (by simp at hn; omega) hb hbt hbs
    rw [arrayLoop_succ]
    simp only [List.drop_one, List.tail_cons]
    rw [e, skipWs_append hw1, hbx]
    have : skipWs (t ++ b :: x) = .ok (t ++ b :: x) := by
      rw [hau, List.cons_append, skipWs_stop haw]
    rw [this]
    simp only [Out.ok_bind]
    have : rd (t ++ b :: x) 0 = .ok a := by rw [hau]; rfl
    rw [this]
    simp only [Out.ok_bind]
    rw [if_neg ha93, hp]
    simp only [Out.ok_bind, hrest]
    have := ihl k 44 (acc ++ [interp val j]) s (by simp at hn; omega) hs
    simp [rd_cons_zero, Out.ok_bind, interpL, this]
  · intro w1 tn w2 w3 t w4 name j hw1 hname hw2 hw3 hv hw4 ih n c m order s hn hs hm
    obtain ⟨k, rfl⟩ : ∃ k, n = k + 1 := ⟨n - 1, by omega⟩
    obtain ⟨a, u, hau, haw, ha93, ha125⟩ := val_head hR hv
    obtain ⟨u', hu'⟩ := hname.head
    have e : (w1 ++ (tn ++ (w2 ++ 0x3A :: (w3 ++ (t ++ w4))))) ++ 0x7D :: s =
      w1 ++ (tn ++ (w2 ++ 58 :: (w3 ++ (t ++ (w4 ++ 125 :: s))))) := by simp
    obtain ⟨b, x, hbx, hb, hbt, hbs⟩ :=
      after_token (c := 125) hw4 (by simp [Follows]) (by decide) (s := s)
        (by simp [Term] at *; exact hs)
    obtain ⟨rest, hp, hrest⟩ := ih k b x _ (by simp at hn; omega) hb hbt hbs
    obtain ⟨hins, hm'⟩ := insertAccounted_ok hm order name (interp val j)
    rw [objectLoop_succ]
    simp only [List.drop_one, List.tail_cons]
    rw [e, skipWs_append hw1, hbx]
    have hsn : ∀ q, skipWs (tn ++ q) = .ok (tn ++ q) ∧ rd (tn ++ q) 0 = .ok 34 := by
      intro q; rw [hu', List.cons_append, skipWs_stop (by decide)]; exact ⟨rfl, rfl⟩
    rw [(hsn _).1]
    simp only [Out.ok_bind]
    rw [(hsn _).2]
    simp only [Out.ok_bind]
    rw [if_neg (by decide), parseString_complete _ _ _ hname
      (by simp only [Term, List.mem_append, List.mem_cons] at *; grind)]
    simp only [Out.ok_bind]
    rw [skipWs_append hw2, skipWs_stop (by decide)]
    simp only [Out.ok_bind, rd_cons_zero, List.drop_one, List.tail_cons]
    rw [if_neg (by decide), skipWs_append hw3]
    have : skipWs (t ++ b :: x) = .ok (t ++ b :: x) := by
      rw [hau, List.cons_append, skipWs_stop haw]
    rw [this]
    simp only [Out.ok_bind]
    rw [hp]
    simp only [Out.ok_bind, hrest, hins]
    simp [rd_cons_zero, Out.ok_bind, interpM, SynM.names]
  · intro w1 tn w2 w3 t w4 name j ts l hw1 hname hw2 hw3 hv hw4 hl ih ihl n c m order s hn hs hm
    obtain ⟨k, rfl⟩ : ∃ k, n = k + 1 := ⟨n - 1, by omega⟩
    obtain ⟨a, u, hau, haw, ha93, ha125⟩ := val_head hR hv
    obtain ⟨u', hu'⟩ := hname.head
    have e : (w1 ++ (tn ++ (w2 ++ 0x3A :: (w3 ++ (t ++ (w4 ++ 0x2C :: ts)))))) ++ 0x7D :: s =
      w1 ++ (tn ++ (w2 ++ 58 :: (w3 ++ (t ++ (w4 ++ 44 :: (ts ++ 125 :: s)))))) := by simp
    obtain ⟨b, x, hbx, hb, hbt, hbs⟩ :=
      after_token (c := 44) hw4 (by simp [Follows]) (by decide) (s := ts ++ 125 :: s)
        (by simp [Term] at *; exact .inr hs)
    obtain ⟨rest, hp, hrest⟩ := ih k b x _ (by simp at hn; omega) hb hbt hbs
    obtain ⟨hins, hm'⟩ := insertAccounted_ok hm order name (interp val j)
    rw [objectLoop_succ]
    simp only [List.drop_one, List.tail_cons]
    rw [e, skipWs_append hw1, hbx]
    have hsn : ∀ q, skipWs (tn ++ q) = .ok (tn ++ q) ∧ rd (tn ++ q) 0 = .ok 34 := by
      intro q; rw [hu', List.cons_append, skipWs_stop (by decide)]; exact ⟨rfl, rfl⟩
    rw [(hsn _).1]
    simp only [Out.ok_bind]
    rw [(hsn _).2]
    simp only [Out.ok_bind]
    rw [if_neg (by decide), parseString_complete _ _ _ hname
      (by simp only [Term, List.mem_append, List.mem_cons] at *; grind)]
    simp only [Out.ok_bind]
    rw [skipWs_append hw2, skipWs_stop (by decide)]
    simp only [Out.ok_bind, rd_cons_zero, List.drop_one, List.tail_cons]
    rw [if_neg (by decide), skipWs_append hw3]
    have : skipWs (t ++ b :: x) = .ok (t ++ b :: x) := by
      rw [hau, List.cons_append, skipWs_stop haw]
    rw [this]
    simp only [Out.ok_bind]
    rw [hp]
    simp only [Out.ok_bind, hrest, hins]
    have := ihl k 44 (addMember m name (interp val j)) (order ++ [name]) s (by simp at hn; omega) hs hm'
    simp [rd_cons_zero, Out.ok_bind, interpM, SynM.names, this]

/-- A failed parse: what was read, and the reported position. -/
structure Failure (numTok : Bytes → ν → Prop) (val : ν → D) (buf : Bytes) (res : RootResult D) : Prop where
  status : res.status ≠ .kOk
  code : GoodErr res.status ∨ res.status = .kExpectedEndOfFile
  root : res.root = none ∨ res.status = .kExpectedEndOfFile ∧ ∃ j, res.root = some (interp val j)
  position : ∃ w q w' c s, Ws w ∧ Ws w' ∧ buf = w ++ (q ++ (w' ++ c :: s)) ∧ (0 : Byte) ∉ q ∧
    isWs c = false ∧ (∃ a, q ++ (w' ++ c :: s) = a ∧ ∃ x r, a = x :: r ∧ isWs x = false) ∧
    res.errorLine = lineOf (q ++ w') ∧ res.errorColumn = colOf (q ++ w') ∧
    ∃ ext j, SynText numTok DialStr (w ++ (q ++ ext)) j

theorem parseRoot_unfold (R : Bytes → Out (PRes D)) (fuel : Nat) (buf : Bytes) (h3 : 3 ≤ buf.length)
    (hlast : buf.getLast? = some 0) : parseRoot R fuel buf =
      (skipWs buf >>= fun start =>
      parseAny R fuel start >>= fun r =>
      let (status, root, text) : Status × Option (Value D) × Bytes :=
        match r with
        | .ok rest v => (.kOk, some v, rest)
        | .err status pos => (status, none, pos)
      skipWs text >>= fun text =>
      rd text 0 >>= fun c =>
      let status := if status = .kOk ∧ c ≠ 0 then .kExpectedEndOfFile else status
      if status ≠ .kOk then
        let (line, column) := scanBack (start.take (start.length - text.length)).reverse 1 1
        .ok ⟨status, root, line, column⟩
      else .ok ⟨status, root, 0, 0⟩) := by
  unfold parseRoot
  rw [if_neg (by omega), (last_zero hlast).2]
  rfl

theorem root_total {R : Bytes → Out (PRes D)} (hR : ReaderOk R numTok val) (fuel : Nat) (buf : Bytes) (h3 : 3 ≤ buf.length)
    (hlast : buf.getLast? = some 0) (hf : parseFuel buf ≤ fuel) :
    (∃ j, SynText numTok DialStr (cstr buf) j ∧ parseRoot R fuel buf = .ok ⟨.kOk, some (interp val j), 0, 0⟩) ∨
    (∃ res, parseRoot R fuel buf = .ok res ∧ Failure numTok val buf res) := by
  have ht := (last_zero hlast).1
  rw [parseRoot_unfold R fuel buf h3 hlast]
  obtain ⟨w1, a, s, hw1, e1, ha, hs1⟩ := skipWs_total ht
  rw [hs1]
  simp only [Out.ok_bind]
  have hadv1 : Adv buf (a :: s) := ⟨w1, e1, hw1.nul_free⟩
  have hts := hadv1.term ht
  have hlen := hadv1.length_le
  have htake : ∀ p q : Bytes, a :: s = p ++ q → (a :: s).take ((a :: s).length - q.length) = p := by
    intro p q e
    rw [e]
    simp
  rcases any_total hR fuel (a :: s) hts (by unfold parseFuel at hf; omega) with
    ⟨tok, j, w2, rest, hv, hw2, e2, hr, hp⟩ | ⟨st, p, hp, hst, hadv, cv, ext, jv, ec, hvia⟩
  · rw [hp]
    obtain ⟨w3, c, u, hw3, e3, hc, hs3⟩ := skipWs_total hr
    simp only [Out.ok_bind, hs3, rd_cons_zero, true_and]
    have eall : a :: s = (tok ++ (w2 ++ w3)) ++ c :: u := by rw [e2, e3]; simp
    by_cases h0 : c = 0
    · subst h0
      left
      refine ⟨j, ?_, by simp⟩
      have hcs : cstr buf = w1 ++ (tok ++ (w2 ++ w3)) := by
        rw [e1, eall, ← List.append_assoc]
        apply cstr_append
        have h1 := val_nul_free hR hv
        have h2 := hw1.nul_free
        have h3 := hw2.nul_free
        have h4 := hw3.nul_free
        simp [h1, h2, h3, h4]
      rw [hcs]
      exact ⟨w1, tok, w2 ++ w3, hw1, hv, hw2.append hw3, rfl⟩
    · right
      rw [if_pos h0, if_pos (by decide), htake _ _ eall, scanBack_reverse]
      refine ⟨_, rfl, ⟨by simp, .inr rfl, .inr ⟨rfl, j, rfl⟩, w1, tok, w2 ++ w3, c, u, hw1, hw2.append hw3, ?_,
        val_nul_free hR hv, hc, ⟨_, rfl, a, s, ?_, ha⟩, by simp, by simp, [], j, ?_⟩⟩
      · rw [e1, eall]; simp
      · rw [eall]; simp
      · exact ⟨w1, tok, [], hw1, hv, Ws.nil, by simp⟩
  · rw [hp]
    obtain ⟨w3, c, u, hw3, e3, hc, hs3⟩ := skipWs_total (hadv.term hts)
    simp only [Out.ok_bind, hs3, rd_cons_zero]
    have eall : a :: s = (cv ++ w3) ++ c :: u := by rw [ec, e3]; simp
    right
    rw [if_neg (c := st = .kOk ∧ c ≠ 0) (fun h => hst.ne.1 h.1), if_pos hst.ne.1, htake _ _ eall, scanBack_reverse]
    refine ⟨_, rfl, ⟨hst.ne.1, .inl hst, .inl rfl, w1, cv, w3, c, u, hw1, hw3, ?_, ?_, hc, ⟨_, rfl, a, s, ?_, ha⟩,
      rfl, rfl, ext, jv, w1, cv ++ ext, [], hw1, hvia, Ws.nil, by simp⟩⟩
    · rw [e1, eall]; simp
    · obtain ⟨c', ec', h'⟩ := hadv
      have : cv = c' := List.append_cancel_right (ec.symm.trans ec')
      rw [this]; exact h'
    · rw [eall]; simp

theorem root_complete {R : Bytes → Out (PRes D)} (hR : ReaderOk R numTok val) (fuel : Nat) (buf : Bytes) (h3 : 3 ≤ buf.length)
    (hlast : buf.getLast? = some 0) (hf : parseFuel buf ≤ fuel) {j : Syn ν} (h : SynText numTok DialStr (cstr buf) j) :
    parseRoot R fuel buf = .ok ⟨.kOk, some (interp val j), 0, 0⟩ := by
  have ht := (last_zero hlast).1
  rw [parseRoot_unfold R fuel buf h3 hlast]
  obtain ⟨s, hb, h0⟩ := cstr_split ht
  obtain ⟨w1, tok, w2, hw1, hv, hw2, e⟩ := h
  have hlen := congrArg List.length hb
  rw [e] at hb hlen
  have hb' : buf = w1 ++ (tok ++ (w2 ++ 0 :: s)) := by rw [hb]; simp
  obtain ⟨c, u, hcu, hcn, hct, hcs⟩ :=
    after_token (c := 0) (s := s) hw2 (by simp [Follows]) (by decide) (by simp [Term])
  obtain ⟨rest, hp, hr⟩ := any_complete hR hv fuel c u _ (by
    unfold parseFuel at hf
    simp only [List.length_append] at hlen
    omega) hcn hct hcs
  obtain ⟨a, x, hax, haw, -⟩ := val_head hR hv
  rw [hb', skipWs_append hw1, hcu]
  have : skipWs (tok ++ c :: u) = .ok (tok ++ c :: u) := by
    rw [hax, List.cons_append, skipWs_stop haw]
  rw [this]
  simp only [Out.ok_bind, hp, hr, rd_cons_zero]
  simp

/-! ## Access to the parsed value -/

/-- Induction over a member list. -/
theorem jm_ind {P : SynM ν → Prop} (nil : P .nil) (cons : ∀ k j m, P m → P (.cons k j m)) : ∀ m, P m
  | .nil => nil
  | .cons k j m => cons k j m (jm_ind nil cons m)

/-- Induction over an element list. -/
theorem jl_ind {P : SynL ν → Prop} (nil : P .nil) (cons : ∀ j l, P l → P (.cons j l)) : ∀ l, P l
  | .nil => nil
  | .cons j l => cons j l (jl_ind nil cons l)

theorem mapInv_interpM (val : ν → D) (m : SynM ν) (t : Tree Bytes (Value D)) (A : AMap Bytes (Value D))
    (h : MapInv nameLt t A) :
    MapInv nameLt (interpM val m t) (fun k => (A k).or ((m.first k).map (interp val))) := by
  induction m using jm_ind generalizing t A with
  | nil =>
    simp only [interpM, SynM.first, Option.map_none, Option.or_none]; exact h
  | cons k j m ih =>
    simp only [interpM]
    obtain ⟨t', e, h'⟩ := mapInv_insert nameLt_strict h k (interp val j)
    have e' : addMember t k (interp val j) = t' := by unfold addMember; rw [e]
    rw [e']
    have := ih t' _ h'
    refine cast (congrArg _ ?_) this
    funext x
    simp only [AMap.insertNew, SynM.first]
    by_cases hx : x = k
    · subst hx
      cases hA : A x <;> simp
    · have : k ≠ x := fun e => hx e.symm
      simp [hx, this]

theorem mapInv_obj (val : ν → D) (m : SynM ν) :
    MapInv nameLt (interpM val m .nil) (fun k => (m.first k).map (interp val)) := by
  have := mapInv_interpM val m .nil _ (mapInv_empty nameLt)
  simpa [AMap.empty] using this

theorem find_interpM (val : ν → D) (m : SynM ν) (k : Bytes) :
    findMapElement nameLt k (interpM val m .nil) = (m.first k).map fun j => (k, interp val j) := by
  rw [mapInv_find nameLt_strict (mapInv_obj val m)]
  cases m.first k <;> rfl

theorem interpL_get (val : ν → D) (l : SynL ν) (i : Nat) : (interpL val l)[i]? = (l.get i).map (interp val) := by
  induction l using jl_ind generalizing i with
  | nil => rfl
  | cons j l ih =>
    cases i with
    | zero => rfl
    | succ i => simp [interpL, SynL.get, ih]

theorem interpL_length (val : ν → D) (l : SynL ν) : (interpL val l).length = l.length := by
  induction l using jl_ind with
  | nil => rfl
  | cons j l ih => simp [interpL, SynL.length, ih]

theorem step_interp (val : ν → D) (j : Syn ν) (s : Step) : step (interp val j) s = (j.step s).map (interp val) := by
  cases j <;> cases s <;> simp only [interp, step, Syn.step, Option.map_none]
  · exact interpL_get val _ _
  · rw [find_interpM]
    cases SynM.first _ _ <;> rfl

theorem walk_interp (val : ν → D) (j : Syn ν) (p : List Step) :
    walk (interp val j) p = (j.walk p).map (interp val) := by
  induction p generalizing j with
  | nil => rfl
  | cons s p ih =>
    simp only [walk, Syn.walk, step_interp]
    cases j.step s with
    | none => rfl
    | some j' => simpa using ih j'

theorem first_isSome (m : SynM ν) (k : Bytes) : (m.first k).isSome ↔ k ∈ m.names := by
  induction m using jm_ind with
  | nil => simp [SynM.first, SynM.names]
  | cons k' j m ih =>
    simp only [SynM.first, SynM.names, List.mem_cons]
    by_cases h : k' = k
    · subst h; simp
    · rw [if_neg h, ih]
      constructor
      · exact .inr
      · rintro (e | h') 
        · exact absurd e.symm h
        · exact h'

/-! ## The parser with the C library -/

theorem system_eq (N : NumOps D) (n : Nat) :
    (∀ t, parseAny (parseNumber N) n t = Parser.parseAny N n t) ∧
    (∀ t, parseArray (parseNumber N) n t = Parser.parseArray N n t) ∧
    (∀ t acc, arrayLoop (parseNumber N) n t acc = Parser.arrayLoop N n t acc) ∧
    (∀ t, parseObject (parseNumber N) n t = Parser.parseObject N n t) ∧
    (∀ t m o, objectLoop (parseNumber N) n t m o = Parser.objectLoop N n t m o) := by
  induction n with
  | zero => exact ⟨fun _ => rfl, fun _ => rfl, fun _ _ => rfl, fun _ => rfl, fun _ _ _ => rfl⟩
  | succ n ih =>
    obtain ⟨h1, h2, h3, h4, h5⟩ := ih
    refine ⟨fun t => ?_, fun t => ?_, fun t acc => ?_, fun t => ?_, fun t m o => ?_⟩
    · rw [parseAny_succ, Parser.parseAny_succ]; simp only [h2, h4]; rfl
    · rw [parseArray_succ, Parser.parseArray_succ]; simp only [h3]
    · rw [arrayLoop_succ, Parser.arrayLoop_succ]; simp only [h1, h3]; rfl
    · rw [parseObject_succ, Parser.parseObject_succ]; simp only [h5]
    · rw [objectLoop_succ, Parser.objectLoop_succ]; simp only [h1, h5]; rfl

/-- The parser of `Verif/Model/Parser.lean` is the instance with the reader that calls `strtod`. -/
theorem parseRoot_system (N : NumOps D) (fuel : Nat) (buf : Bytes) :
    parseRoot (parseNumber N) fuel buf = Parser.parseRoot N fuel buf := by
  unfold parseRoot Parser.parseRoot
  simp only [(system_eq N fuel).1]
  rfl

end Verif.ParserB
