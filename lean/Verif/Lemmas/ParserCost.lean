import Verif.Model.ParserCost
import Verif.Lemmas.Parser32
import Verif.Lemmas.MapIter

/-!
# The parser with steps: same results, bounded numbers of steps
-/

namespace Verif.ParserCost

open Verif Verif.Text Verif.Number Verif.Map Verif.Spec Verif.Parser

variable {D : Type}

/-- `x` has the outcome `o`, and if that is a result, it and the number of steps satisfy `P`. -/
def Meets {α : Type} (x : T α) (o : Out α) (P : α → Nat → Prop) : Prop :=
  match o with
  | .ok a => ∃ n, x.run = .ok (a, n) ∧ P a n
  | .ub => x.run = .ub
  | .fuel => x.run = .fuel

theorem meets_bind {α β : Type} {x : T α} {o : Out α} {P : α → Nat → Prop} {f : α → T β} {g : α → Out β} {Q : β → Nat → Prop}
    (h : Meets x o P) (hf : ∀ a m, o = .ok a → P a m → Meets (f a) (g a) fun b n => Q b (m + n)) : Meets (x >>= f) (o >>= g) Q := by
  cases o with
  | ub => simp only [Meets] at h; simp only [Out.ub_bind, Meets]; change (x.run >>= _) = _; rw [h]; rfl
  | fuel => simp only [Meets] at h; simp only [Out.fuel_bind, Meets]; change (x.run >>= _) = _; rw [h]; rfl
  | ok a =>
    obtain ⟨m, hx, hP⟩ := h
    have := hf a m rfl hP
    rw [Out.ok_bind]
    have e : (x >>= f).run = ((f a).run >>= fun (b, n) => .ok (b, m + n)) := by
      change (x.run >>= _) = _; rw [hx]; rfl
    unfold Meets at this ⊢
    cases hg : g a with
    | ub => rw [hg] at this; simp only at this ⊢; rw [e, this]; rfl
    | fuel => rw [hg] at this; simp only at this ⊢; rw [e, this]; rfl
    | ok b =>
      rw [hg] at this
      obtain ⟨n, h1, h2⟩ := this
      exact ⟨m + n, by rw [e, h1]; rfl, h2⟩

theorem meets_pure {α : Type} {a : α} {P : α → Nat → Prop} (h : P a 0) : Meets (pure a) (.ok a) P := ⟨0, rfl, h⟩

theorem meets_of {α : Type} {o : Out α} {k : Nat} {P : α → Nat → Prop} (h : ∀ a, o = .ok a → P a k) : Meets (T.of k o) o P := by
  cases o with
  | ub => rfl
  | fuel => rfl
  | ok a => exact ⟨k, rfl, h a rfl⟩

/-- A lifted outcome, then something. -/
theorem meets_of_bind {α β : Type} {o : Out α} {k : Nat} {f : α → T β} {g : α → Out β} {Q : β → Nat → Prop}
    (h : ∀ a, o = .ok a → Meets (f a) (g a) fun b n => Q b (k + n)) : Meets (T.of k o >>= f) (o >>= g) Q :=
  meets_bind (P := fun _ m => m = k) (meets_of fun _ _ => rfl) fun a m ho hm => by subst hm; exact h a ho

theorem meets_steps {β : Type} {k : Nat} {f : Unit → T β} {o : Out β} {Q : β → Nat → Prop}
    (h : Meets (f ()) o fun b n => Q b (k + n)) : Meets (steps k >>= f) o Q := by
  have := meets_of_bind (o := .ok ()) (k := k) (f := f) (g := fun _ => o) (Q := Q) fun _ _ => h
  exact this

theorem meets_ite {α : Type} {c : Prop} [Decidable c] {x y : T α} {o o' : Out α} {P : α → Nat → Prop}
    (h1 : c → Meets x o P) (h2 : ¬ c → Meets y o' P) : Meets (if c then x else y) (if c then o else o') P := by
  by_cases h : c
  · rw [if_pos h, if_pos h]; exact h1 h
  · rw [if_neg h, if_neg h]; exact h2 h

theorem Meets.mono {α : Type} {x : T α} {o : Out α} {P Q : α → Nat → Prop} (h : Meets x o P)
    (hi : ∀ a n, o = .ok a → P a n → Q a n) : Meets x o Q := by
  cases o with
  | ub => exact h
  | fuel => exact h
  | ok a => obtain ⟨n, h1, h2⟩ := h; exact ⟨n, h1, hi a n rfl h2⟩

theorem Meets.erase {α : Type} {x : T α} {o : Out α} {P : α → Nat → Prop} (h : Meets x o P) : x.erase = o := by
  unfold T.erase
  cases o with
  | ub => change x.run = _ at h; rw [h]; rfl
  | fuel => change x.run = _ at h; rw [h]; rfl
  | ok a => obtain ⟨n, h1, -⟩ := h; rw [h1]; rfl

theorem rd_pos {t : Bytes} {c : Byte} (h : rd t 0 = .ok c) : ∃ s, t = c :: s := by
  cases t with
  | nil => cases h
  | cons a s => cases h; exact ⟨s, rfl⟩

/-! ## Text functions -/

theorem skipWs_meets (t : Bytes) : Meets (skipWs t) (Parser.skipWs t) fun r n =>
    n + r.length = t.length + 1 ∧ 0 < r.length ∧ r.length ≤ t.length := by
  induction t with
  | nil => exact rfl
  | cons c t ih =>
    unfold skipWs Parser.skipWs
    refine meets_steps (meets_ite (fun _ => ih.mono ?_) fun _ => meets_pure ?_)
    · intro r n _ ⟨h1, h2⟩
      simp only [List.length_cons]
      omega
    · simp only [List.length_cons]
      omega

theorem spanFloat_meets (t : Bytes) : Meets (spanFloat t) (Parser.spanFloat t) fun r n =>
    n = r.1.length + 1 ∧ r.1.length + r.2.length = t.length ∧ 0 < r.2.length ∧
      ∀ c s, t = c :: s → isFloatChar c = false → r.1 = [] := by
  induction t with
  | nil => exact rfl
  | cons c t ih =>
    unfold spanFloat Parser.spanFloat
    refine meets_steps (meets_ite (fun hc => meets_bind ih ?_) fun _ => meets_pure ?_)
    · rintro ⟨run, rest⟩ m _ ⟨h1, h2, h3, -⟩
      refine meets_pure ?_
      simp only [List.length_cons] at *
      refine ⟨by omega, by omega, h3, ?_⟩
      intro c' s e h
      cases e
      rw [h] at hc
      simp at hc
    · simp

/-- Statuses of errors in values. -/
def Inner (st : Status) : Prop := st ≠ .kExpectedOpeningSquareBrackets ∧ st ≠ .kExpectedOpeningCurlyBraces

theorem validate_length {t : Bytes} {n : Nat} (h : validateUnicodeChar t = .ok n) : n ≤ 4 := Parser32.validate_le h

theorem measure_meets (k : Nat) : ∀ (t : Bytes) (tl c : Nat), Meets (measureString k t tl c) (Parser.measureString k t tl c) fun r n =>
    n ≤ 6 * (r.2.1 - tl) + 6 ∧ tl ≤ r.2.1 ∧ r.2.1 - tl + 1 ≤ t.length ∧ Inner r.1 ∧ r.1 ≠ .kExpectedBeginingDoubleQuotes := by
  induction k with
  | zero => intro t tl c; exact rfl
  | succ k ih =>
    intro t tl c
    unfold measureString Parser.measureString
    refine meets_steps (meets_of_bind fun b hb => ?_)
    obtain ⟨s, rfl⟩ := rd_pos hb
    refine meets_ite (fun _ => meets_pure ?_) fun _ => meets_ite (fun _ => meets_pure ?_) fun _ => meets_ite (fun _ => meets_pure ?_) fun _ =>
      meets_ite (fun _ => meets_of_bind fun len hlen => ?_) fun _ => meets_of_bind fun ⟨a, b⟩ hab => ?_
    · simp [Inner]
    · simp [Inner]
    · simp [Inner]
    · refine meets_ite (fun _ => meets_pure (by simp [Inner])) fun h0 => (ih _ _ _).mono ?_
      intro r n _ ⟨h1, h2, h3, h4⟩
      rw [List.length_drop] at h3
      exact ⟨by omega, by omega, by omega, h4⟩
    · refine meets_ite (fun _ => meets_pure (by simp [Inner])) fun h0 => (ih _ _ _).mono ?_
      intro r n _ ⟨h1, h2, h3, h4⟩
      rw [List.length_drop] at h3
      exact ⟨by omega, by omega, by omega, h4⟩

theorem write_meets (k : Nat) : ∀ (t : Bytes) (tl : Nat) (out : Bytes), Meets (writeString k t tl out) (Parser.writeString k t tl out) fun r n =>
    n ≤ 6 * (r.2.1 - tl) + 6 ∧ tl ≤ r.2.1 ∧ r.2.1 - tl + 1 ≤ t.length := by
  induction k with
  | zero => intro t tl c; exact rfl
  | succ k ih =>
    intro t tl out
    unfold writeString Parser.writeString
    refine meets_steps (meets_of_bind fun b hb => ?_)
    obtain ⟨s, rfl⟩ := rd_pos hb
    refine meets_ite (fun _ => meets_pure ?_) fun _ => meets_ite (fun _ => meets_pure ?_) fun _ => meets_ite (fun _ => meets_pure ?_) fun _ =>
      meets_ite (fun _ => meets_of_bind fun len hlen => ?_) fun _ => meets_of_bind fun ⟨a, b⟩ hab => ?_
    · simp
    · simp
    · simp
    · refine meets_ite (fun _ => meets_pure (by simp)) fun h0 => meets_ite (fun _ => rfl) fun _ => (ih _ _ _).mono ?_
      intro r n _ ⟨h1, h2, h3⟩
      rw [List.length_drop] at h3
      exact ⟨by omega, by omega, by omega⟩
    · refine meets_ite (fun _ => meets_pure (by simp)) fun h0 => (ih _ _ _).mono ?_
      intro r n _ ⟨h1, h2, h3⟩
      rw [List.length_drop] at h3
      exact ⟨by omega, by omega, by omega⟩

theorem escape_same {t : Bytes} {a b a' : Nat} {bs : Bytes} (h : escapeMeasure t = .ok (a, b)) (h' : escapeWrite t = .ok (a', bs)) : a = a' := by
  unfold escapeMeasure at h
  unfold escapeWrite at h'
  rw [Out.bind_eq_ok] at h h'
  obtain ⟨c, hc, h⟩ := h
  obtain ⟨c', hc', h'⟩ := h'
  rw [hc] at hc'
  cases hc'
  by_cases h117 : c = 117
  · rw [if_pos h117, Out.bind_eq_ok] at h h'
    obtain ⟨x, hx, h⟩ := h
    obtain ⟨x', hx', h'⟩ := h'
    rw [hx] at hx'
    cases hx'
    cases x with
    | none => cases h; cases h'; rfl
    | some code =>
      dsimp only at h h'
      by_cases h0 : code ≠ 0
      · rw [if_pos h0] at h h'; cases h; cases h'; rfl
      · rw [if_neg h0] at h h'; cases h; cases h'; rfl
  · rw [if_neg h117] at h h'
    cases hr : readEscapeChar c with
    | none => rw [hr] at h h'; cases h; cases h'; rfl
    | some v => rw [hr] at h h'; cases h; cases h'; rfl

theorem passes_same (k : Nat) : ∀ (t : Bytes) (tl c : Nat) (out : Bytes) (r : Status × Nat × Nat) (r' : Status × Nat × Bytes),
    Parser.measureString k t tl c = .ok r → Parser.writeString k t tl out = .ok r' → r.1 = r'.1 ∧ r.2.1 = r'.2.1 := by
  induction k with
  | zero => intro t tl c out r r' h; cases h
  | succ k ih =>
    intro t tl c out r r' h h'
    unfold Parser.measureString at h
    unfold Parser.writeString at h'
    rw [Out.bind_eq_ok] at h h'
    obtain ⟨b, hb, h⟩ := h
    obtain ⟨b', hb', h'⟩ := h'
    rw [hb] at hb'
    cases hb'
    by_cases h0 : b = 0
    · rw [if_pos h0] at h h'; cases h; cases h'; exact ⟨rfl, rfl⟩
    rw [if_neg h0] at h h'
    by_cases h34 : b = 34
    · rw [if_pos h34] at h h'; cases h; cases h'; exact ⟨rfl, rfl⟩
    rw [if_neg h34] at h h'
    by_cases h32 : b.toNat < 32 ∨ b = 127
    · rw [if_pos h32] at h h'; cases h; cases h'; exact ⟨rfl, rfl⟩
    rw [if_neg h32] at h h'
    by_cases h92 : b ≠ 92
    · rw [if_pos h92, Out.bind_eq_ok] at h h'
      obtain ⟨l, hl, h⟩ := h
      obtain ⟨l', hl', h'⟩ := h'
      rw [hl] at hl'
      cases hl'
      by_cases hz : l = 0
      · rw [if_pos hz] at h h'; cases h; cases h'; exact ⟨rfl, rfl⟩
      rw [if_neg hz] at h h'
      split at h'
      · cases h'
      exact ih _ _ _ _ _ _ h h'
    · rw [if_neg h92, Out.bind_eq_ok] at h h'
      obtain ⟨⟨a, b⟩, hl, h⟩ := h
      obtain ⟨⟨a', bs⟩, hl', h'⟩ := h'
      have := escape_same hl hl'
      subst this
      dsimp only at h h'
      by_cases hz : a = 0
      · rw [if_pos hz] at h h'; cases h; cases h'; exact ⟨rfl, rfl⟩
      rw [if_neg hz] at h h'
      exact ih _ _ _ _ _ _ h h'

/-- Steps of `StringValue::Parse`. -/
def StrCost (t : Bytes) (r : PRes Bytes) (n : Nat) : Prop :=
  match r with
  | .ok rest s => s.length + 2 + rest.length ≤ t.length ∧ n + 12 * rest.length ≤ 12 * t.length ∧ ∃ u, t = 34 :: u
  | .err st pos => n ≤ 12 * t.length + 2 ∧ Inner st ∧ pos.length ≤ t.length ∧
      (st = .kExpectedBeginingDoubleQuotes → n ≤ 1 ∧ ∀ u, t ≠ 34 :: u)

theorem parseString_meets (t : Bytes) : Meets (parseString t) (Parser.parseString t) (StrCost t) := by
  unfold parseString Parser.parseString
  refine meets_steps (meets_of_bind fun c hc => ?_)
  obtain ⟨s, rfl⟩ := rd_pos hc
  refine meets_ite (fun h => meets_pure ?_) fun h34 => ?_
  · refine ⟨by omega, by simp [Inner], by omega, fun _ => ⟨by omega, ?_⟩⟩
    intro u e
    cases e
    exact h rfl
  · have h34 : c = 34 := Classical.not_not.1 h34
    subst h34
    simp only [List.drop_one, List.tail_cons]
    refine meets_bind (measure_meets _ _ _ _) ?_
    rintro ⟨st, tl, cnt⟩ m hm ⟨h1, h2, h3, h4, h5⟩
    dsimp only at *
    refine meets_ite (fun h => meets_pure ?_) fun hst => meets_steps (meets_bind (write_meets _ _ _ _) ?_)
    · exact ⟨by simp only [List.length_cons]; omega, h4, by simp, fun e => absurd e h5⟩
    · rintro ⟨st', tl', out⟩ m' hw ⟨h1', h2', h3'⟩
      obtain ⟨e1, e2⟩ := passes_same _ _ _ _ _ _ _ hm hw
      dsimp only at *
      subst e1 e2
      have hk : st = .kOk := Classical.not_not.1 hst
      subst hk
      have hmb := Parser32.measure_bound _ _ _ _ _ _ (Nat.le_refl _) hm
      refine meets_ite (fun _ => rfl) fun hout => meets_of_bind fun b hb => ?_
      have hout : out.length = cnt := Classical.not_not.1 hout
      simp only [if_true] at hb ⊢
      obtain ⟨u, hu⟩ := rd_pos hb
      have hl := congrArg List.length hu
      rw [List.length_drop, List.length_cons] at hl
      refine meets_ite (fun _ => meets_pure ?_) fun _ => meets_pure ?_
      · refine ⟨?_, by simp [Inner], ?_, by simp⟩
        · simp only [List.length_cons]; omega
        · rw [List.length_drop]; simp only [List.length_cons]; omega
      · refine ⟨?_, ?_, s, rfl⟩
        · simp only [hu, List.length_cons, List.tail_cons]
          omega
        · simp only [hu, List.length_cons, List.tail_cons]
          omega

/-! ## Numbers -/

/-- No byte with which `NumberValue::Parse` goes on. -/
def Quiet (c : Byte) : Prop := c ≠ 45 ∧ c ≠ 43 ∧ isFloatChar c = false

theorem parseSign_meets (t : Bytes) : Meets (parseSign t) (Parser.parseSign t) fun r n =>
    n + r.2.length ≤ t.length + 1 ∧ r.2.length ≤ t.length ∧ ∀ c s, t = c :: s → Quiet c → n = 1 ∧ r.2 = t := by
  unfold parseSign Parser.parseSign
  refine meets_steps (meets_of_bind fun c hc => ?_)
  obtain ⟨s, rfl⟩ := rd_pos hc
  simp only [List.drop_one, List.tail_cons]
  refine meets_ite (fun h => meets_bind (skipWs_meets _) ?_) fun _ => meets_ite (fun h => meets_bind (skipWs_meets _) ?_) fun _ => meets_pure ?_
  · intro r m _ ⟨h1, h2⟩
    refine meets_pure ⟨?_, ?_, ?_⟩
    · simp only [List.length_cons]; omega
    · simp only [List.length_cons]; omega
    · intro c' s' e hq
      cases e
      exact absurd h hq.1
  · intro r m _ ⟨h1, h2⟩
    refine meets_pure ⟨?_, ?_, ?_⟩
    · simp only [List.length_cons]; omega
    · simp only [List.length_cons]; omega
    · intro c' s' e hq
      cases e
      exact absurd h hq.2.1
  · refine ⟨?_, ?_, ?_⟩
    · simp only [List.length_cons]; omega
    · simp only [List.length_cons]; omega
    · intro c' s' e hq
      exact ⟨rfl, rfl⟩

theorem readDouble_meets (N : NumOps D) (t : Bytes) : Meets (readDoubleLiteral N t) (Parser.readDoubleLiteral N t) fun r n =>
    (match r with
      | .inl st => n ≤ 3 * t.length + 3 ∧ Inner st
      | .inr (_, rest) => rest.length < t.length ∧ n + 3 * rest.length ≤ 3 * t.length + 3 ∧ 0 < rest.length) ∧
    ∀ c s, t = c :: s → Quiet c → n ≤ 2 := by
  unfold readDoubleLiteral Parser.readDoubleLiteral
  refine meets_steps (meets_bind (spanFloat_meets _) ?_)
  rintro ⟨run, rest⟩ m _ ⟨h1, h2, h3, h4⟩
  dsimp only at *
  refine meets_ite (fun h => meets_pure ?_) fun h0 => meets_of_bind fun lz _ => meets_ite (fun _ => meets_pure ?_) fun _ => meets_steps ?_
  · exact ⟨⟨by omega, by simp [Inner]⟩, fun _ _ _ _ => by omega⟩
  · refine ⟨⟨by omega, by simp [Inner]⟩, fun c s e hq => ?_⟩
    rw [h4 c s e hq.2.2] at h0
    exact absurd rfl h0
  · cases strtod N run with
    | none =>
      refine meets_pure ⟨⟨by omega, by simp [Inner]⟩, fun c s e hq => ?_⟩
      rw [h4 c s e hq.2.2] at h0
      exact absurd rfl h0
    | some v =>
      refine meets_pure ⟨⟨by omega, by omega, h3⟩, fun c s e hq => ?_⟩
      rw [h4 c s e hq.2.2] at h0
      exact absurd rfl h0

/-- Steps of `NumberValue::Parse`. -/
def NumCost (t : Bytes) (r : PRes D) (n : Nat) : Prop :=
  (match r with
    | .ok rest _ => rest.length < t.length ∧ n + 4 * rest.length ≤ 4 * t.length + 8
    | .err st pos => n ≤ 4 * t.length + 8 ∧ Inner st ∧ pos.length ≤ t.length) ∧
  ∀ c s, t = c :: s → Quiet c → n ≤ 4 ∧ ∀ rest d, r ≠ .ok rest d

theorem parseNumber_meets (N : NumOps D) (t : Bytes) : Meets (parseNumber N t) (Parser.parseNumber N t) (NumCost t) := by
  unfold parseNumber Parser.parseNumber
  refine meets_steps (meets_bind (parseSign_meets _) ?_)
  rintro ⟨neg, t1⟩ m _ ⟨h1, h2, h3⟩
  refine meets_bind (readDouble_meets N _) ?_
  rintro r m' hr ⟨h4, h5⟩
  cases r with
  | inl st =>
    obtain ⟨h4, h6⟩ := h4
    refine meets_pure ⟨⟨?_, h6, h2⟩, ?_⟩
    · simp only at *; omega
    · intro c s e hq
      obtain ⟨a, b⟩ := h3 c s e hq
      dsimp only at b
      have := h5 c s (by rw [b, e]) hq
      exact ⟨by omega, by simp⟩
  | inr p =>
    obtain ⟨v, rest⟩ := p
    obtain ⟨h6, h7, h8⟩ := h4
    refine meets_bind (skipWs_meets _) ?_
    intro rest' m'' hs ⟨h9, h10⟩
    refine meets_pure ⟨⟨?_, ?_⟩, ?_⟩
    · simp only at *; omega
    · simp only at *; omega
    · intro c s e hq
      exfalso
      obtain ⟨a, b⟩ := h3 c s e hq
      dsimp only at b
      subst b
      rw [e] at hr
      unfold Parser.readDoubleLiteral Parser.spanFloat at hr
      rw [if_neg (by rw [hq.2.2]; simp)] at hr
      cases hr

/-! ## Words -/

theorem parseBool_cost {t rest : Bytes} {b : Bool} (h : parseBool t = .ok (.ok rest b)) : ∃ c s, t = c :: s ∧ Quiet c ∧ rest.length ≤ s.length := by
  unfold parseBool at h
  rw [Out.bind_eq_ok] at h
  obtain ⟨m, hm, h⟩ := h
  cases t with
  | nil => cases hm
  | cons c s =>
    refine ⟨c, s, rfl, ?_⟩
    cases m with
    | true =>
      rw [matchWord] at hm
      by_cases hc : c = 116
      · subst hc; cases h; exact ⟨⟨by decide, by decide, by decide⟩, by simp⟩
      · rw [if_neg hc] at hm; cases hm
    | false =>
      rw [if_neg (by decide), Out.bind_eq_ok] at h
      obtain ⟨m, hm', h⟩ := h
      cases m with
      | false => cases h
      | true =>
        rw [matchWord] at hm'
        by_cases hc : c = 102
        · subst hc; cases h; exact ⟨⟨by decide, by decide, by decide⟩, by simp⟩
        · rw [if_neg hc] at hm'; cases hm'

theorem parseNull_cost {t rest : Bytes} {b : Unit} (h : parseNull t = .ok (.ok rest b)) : ∃ c s, t = c :: s ∧ Quiet c ∧ rest.length ≤ s.length := by
  unfold parseNull at h
  rw [Out.bind_eq_ok] at h
  obtain ⟨m, hm, h⟩ := h
  cases t with
  | nil => cases hm
  | cons c s =>
    refine ⟨c, s, rfl, ?_⟩
    cases m with
    | true =>
      rw [matchWord] at hm
      by_cases hc : c = 110
      · subst hc; cases h; exact ⟨⟨by decide, by decide, by decide⟩, by simp⟩
      · rw [if_neg hc] at hm; cases hm
    | false => cases h

/-! ## Containers -/

theorem append_meets {count reserved : Nat} (h : count ≤ reserved) : Meets (append count reserved) (.ok (if count ≥ reserved then
    newReserved reserved (count + 1) else reserved)) fun r n => n + (3 * (count + 1) - 2 * r) ≤ (3 * count - 2 * reserved) + 5 ∧ count + 1 ≤ r := by
  unfold append
  refine meets_steps ?_
  by_cases hc : count ≥ reserved
  · rw [if_pos hc, if_pos hc]
    refine meets_steps (meets_pure ?_)
    unfold newReserved
    have := Nat.le_max_left (max (count + 1) 4) (reserved + max ((reserved / 2 + 3) / 4 * 4) 4)
    have := Nat.le_max_right (max (count + 1) 4) (reserved + max ((reserved / 2 + 3) / 4 * 4) 4)
    have := Nat.le_max_left (count + 1) 4
    have := Nat.le_max_left ((reserved / 2 + 3) / 4 * 4) 4
    generalize max (max (count + 1) 4) (reserved + max ((reserved / 2 + 3) / 4 * 4) 4) = r at *
    omega
  · rw [if_neg hc, if_neg hc]
    exact meets_pure ⟨by omega, by omega⟩

/-- An append whose result is not used by the parser without steps. -/
theorem append_bind {β : Type} {count reserved : Nat} {f : Nat → T β} {o : Out β} {Q : β → Nat → Prop} (h : count ≤ reserved)
    (hf : ∀ r m, m + (3 * (count + 1) - 2 * r) ≤ (3 * count - 2 * reserved) + 5 → count + 1 ≤ r → Meets (f r) o fun b n => Q b (m + n)) :
    Meets (append count reserved >>= f) o Q :=
  meets_bind (g := fun _ => o) (append_meets h) fun r m _ hm => hf r m hm.1 hm.2

theorem nameLt_meets (a b : Bytes) : Meets (nameLt a b) (.ok (Text.nameLt a b)) fun _ n => n ≤ a.length + 1 ∧ n ≤ b.length + 1 := by
  induction a generalizing b with
  | nil => cases b <;> exact meets_steps (meets_pure (by simp))
  | cons x a ih =>
    cases b with
    | nil => exact meets_steps (meets_pure (by simp))
    | cons y b =>
      rw [nameLt, Text.nameLt]
      refine meets_steps ?_
      by_cases h : x = y
      · rw [if_pos h, if_pos h]
        refine (ih b).mono ?_
        intro r n _ ⟨h1, h2⟩
        simp only [List.length_cons]
        omega
      · rw [if_neg h, if_neg h]
        exact meets_pure (by simp)

theorem descend_meets {α : Type} (k : Bytes) (t : Tree Bytes α) (p : Path Bytes α) :
    Meets (descend k t p) (.ok (Map.descend Text.nameLt k t p)) fun r n =>
      n ≤ height t * (2 * (k.length + 1) + 1) ∧ ∀ q, r = some q → q.length ≤ p.length + height t := by
  induction t generalizing p with
  | nil => exact meets_pure (by simp [height])
  | node b l nk nv r ihl ihr =>
    rw [descend, Map.descend]
    refine meets_steps (meets_bind (g := fun b => .ok _) (nameLt_meets k nk) ?_)
    rintro less m hl ⟨h1, -⟩
    cases hl
    have hle : height l * (2 * (k.length + 1) + 1) ≤ max (height l) (height r) * (2 * (k.length + 1) + 1) := Nat.mul_le_mul_right _ (by omega)
    have hre : height r * (2 * (k.length + 1) + 1) ≤ max (height l) (height r) * (2 * (k.length + 1) + 1) := Nat.mul_le_mul_right _ (by omega)
    have he : height (.node b l nk nv r) * (2 * (k.length + 1) + 1) =
        max (height l) (height r) * (2 * (k.length + 1) + 1) + (2 * (k.length + 1) + 1) := by
      rw [height, Nat.add_comm, Nat.succ_mul]
    have hh : height (.node b l nk nv r) = 1 + max (height l) (height r) := rfl
    by_cases h : Text.nameLt k nk = true
    · rw [if_pos h, if_pos h]
      refine (ihl _).mono ?_
      intro q n _ ⟨h2, h3⟩
      refine ⟨by omega, fun q' e => ?_⟩
      have := h3 q' e
      rw [List.length_cons] at this
      omega
    · rw [if_neg h, if_neg h]
      refine meets_bind (g := fun b => .ok _) (nameLt_meets nk k) ?_
      rintro more m' hm ⟨-, h4⟩
      cases hm
      by_cases h' : Text.nameLt nk k = true
      · rw [if_pos h', if_pos h']
        refine (ihr _).mono ?_
        intro q n _ ⟨h2, h3⟩
        refine ⟨by omega, fun q' e => ?_⟩
        have := h3 q' e
        rw [List.length_cons] at this
        omega
      · rw [if_neg h', if_neg h']
        refine meets_pure ⟨by omega, by simp⟩

theorem climbSteps_le {α : Type} (p : Path Bytes α) : ∀ (d : Dir) (t : Tree Bytes α), climbSteps d p t ≤ p.length := by
  induction p with
  | nil => intro d t; simp [climbSteps]
  | cons f p ih =>
    intro d t
    obtain ⟨fd, fb, fk, fv, fs⟩ := f
    rw [List.length_cons]
    cases fd <;> simp only [climbSteps]
    · split
      · omega
      split
      · omega
      exact Nat.succ_le_succ (ih _ _)
    · split
      · omega
      split
      · omega
      exact Nat.succ_le_succ (ih _ _)

theorem insert_meets {α : Type} (t : Tree Bytes α) (k : Bytes) (v : α) :
    Meets (insertMapElement t k v) (.ok (Map.insertMapElement Text.nameLt t k v)) fun _ n => n ≤ 2 * (height t * (k.length + 2)) + 1 := by
  unfold insertMapElement Map.insertMapElement
  refine meets_bind (g := fun b => .ok _) (descend_meets k t []) ?_
  intro q m hq ⟨h1, h2⟩
  cases hq
  have e : height t * (2 * (k.length + 1) + 1) + height t = 2 * (height t * (k.length + 2)) := by
    rw [← Nat.mul_succ, Nat.mul_left_comm]
    rfl
  cases hd : Map.descend Text.nameLt k t [] with
  | none => exact meets_pure (by omega)
  | some p =>
    cases p with
    | nil => exact meets_pure (by omega)
    | cons f p =>
      have := h2 _ hd
      simp only [List.length_cons, List.length_nil] at this
      refine meets_bind (o := .ok (Map.insertSubnode f p k v)) (g := fun r => .ok (r.map fun t' => (true, t'))) (P := fun _ n => n ≤ 1 + p.length) ?_ ?_
      · obtain ⟨fd, fb, fk, fv, fs⟩ := f
        cases fd
        · simp only [insertSubnode, Map.insertSubnode]
          refine meets_steps ?_
          by_cases hb : fb - 1 ≠ 0
          · rw [if_pos hb, if_pos hb]
            exact meets_of fun _ _ => by have := climbSteps_le p .L (plug1 ⟨.L, fb - 1, fk, fv, fs⟩ (.node 0 .nil k v .nil)); omega
          · rw [if_neg hb, if_neg hb]
            exact meets_pure (by omega)
        · simp only [insertSubnode, Map.insertSubnode]
          refine meets_steps ?_
          by_cases hb : fb + 1 ≠ 0
          · rw [if_pos hb, if_pos hb]
            exact meets_of fun _ _ => by have := climbSteps_le p .R (plug1 ⟨.R, fb + 1, fk, fv, fs⟩ (.node 0 .nil k v .nil)); omega
          · rw [if_neg hb, if_neg hb]
            exact meets_pure (by omega)
      · intro r n _ hn
        exact meets_pure (by omega)

theorem insertAccounted_meets (m : Tree Bytes (Value D)) (order : List Bytes) (name : Bytes) (v : Value D) :
    Meets (insertAccounted m order name v) (Parser.insertAccounted m order name v) fun _ n =>
      n ≤ 2 * (name.length + 1) + 2 * (height m * (name.length + 2)) + 1 := by
  unfold insertAccounted Parser.insertAccounted
  refine meets_steps ?_
  have := meets_bind (f := fun (r : Option (Bool × Tree Bytes (Value D))) => match r with
      | none => T.of 0 .ub
      | some (_, m') => (pure (m', order ++ [name]) : T (Tree Bytes (Value D) × List Bytes)))
    (g := fun r => match r with
      | none => .ub
      | some (_, m') => .ok (m', order ++ [name]))
    (Q := fun _ n => 2 * (name.length + 1) + n ≤ 2 * (name.length + 1) + 2 * (height m * (name.length + 2)) + 1) (insert_meets m name v) ?_
  · rw [Out.ok_bind] at this
    exact this
  · intro r n _ hn
    cases r with
    | none => exact rfl
    | some x => exact meets_pure (by omega)

theorem insert_size {m m' : Tree Bytes (Value D)} {order order' : List Bytes} {name : Bytes} {v : Value D} (hm : TreeOk m)
    (h : Parser.insertAccounted m order name v = .ok (m', order')) : TreeOk m' ∧ size m' ≤ size m + 1 ∧ order' = order ++ [name] := by
  have h1 := insertAccounted_ok hm order name v
  rw [h1.1] at h
  cases h
  refine ⟨h1.2, ?_, rfl⟩
  obtain ⟨A, hA⟩ := hm
  unfold addMember
  rcases insert_spec nameLt_strict m name v hA.bal hA.sorted with ⟨-, e⟩ | ⟨-, t', a, c, e, -, e1, e2, -⟩
  · rw [e]; simp
  · rw [e]
    simp only [size_eq, e1, e2, List.length_append, List.length_cons]
    omega

/-! ## Values -/

theorem pot {W a b : Nat} (hW : 60 ≤ W) (h : b ≤ a) : W * b + 60 * (a - b) ≤ W * a := by
  have h1 : W * b + W * (a - b) = W * a := by rw [← Nat.mul_add]; congr 1; omega
  have h2 : 60 * (a - b) ≤ W * (a - b) := Nat.mul_le_mul_right _ hW
  omega

theorem pot2 {W a b c : Nat} (hW : 60 ≤ W) (h : c + b ≤ a) : W * b + W * c + 60 * (a - b - c) ≤ W * a := by
  have h1 : W * b + W * c = W * (b + c) := by rw [← Nat.mul_add]
  have h2 := pot (a := a) (b := b + c) hW (by omega)
  omega

/-- Steps of `ParseAnyValue`: `W` for each byte read. -/
def AnyCost (W : Nat) (t : Bytes) (r : PRes (Value D)) (n : Nat) : Prop :=
  match r with
  | .ok rest _ => rest.length < t.length ∧ n + W * rest.length ≤ W * t.length
  | .err st pos => n ≤ W * t.length ∧ Inner st ∧ pos.length ≤ t.length

/-- Steps of the loops, with `l` bytes after the bracket or comma, and `φ` for the elements in the array. -/
def LoopCost (W l φ : Nat) (r : PRes (Value D)) (n : Nat) : Prop :=
  match r with
  | .ok rest _ => rest.length ≤ l ∧ n + W * rest.length ≤ W * l + φ
  | .err st pos => n ≤ W * l + φ + 20 ∧ Inner st ∧ pos.length ≤ l

/-- Steps of `ArrayValue::Parse` and `ObjectValue::Parse`. -/
def HeadCost (W : Nat) (b : Byte) (miss : Status) (t : Bytes) (r : PRes (Value D)) (n : Nat) : Prop :=
  (∃ s k, t = b :: s ∧ n = k + 1 ∧ LoopCost W s.length 0 r k) ∨ ((∀ s, t ≠ b :: s) ∧ r = .err miss t ∧ n ≤ 1)

set_option maxHeartbeats 1600000 in
theorem all_meets (N : NumOps D) {W hb L : Nat} (hW : 60 ≤ W) (hW' : ∀ l, 2 * (hb * (l + 2)) + 60 * (l + 2) ≤ W * (l + 2))
    (hh : ∀ m : Tree Bytes (Value D), TreeOk m → size m ≤ L → height m ≤ hb) (n : Nat) :
    (∀ t : Bytes, t.length ≤ L → Meets (parseAny N n t) (Parser.parseAny N n t) (AnyCost W t)) ∧
    (∀ t : Bytes, t.length ≤ L → Meets (parseArray N n t) (Parser.parseArray N n t) (HeadCost W 91 .kExpectedOpeningSquareBrackets t)) ∧
    (∀ (c : Byte) (t : Bytes) acc reserved, acc.length ≤ reserved → t.length ≤ L →
      Meets (arrayLoop N n (c :: t) acc reserved) (Parser.arrayLoop N n (c :: t) acc) (LoopCost W t.length (3 * acc.length - 2 * reserved))) ∧
    (∀ t : Bytes, t.length ≤ L → Meets (parseObject N n t) (Parser.parseObject N n t) (HeadCost W 123 .kExpectedOpeningCurlyBraces t)) ∧
    (∀ (c : Byte) (t : Bytes) m order reserved, order.length ≤ reserved → order.length + t.length ≤ L → TreeOk m → size m ≤ order.length →
      Meets (objectLoop N n (c :: t) m order reserved) (Parser.objectLoop N n (c :: t) m order)
        (LoopCost W t.length (3 * order.length - 2 * reserved))) := by
  induction n with
  | zero => exact ⟨fun _ _ => rfl, fun _ _ => rfl, fun _ _ _ _ _ _ => rfl, fun _ _ => rfl, fun _ _ _ _ _ _ _ _ _ => rfl⟩
  | succ n ih =>
    obtain ⟨ihAny, ihArr, ihAL, ihObj, ihOL⟩ := ih
    refine ⟨?_, ?_, ?_, ?_, ?_⟩
    · intro t ht
      rw [parseAny, Parser.parseAny]
      refine meets_steps (meets_bind (parseString_meets t) ?_)
      intro r m1 hr1 h1
      cases r with
      | ok rest s =>
        obtain ⟨a1, a2, a3⟩ := h1
        have := pot hW (Nat.le_of_lt (show rest.length < t.length by omega))
        refine meets_pure ⟨by omega, by omega⟩
      | err st pos =>
        obtain ⟨a1, a2, a3, a4⟩ := h1
        dsimp only
        have hp := pot (a := t.length) (b := 0) hW (by omega)
        refine meets_ite (fun h => meets_pure ⟨?_, a2, a3⟩) fun hst => meets_bind (parseNumber_meets N t) ?_
        · have : 0 < t.length := by
            cases t with
            | nil => cases hr1
            | cons => simp
          omega
        · have hst : st = .kExpectedBeginingDoubleQuotes := Classical.not_not.1 hst
          obtain ⟨a4, -⟩ := a4 hst
          intro r m2 hr2 ⟨h2, h3⟩
          have hpos : 0 < t.length := by
            cases t with
            | nil => cases hr2
            | cons => simp
          cases r with
          | ok rest d =>
            obtain ⟨b1, b2⟩ := h2
            have := pot hW (Nat.le_of_lt b1)
            exact meets_pure ⟨b1, by omega⟩
          | err st pos =>
            obtain ⟨b1, b2, b3⟩ := h2
            dsimp only
            refine meets_ite (fun h => meets_pure ⟨by omega, b2, b3⟩) fun _ => meets_of_bind fun r hr => ?_
            cases r with
            | ok rest b =>
              obtain ⟨c, s, rfl, q, hl⟩ := parseBool_cost hr
              have := h3 c s rfl q
              rw [List.length_cons] at *
              have := pot hW (Nat.le_of_lt (show rest.length < s.length + 1 by omega))
              exact meets_pure ⟨by rw [List.length_cons]; omega, by rw [List.length_cons]; omega⟩
            | err _ _ =>
              refine meets_of_bind fun r hr => ?_
              cases r with
              | ok rest b =>
                obtain ⟨c, s, rfl, q, hl⟩ := parseNull_cost hr
                have := h3 c s rfl q
                rw [List.length_cons] at *
                have := pot hW (Nat.le_of_lt (show rest.length < s.length + 1 by omega))
                exact meets_pure ⟨by rw [List.length_cons]; omega, by rw [List.length_cons]; omega⟩
              | err _ _ =>
                refine meets_bind (ihArr t ht) ?_
                intro r m3 _ h4
                rcases h4 with ⟨s, k, rfl, rfl, h4⟩ | ⟨hne, rfl, h4⟩
                · have h3 := (h3 91 s rfl ⟨by decide, by decide, by decide⟩).1
                  have hm : W * (91 :: s).length = W * s.length + W := by rw [List.length_cons, Nat.mul_succ]
                  cases r with
                  | ok rest v =>
                    obtain ⟨c1, c2⟩ := h4
                    exact meets_pure ⟨by rw [List.length_cons]; omega, by omega⟩
                  | err st pos =>
                    obtain ⟨c1, c2, c3⟩ := h4
                    dsimp only
                    rw [if_pos c2.1, if_pos c2.1]
                    exact meets_pure ⟨by omega, c2, by rw [List.length_cons]; omega⟩
                · dsimp only
                  rw [if_neg (by simp), if_neg (by simp)]
                  refine meets_bind (ihObj t ht) ?_
                  intro r m4 _ h5
                  rcases h5 with ⟨s, k, rfl, rfl, h5⟩ | ⟨hne', rfl, h5⟩
                  · have h3 := (h3 123 s rfl ⟨by decide, by decide, by decide⟩).1
                    have hm : W * (123 :: s).length = W * s.length + W := by rw [List.length_cons, Nat.mul_succ]
                    cases r with
                    | ok rest v =>
                      obtain ⟨c1, c2⟩ := h5
                      exact meets_pure ⟨by rw [List.length_cons]; omega, by omega⟩
                    | err st pos =>
                      obtain ⟨c1, c2, c3⟩ := h5
                      dsimp only
                      rw [if_pos (.inl c2.2), if_pos (.inl c2.2)]
                      exact meets_pure ⟨by omega, c2, by rw [List.length_cons]; omega⟩
                  · dsimp only
                    rw [if_neg (by simp), if_neg (by simp)]
                    exact meets_pure ⟨by omega, by simp [Inner], Nat.le_refl _⟩
    · intro t ht
      rw [parseArray, Parser.parseArray]
      refine meets_steps (meets_of_bind fun c hc => ?_)
      obtain ⟨s, rfl⟩ := rd_pos hc
      rw [List.length_cons] at ht
      refine meets_ite (fun h => meets_pure ?_) fun h => ?_
      · exact .inr ⟨fun s e => by cases e; exact h rfl, rfl, by omega⟩
      · have h : c = 91 := Classical.not_not.1 h
        subst h
        refine (ihAL 91 s [] 0 (by simp) (by omega)).mono ?_
        intro r k _ hk
        exact .inl ⟨s, k, rfl, by omega, hk⟩
    · intro c t acc reserved hr ht
      rw [arrayLoop, Parser.arrayLoop]
      simp only [List.drop_one, List.tail_cons]
      refine meets_steps (meets_bind (skipWs_meets t) ?_)
      intro t1 m1 _ ⟨a1, a2, a3⟩
      have p1 := pot hW a3
      refine meets_of_bind fun c1 hc1 => ?_
      obtain ⟨s1, rfl⟩ := rd_pos hc1
      have q1 : W * (c1 :: s1).length = W * s1.length + W := by rw [List.length_cons, Nat.mul_succ]
      have l1 : (c1 :: s1).length = s1.length + 1 := rfl
      refine meets_ite (fun _ => meets_ite (fun _ => meets_pure ⟨by omega, by simp [Inner], by omega⟩) fun _ =>
          meets_pure ⟨by rw [List.tail_cons]; omega, by rw [List.tail_cons]; omega⟩) fun _ => meets_bind (ihAny _ (by omega)) ?_
      intro r m2 _ h2
      cases r with
      | err st pos =>
        obtain ⟨b1, b2, b3⟩ := h2
        exact meets_pure ⟨by omega, b2, by omega⟩
      | ok t2 v =>
        obtain ⟨b1, b2⟩ := h2
        dsimp only
        refine append_bind hr fun r' m3 d1 d2 => ?_
        refine meets_bind (skipWs_meets t2) ?_
        intro t3 m4 _ ⟨e1, e2, e3⟩
        have p3 := pot hW e3
        refine meets_of_bind fun c3 hc3 => ?_
        obtain ⟨s3, rfl⟩ := rd_pos hc3
        have q3 : W * (c3 :: s3).length = W * s3.length + W := by rw [List.length_cons, Nat.mul_succ]
        have l3 : (c3 :: s3).length = s3.length + 1 := rfl
        refine meets_ite (fun _ => meets_ite (fun _ => meets_pure ⟨by omega, by simp [Inner], by omega⟩) fun _ =>
            meets_pure ⟨by rw [List.tail_cons]; omega, by rw [List.tail_cons]; omega⟩) fun _ => ?_
        have la : (acc ++ [v]).length = acc.length + 1 := by simp
        refine (ihAL c3 s3 (acc ++ [v]) r' (by omega) (by omega)).mono ?_
        intro r k _ hk
        rw [la] at hk
        cases r with
        | ok rest v => obtain ⟨f1, f2⟩ := hk; exact ⟨by omega, by omega⟩
        | err st pos => obtain ⟨f1, f2, f3⟩ := hk; exact ⟨by omega, f2, by omega⟩
    · intro t ht
      rw [parseObject, Parser.parseObject]
      refine meets_steps (meets_of_bind fun c hc => ?_)
      obtain ⟨s, rfl⟩ := rd_pos hc
      rw [List.length_cons] at ht
      refine meets_ite (fun h => meets_pure ?_) fun h => ?_
      · exact .inr ⟨fun s e => by cases e; exact h rfl, rfl, by omega⟩
      · have h : c = 123 := Classical.not_not.1 h
        subst h
        refine (ihOL 123 s .nil [] 0 (by simp) (by simp; omega) treeOk_nil (by simp [size])).mono ?_
        intro r k _ hk
        exact .inl ⟨s, k, rfl, by omega, hk⟩
    · intro c t m order reserved hr ht hm hs
      rw [objectLoop, Parser.objectLoop]
      simp only [List.drop_one, List.tail_cons]
      refine meets_steps (meets_bind (skipWs_meets t) ?_)
      intro t1 m1 _ ⟨a1, a2, a3⟩
      have p1 := pot hW a3
      refine meets_of_bind fun c1 hc1 => ?_
      obtain ⟨s1, rfl⟩ := rd_pos hc1
      have q1 : W * (c1 :: s1).length = W * s1.length + W := by rw [List.length_cons, Nat.mul_succ]
      have l1 : (c1 :: s1).length = s1.length + 1 := rfl
      refine meets_ite (fun _ => meets_ite (fun _ => meets_pure ⟨by omega, by simp [Inner], by omega⟩) fun _ =>
          meets_pure ⟨by rw [List.tail_cons]; omega, by rw [List.tail_cons]; omega⟩) fun _ => meets_bind (parseString_meets _) ?_
      intro r m2 _ h2
      cases r with
      | err st pos =>
        obtain ⟨b1, b2, b3, -⟩ := h2
        have p2 := pot (a := (c1 :: s1).length) (b := 0) hW (by omega)
        exact meets_pure ⟨by omega, b2, by omega⟩
      | ok t2 name =>
        obtain ⟨b1, b2, -⟩ := h2
        have p2 := pot2 (a := (c1 :: s1).length) (b := t2.length) (c := name.length + 2) hW (by omega)
        have p2' := hW' name.length
        dsimp only
        refine meets_bind (skipWs_meets t2) ?_
        intro t3 m3 _ ⟨d1, d2, d3⟩
        have p3 := pot hW d3
        refine meets_of_bind fun c3 hc3 => ?_
        obtain ⟨s3, rfl⟩ := rd_pos hc3
        have q3 : W * (c3 :: s3).length = W * s3.length + W := by rw [List.length_cons, Nat.mul_succ]
        have l3 : (c3 :: s3).length = s3.length + 1 := rfl
        refine meets_ite (fun _ => meets_pure ⟨by omega, by simp [Inner], by omega⟩) fun _ => ?_
        rw [List.tail_cons]
        refine meets_bind (skipWs_meets s3) ?_
        intro t4 m4 _ ⟨e1, e2, e3⟩
        have p4 := pot hW e3
        refine meets_bind (ihAny t4 (by omega)) ?_
        intro r m5 _ h5
        cases r with
        | err st pos =>
          obtain ⟨f1, f2, f3⟩ := h5
          exact meets_pure ⟨by omega, f2, by omega⟩
        | ok t5 v =>
          obtain ⟨f1, f2⟩ := h5
          dsimp only
          refine append_bind hr fun r' m6 g1 g2 => ?_
          refine meets_bind (insertAccounted_meets m order name v) ?_
          rintro ⟨m', order'⟩ m7 hins g3
          obtain ⟨hm', hs', rfl⟩ := insert_size hm hins
          have hle : height m * (name.length + 2) ≤ hb * (name.length + 2) := Nat.mul_le_mul_right _ (hh m hm (by omega))
          dsimp only
          refine meets_bind (skipWs_meets t5) ?_
          intro t6 m8 _ ⟨i1, i2, i3⟩
          have p6 := pot hW i3
          refine meets_of_bind fun c6 hc6 => ?_
          obtain ⟨s6, rfl⟩ := rd_pos hc6
          have q6 : W * (c6 :: s6).length = W * s6.length + W := by rw [List.length_cons, Nat.mul_succ]
          have l6 : (c6 :: s6).length = s6.length + 1 := rfl
          refine meets_ite (fun _ => meets_ite (fun _ => meets_pure ⟨by omega, by simp [Inner], by omega⟩) fun _ =>
              meets_pure ⟨by rw [List.tail_cons]; omega, by rw [List.tail_cons]; omega⟩) fun _ => ?_
          have la : (order ++ [name]).length = order.length + 1 := by simp
          refine (ihOL c6 s6 m' (order ++ [name]) r' (by omega) (by omega) hm' (by omega)).mono ?_
          intro r k _ hk
          rw [la] at hk
          cases r with
          | ok rest v => obtain ⟨j1, j2⟩ := hk; exact ⟨by omega, by omega⟩
          | err st pos => obtain ⟨j1, j2, j3⟩ := hk; exact ⟨by omega, j2, by omega⟩

/-! ## The document -/

theorem parseRoot_meets (N : NumOps D) {W hb : Nat} (fuel : Nat) (buf : Bytes) (hW : 60 ≤ W) (hW' : ∀ l, 2 * (hb * (l + 2)) + 60 * (l + 2) ≤ W * (l + 2))
    (hh : ∀ m : Tree Bytes (Value D), TreeOk m → size m ≤ buf.length → height m ≤ hb) :
    Meets (parseRoot N fuel buf) (Parser.parseRoot N fuel buf) fun _ n => n ≤ W * buf.length + 2 * buf.length + 4 := by
  unfold parseRoot Parser.parseRoot
  refine meets_ite (fun _ => meets_pure (by omega)) fun _ => meets_of_bind fun last _ => meets_ite (fun _ => meets_pure (by omega)) fun _ => ?_
  refine meets_bind (skipWs_meets buf) ?_
  intro start m1 _ ⟨a1, a2, a3⟩
  have p1 := pot hW a3
  refine meets_bind ((all_meets N hW hW' hh fuel).1 start a3) ?_
  intro r m2 _ h2
  cases r with
  | ok rest v =>
    obtain ⟨b1, b2⟩ := h2
    dsimp only
    refine meets_bind (skipWs_meets rest) ?_
    intro t3 m3 _ ⟨c1, c2, c3⟩
    refine meets_of_bind fun c _ => meets_ite (fun _ => meets_steps (meets_pure ?_)) fun _ => meets_pure ?_
    · omega
    · omega
  | err st pos =>
    obtain ⟨b1, b2, b3⟩ := h2
    dsimp only
    refine meets_bind (skipWs_meets pos) ?_
    intro t3 m3 _ ⟨c1, c2, c3⟩
    refine meets_of_bind fun c _ => meets_ite (fun _ => meets_steps (meets_pure ?_)) fun _ => meets_pure ?_
    · omega
    · omega

theorem parseBuffer_meets (N : NumOps D) {W hb : Nat} (root : Option (Value D)) (buf : Bytes) (hW : 60 ≤ W)
    (hW' : ∀ l, 2 * (hb * (l + 2)) + 60 * (l + 2) ≤ W * (l + 2))
    (hh : ∀ m : Tree Bytes (Value D), TreeOk m → size m ≤ buf.length → height m ≤ hb) :
    Meets (parseBuffer N root buf) (Doc.parseBuffer N root buf) fun _ n => n ≤ W * buf.length + 2 * buf.length + 5 := by
  unfold parseBuffer Doc.parseBuffer
  refine meets_ite (fun _ => meets_of fun _ _ => by omega) fun _ => meets_of_bind fun last _ => meets_ite (fun _ => meets_pure (by omega)) fun _ => ?_
  refine meets_bind (parseRoot_meets N _ buf hW hW' hh) ?_
  intro r m _ h
  exact meets_pure (by omega)

/-- The height of a map of at most `n` elements. -/
theorem height_le {m : Tree Bytes (Value D)} (hm : TreeOk m) {n : Nat} (hs : size m ≤ n) : height m ≤ 2 * (Nat.log2 (n + 1) + 1) := by
  obtain ⟨A, hA⟩ := hm
  have h := height_bound m hA.bal
  have h1 : n + 1 < 2 ^ (Nat.log2 (n + 1) + 1) := Nat.lt_log2_self
  have h2 : (size m + 1) ^ 145 ≤ (2 ^ (Nat.log2 (n + 1) + 1)) ^ 145 := Nat.pow_le_pow_left (by omega) 145
  rw [← Nat.pow_mul] at h2
  have h3 := (Nat.pow_le_pow_iff_right (by decide : 1 < 2)).1 (Nat.le_trans h h2)
  omega

theorem parseBuffer_steps (N : NumOps D) (root : Option (Value D)) (buf : Bytes) :
    Meets (parseBuffer N root buf) (Doc.parseBuffer N root buf) fun _ n => n ≤ (4 * Nat.log2 (buf.length + 1) + 66) * buf.length + 5 := by
  refine (parseBuffer_meets N (W := 4 * Nat.log2 (buf.length + 1) + 64) (hb := 2 * (Nat.log2 (buf.length + 1) + 1)) root buf (by omega) ?_ ?_).mono ?_
  · intro l
    rw [← Nat.mul_assoc, ← Nat.add_mul]
    exact Nat.mul_le_mul_right _ (by omega)
  · intro m hm hs
    exact height_le hm hs
  · intro r n _ h
    rw [← Nat.add_mul] at h
    exact h

end Verif.ParserCost
