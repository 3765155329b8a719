import Verif.Model.Stack
import Verif.Spec.Depth
import Verif.Lemmas.Parse

/-!
# The parser with a limited stack

`all_suffix`: the parser goes forward only. `all_refine`: with whatever stack, the outcome is that of the parser or an overflow.
`all_enough`: more levels than opening brackets suffice. `any_exact`: a token of the dialect needs as many levels as it is deep.
-/

namespace Verif.Stack

open Verif Verif.Text Verif.Map Verif.Number Verif.Parser Verif.Spec

variable {D : Type}

/-- Where the parser stands after a call. -/
def textOf {α : Type} : PRes α → Bytes
  | .ok rest _ => rest
  | .err _ pos => pos

/-- If the computation returns, the parser stands in `t`. -/
def Within {α : Type} (t : Bytes) (x : Out (PRes α)) : Prop := ∀ r, x = .ok r → textOf r <:+ t

theorem Within.ok {α : Type} {t : Bytes} {r : PRes α} (h : textOf r <:+ t) : Within t (.ok r) := by
  intro _ e; injection e with e; exact e ▸ h

theorem Within.bind {α β : Type} {t : Bytes} {a : Out α} {f : α → Out (PRes β)}
    (h : ∀ x, a = .ok x → Within t (f x)) : Within t (a >>= f) := by
  intro r e
  rw [Out.bind_eq_ok] at e
  obtain ⟨x, hx, e⟩ := e
  exact h x hx r e

theorem Within.ite {α : Type} {t : Bytes} {c : Prop} [Decidable c] {a b : Out (PRes α)}
    (h1 : c → Within t a) (h2 : ¬ c → Within t b) : Within t (if c then a else b) := by
  by_cases h : c
  · rw [if_pos h]; exact h1 h
  · rw [if_neg h]; exact h2 h

theorem skipWs_suffix {t r : Bytes} (h : skipWs t = .ok r) : r <:+ t := by
  induction t with
  | nil => exact absurd h (by simp [skipWs])
  | cons c t ih =>
    rw [skipWs] at h
    split at h
    · exact (ih h).trans (List.suffix_cons c t)
    · injection h with h; exact h ▸ List.suffix_refl _

theorem spanFloat_suffix {t run rest : Bytes} (h : spanFloat t = .ok (run, rest)) : rest <:+ t := by
  induction t generalizing run with
  | nil => exact absurd h (by simp [spanFloat])
  | cons c t ih =>
    rw [spanFloat] at h
    split at h
    · rw [Out.bind_eq_ok] at h
      obtain ⟨⟨a, b⟩, h1, h2⟩ := h
      injection h2 with h2
      injection h2 with h2 h3
      subst h3
      exact (ih h1).trans (List.suffix_cons c t)
    · injection h with h
      injection h with h h'
      exact h' ▸ List.suffix_refl _

theorem parseString_within (t : Bytes) : Within t (parseString t) := by
  unfold parseString
  refine Within.bind fun c _ => Within.ite (fun _ => Within.ok (List.suffix_refl _)) fun _ => ?_
  refine Within.bind fun ⟨s, l, l'⟩ _ => Within.ite (fun _ => Within.ok (List.drop_suffix _ _)) fun _ => ?_
  refine Within.bind fun ⟨s, l, out⟩ _ => Within.ite (fun _ => ?_) fun _ => ?_
  · intro r e; cases e
  · refine Within.bind fun c _ => Within.ite (fun _ => Within.ok ?_) fun _ => Within.ok ?_
    · exact (List.drop_suffix _ _).trans (List.drop_suffix _ _)
    · exact (List.drop_suffix _ _).trans ((List.drop_suffix _ _).trans (List.drop_suffix _ _))

theorem parseNumber_within (N : NumOps D) (t : Bytes) : Within t (parseNumber N t) := by
  unfold parseNumber
  refine Within.bind fun ⟨neg, t1⟩ h1 => ?_
  have ht1 : t1 <:+ t := by
    unfold parseSign at h1
    rw [Out.bind_eq_ok] at h1
    obtain ⟨c, -, h1⟩ := h1
    split at h1
    · rw [Out.bind_eq_ok] at h1
      obtain ⟨u, hu, h1⟩ := h1
      injection h1 with h1; injection h1 with _ h1
      exact h1 ▸ (skipWs_suffix hu).trans (List.drop_suffix _ _)
    · split at h1
      · rw [Out.bind_eq_ok] at h1
        obtain ⟨u, hu, h1⟩ := h1
        injection h1 with h1; injection h1 with _ h1
        exact h1 ▸ (skipWs_suffix hu).trans (List.drop_suffix _ _)
      · injection h1 with h1; injection h1 with _ h1
        exact h1 ▸ List.suffix_refl _
  refine Within.bind fun r h2 => ?_
  rcases r with status | ⟨v, rest⟩
  · exact Within.ok ht1
  · have hrest : rest <:+ t1 := by
      unfold readDoubleLiteral at h2
      rw [Out.bind_eq_ok] at h2
      obtain ⟨⟨run, rest'⟩, hs, h2⟩ := h2
      have := spanFloat_suffix hs
      simp only at h2
      split at h2
      · exact absurd h2 (by simp)
      · rw [Out.bind_eq_ok] at h2
        obtain ⟨lz, -, h2⟩ := h2
        split at h2
        · exact absurd h2 (by simp)
        · split at h2
          · exact absurd h2 (by simp)
          · injection h2 with h2; injection h2 with h2; injection h2 with _ h2
            exact h2 ▸ this
    exact Within.bind fun r hr => Within.ok ((skipWs_suffix hr).trans (hrest.trans ht1))

theorem parseBool_within (t : Bytes) : Within t (parseBool t) := by
  unfold parseBool
  refine Within.bind fun m _ => Within.ite (fun _ => Within.ok (List.drop_suffix _ _)) fun _ => ?_
  exact Within.bind fun m _ => Within.ite (fun _ => Within.ok (List.drop_suffix _ _)) fun _ => Within.ok (List.suffix_refl _)

theorem parseNull_within (t : Bytes) : Within t (parseNull t) := by
  unfold parseNull
  exact Within.bind fun m _ => Within.ite (fun _ => Within.ok (List.drop_suffix _ _)) fun _ => Within.ok (List.suffix_refl _)

/-- The parser goes forward only. -/
theorem all_suffix (N : NumOps D) (n : Nat) :
    (∀ t, Within t (Parser.parseAny N n t)) ∧
    (∀ t, Within t (Parser.parseArray N n t)) ∧
    (∀ t acc, Within t (Parser.arrayLoop N n t acc)) ∧
    (∀ t, Within t (Parser.parseObject N n t)) ∧
    (∀ t m order, Within t (Parser.objectLoop N n t m order)) := by
  induction n with
  | zero => refine ⟨?_, ?_, ?_, ?_, ?_⟩ <;> intros <;> (intro _ e; cases e)
  | succ n ih =>
    obtain ⟨ih1, ih2, ih3, ih4, ih5⟩ := ih
    refine ⟨?_, ?_, ?_, ?_, ?_⟩
    · intro t
      rw [parseAny_succ]
      refine Within.bind fun r h => ?_
      have hr := parseString_within t r h
      rcases r with ⟨rest, s⟩ | ⟨status, pos⟩
      · exact Within.ok hr
      refine Within.ite (fun _ => Within.ok hr) fun _ => Within.bind fun r h => ?_
      have hr := parseNumber_within N t r h
      rcases r with ⟨rest, s⟩ | ⟨status, pos⟩
      · exact Within.ok hr
      refine Within.ite (fun _ => Within.ok hr) fun _ => Within.bind fun r h => ?_
      have hr := parseBool_within t r h
      rcases r with ⟨rest, s⟩ | ⟨status, pos⟩
      · exact Within.ok hr
      refine Within.bind fun r h => ?_
      have hr := parseNull_within t r h
      rcases r with ⟨rest, s⟩ | ⟨status, pos⟩
      · exact Within.ok hr
      refine Within.bind fun r h => ?_
      have hr := ih2 t r h
      rcases r with ⟨rest, s⟩ | ⟨status, pos⟩
      · exact Within.ok hr
      refine Within.ite (fun _ => Within.ok hr) fun _ => Within.bind fun r h => ?_
      have hr' := (ih4 pos r h).trans hr
      rcases r with ⟨rest, s⟩ | ⟨status, pos⟩
      · exact Within.ok hr'
      · exact Within.ite (fun _ => Within.ok hr') fun _ => Within.ok hr'
    · intro t
      rw [parseArray_succ]
      exact Within.bind fun c _ => Within.ite (fun _ => Within.ok (List.suffix_refl _)) fun _ => ih3 t []
    · intro t acc
      rw [arrayLoop_succ]
      refine Within.bind fun t1 h1 => Within.bind fun c _ => ?_
      have s1 := (skipWs_suffix h1).trans (List.drop_suffix _ _)
      refine Within.ite (fun _ => Within.ite (fun _ => Within.ok s1) fun _ =>
        Within.ok ((List.drop_suffix _ _).trans s1)) fun _ => Within.bind fun r h => ?_
      have hr := (ih1 t1 r h).trans s1
      rcases r with ⟨rest, v⟩ | ⟨status, pos⟩
      · refine Within.bind fun t2 h2 => Within.bind fun c _ => ?_
        have s2 := (skipWs_suffix h2).trans hr
        refine Within.ite (fun _ => Within.ite (fun _ => Within.ok s2) fun _ =>
          Within.ok ((List.drop_suffix _ _).trans s2)) fun _ => ?_
        exact fun r hr => (ih3 _ _ r hr).trans s2
      · exact Within.ok hr
    · intro t
      rw [parseObject_succ]
      exact Within.bind fun c _ => Within.ite (fun _ => Within.ok (List.suffix_refl _)) fun _ => ih5 t .nil []
    · intro t m order
      rw [objectLoop_succ]
      refine Within.bind fun t1 h1 => Within.bind fun c _ => ?_
      have s1 := (skipWs_suffix h1).trans (List.drop_suffix _ _)
      refine Within.ite (fun _ => Within.ite (fun _ => Within.ok s1) fun _ =>
        Within.ok ((List.drop_suffix _ _).trans s1)) fun _ => Within.bind fun r h => ?_
      have hr := (parseString_within t1 r h).trans s1
      rcases r with ⟨rest, name⟩ | ⟨status, pos⟩
      · refine Within.bind fun t2 h2 => Within.bind fun c _ => ?_
        have s2 := (skipWs_suffix h2).trans hr
        refine Within.ite (fun _ => Within.ok s2) fun _ => Within.bind fun t3 h3 => Within.bind fun r h => ?_
        have s3 := (skipWs_suffix h3).trans ((List.drop_suffix _ _).trans s2)
        have hr := (ih1 t3 r h).trans s3
        rcases r with ⟨rest, v⟩ | ⟨status, pos⟩
        · refine Within.bind fun ⟨m', order'⟩ _ => Within.bind fun t4 h4 => Within.bind fun c _ => ?_
          have s4 := (skipWs_suffix h4).trans hr
          refine Within.ite (fun _ => Within.ite (fun _ => Within.ok s4) fun _ =>
            Within.ok ((List.drop_suffix _ _).trans s4)) fun _ => ?_
          exact fun r hr => (ih5 _ _ _ r hr).trans s4
        · exact Within.ok hr
      · exact Within.ok hr

theorem opens_suffix {t u : Bytes} (h : t <:+ u) : opens t ≤ opens u :=
  Nat.add_le_add (h.sublist.count_le 91) (h.sublist.count_le 123)

theorem opens_bracket {t : Bytes} {c : Byte} (h : rd t 0 = .ok c) (hc : c = 91 ∨ c = 123) :
    opens (t.drop 1) < opens t := by
  cases t with
  | nil => exact absurd h (by simp [rd])
  | cons a t =>
    rw [rd_cons_zero] at h
    injection h with h
    subst h
    rcases hc with rfl | rfl <;> simp [opens] <;> omega

/-- The outcome with a limited stack is the outcome without limit or an overflow, and no overflow if the stack is large enough. -/
def Lim {α : Type} (enough : Prop) (a b : Out α) : Prop := a = b ∨ (a = .ub ∧ ¬ enough)

theorem Lim.rfl {α : Type} {e : Prop} {a : Out α} : Lim e a a := .inl (Eq.refl a)

theorem Lim.mono {α : Type} {e e' : Prop} {a b : Out α} (h : Lim e a b) (he : e' → e) : Lim e' a b :=
  h.imp id fun h => ⟨h.1, fun x => h.2 (he x)⟩

theorem Lim.bind {α β : Type} {e : Prop} {a b : Out α} {f g : α → Out β} (h : Lim e a b)
    (hf : ∀ x, b = .ok x → Lim e (f x) (g x)) : Lim e (a >>= f) (b >>= g) := by
  rcases h with h | ⟨h, he⟩
  · subst h
    cases a with
    | ok x => exact hf x (Eq.refl _)
    | ub => exact .inl (Eq.refl _)
    | fuel => exact .inl (Eq.refl _)
  · exact .inr ⟨by rw [h]; rfl, he⟩

theorem Lim.same {α β : Type} {e : Prop} {a : Out α} {f g : α → Out β}
    (hf : ∀ x, a = .ok x → Lim e (f x) (g x)) : Lim e (a >>= f) (a >>= g) := Lim.bind Lim.rfl hf

theorem Lim.ite {α : Type} {e c : Prop} [Decidable c] {a a' b b' : Out α}
    (h1 : c → Lim e a b) (h2 : ¬ c → Lim e a' b') : Lim e (if c then a else a') (if c then b else b') := by
  by_cases h : c
  · rw [if_pos h, if_pos h]; exact h1 h
  · rw [if_neg h, if_neg h]; exact h2 h

/-- More levels than opening brackets suffice. -/
theorem all_enough (N : NumOps D) (n : Nat) :
    (∀ d t, Lim (opens t < d) (parseAny N n d t) (Parser.parseAny N n t)) ∧
    (∀ d t, Lim (opens t ≤ d) (parseArray N n d t) (Parser.parseArray N n t)) ∧
    (∀ d t acc, Lim (opens (t.drop 1) < d) (arrayLoop N n d t acc) (Parser.arrayLoop N n t acc)) ∧
    (∀ d t, Lim (opens t ≤ d) (parseObject N n d t) (Parser.parseObject N n t)) ∧
    (∀ d t m order, Lim (opens (t.drop 1) < d) (objectLoop N n d t m order)
      (Parser.objectLoop N n t m order)) := by
  induction n with
  | zero => refine ⟨?_, ?_, ?_, ?_, ?_⟩ <;> intros <;> exact .inl rfl
  | succ n ih =>
    obtain ⟨ih1, ih2, ih3, ih4, ih5⟩ := ih
    refine ⟨?_, ?_, ?_, ?_, ?_⟩
    · intro d t
      cases d with
      | zero => exact .inr ⟨rfl, by omega⟩
      | succ d =>
      rw [parseAny, parseAny_succ]
      refine Lim.same fun r _ => ?_
      rcases r with ⟨rest, s⟩ | ⟨status, pos⟩
      · exact Lim.rfl
      refine Lim.ite (fun _ => Lim.rfl) fun _ => Lim.same fun r _ => ?_
      rcases r with ⟨rest, s⟩ | ⟨status, pos⟩
      · exact Lim.rfl
      refine Lim.ite (fun _ => Lim.rfl) fun _ => Lim.same fun r _ => ?_
      rcases r with ⟨rest, s⟩ | ⟨status, pos⟩
      · exact Lim.rfl
      refine Lim.same fun r _ => ?_
      rcases r with ⟨rest, s⟩ | ⟨status, pos⟩
      · exact Lim.rfl
      refine Lim.bind ((ih2 d t).mono (by omega)) fun r h => ?_
      rcases r with ⟨rest, s⟩ | ⟨status, pos⟩
      · exact Lim.rfl
      have hs := opens_suffix ((all_suffix N n).2.1 t _ h)
      refine Lim.ite (fun _ => Lim.rfl) fun _ => Lim.bind ((ih4 d pos).mono ?_) fun r _ => Lim.rfl
      simp only [textOf] at hs
      omega
    · intro d t
      rw [parseArray, parseArray_succ]
      refine Lim.same fun c hc => Lim.ite (fun _ => Lim.rfl) fun h => (ih3 d t []).mono fun hd => ?_
      have := opens_bracket hc (.inl (Decidable.not_not.1 h))
      omega
    · intro d t acc
      rw [arrayLoop, arrayLoop_succ]
      refine Lim.same fun t1 h1 => Lim.same fun c _ => Lim.ite (fun _ => Lim.rfl) fun _ => ?_
      have s1 := opens_suffix (skipWs_suffix h1)
      refine Lim.bind ((ih1 d t1).mono (by omega)) fun r h => ?_
      have hr := opens_suffix ((all_suffix N n).1 t1 _ h)
      rcases r with ⟨rest, v⟩ | ⟨status, pos⟩
      · refine Lim.same fun t2 h2 => Lim.same fun c _ => Lim.ite (fun _ => Lim.rfl) fun _ => ?_
        have s2 := opens_suffix (skipWs_suffix h2)
        have s3 := opens_suffix (List.drop_suffix 1 t2)
        simp only [textOf] at hr
        exact (ih3 d t2 _).mono (by omega)
      · exact Lim.rfl
    · intro d t
      rw [parseObject, parseObject_succ]
      refine Lim.same fun c hc => Lim.ite (fun _ => Lim.rfl) fun h => (ih5 d t .nil []).mono fun hd => ?_
      have := opens_bracket hc (.inr (Decidable.not_not.1 h))
      omega
    · intro d t m order
      rw [objectLoop, objectLoop_succ]
      refine Lim.same fun t1 h1 => Lim.same fun c _ => Lim.ite (fun _ => Lim.rfl) fun _ => ?_
      have s1 := opens_suffix (skipWs_suffix h1)
      refine Lim.same fun r h => ?_
      have hr := opens_suffix (parseString_within t1 _ h)
      rcases r with ⟨rest, name⟩ | ⟨status, pos⟩
      · refine Lim.same fun t2 h2 => Lim.same fun c _ => Lim.ite (fun _ => Lim.rfl) fun _ => Lim.same fun t3 h3 => ?_
        have s2 := opens_suffix (skipWs_suffix h2)
        have s3 := opens_suffix (List.drop_suffix 1 t2)
        have s4 := opens_suffix (skipWs_suffix h3)
        simp only [textOf] at hr
        refine Lim.bind ((ih1 d t3).mono (by omega)) fun r h => ?_
        have hr' := opens_suffix ((all_suffix N n).1 t3 _ h)
        rcases r with ⟨rest, v⟩ | ⟨status, pos⟩
        · refine Lim.same fun ⟨m', order'⟩ _ => Lim.same fun t4 h4 => Lim.same fun c _ => Lim.ite (fun _ => Lim.rfl) fun _ => ?_
          have s5 := opens_suffix (skipWs_suffix h4)
          have s6 := opens_suffix (List.drop_suffix 1 t4)
          simp only [textOf] at hr'
          exact (ih5 d t4 _ _).mono (by omega)
        · exact Lim.rfl
      · exact Lim.rfl

/-- A value token is read with enough levels and overflows the stack otherwise. -/
def ValS (N : NumOps D) (tok : Bytes) (j : J) : Prop :=
  ∀ n d c s r, 3 * tok.length + 1 ≤ n → (¬ NumChar c ∨ ∀ d, j ≠ .num d) → Term (c :: s) → skipWs (c :: s) = .ok r →
    ∃ rest, parseAny N n d (tok ++ c :: s) = (if depth j ≤ d then .ok (.ok rest (interp N j)) else .ub) ∧
      skipWs rest = .ok r

/-- The same for elements. -/
def ElemsS (N : NumOps D) (ts : Bytes) (l : JL) : Prop :=
  ∀ n d c acc s, 3 * ts.length + 2 ≤ n → Term s →
    arrayLoop N n d (c :: (ts ++ 0x5D :: s)) acc =
      if depthL l ≤ d then .ok (.ok s (.arr (acc ++ interpL N l))) else .ub

/-- The same for members. -/
def MembersS (N : NumOps D) (ts : Bytes) (l : JM) : Prop :=
  ∀ n d c m order s, 3 * ts.length + 2 ≤ n → Term s → TreeOk m →
    objectLoop N n d (c :: (ts ++ 0x7D :: s)) m order =
      if depthM l ≤ d then .ok (.ok s (.obj (interpM N l m) (order ++ l.names))) else .ub

theorem parseAny_zero (N : NumOps D) {n : Nat} (h : 0 < n) (t : Bytes) : parseAny N n 0 t = .ub := by
  obtain ⟨k, rfl⟩ : ∃ k, n = k + 1 := ⟨n - 1, by omega⟩
  rfl

/-- A value that is one level deep. -/
theorem parseAny_leaf (N : NumOps D) {n d : Nat} (hn : 0 < n) {t rest : Bytes} {v : Value D}
    (h : ∀ n d, parseAny N (n + 1) (d + 1) t = .ok (.ok rest v)) :
    parseAny N n d t = if 1 ≤ d then .ok (.ok rest v) else .ub := by
  obtain ⟨k, rfl⟩ : ∃ k, n = k + 1 := ⟨n - 1, by omega⟩
  cases d with
  | zero => rfl
  | succ d => rw [h, if_pos (by omega)]

/-- The branches that are left when the text begins with another byte. -/
theorem parseAny_other (N : NumOps D) (n d : Nat) {c : Byte} {s : Bytes} (h34 : c ≠ 34)
    (hnum : ¬ NumChar c) :
    parseAny N (n + 1) (d + 1) (c :: s) =
      (parseBool (c :: s) >>= fun r =>
        match r with
        | .ok rest b => .ok (.ok rest (.bool b))
        | .err _ _ =>
          parseNull (c :: s) >>= fun r =>
          match r with
          | .ok rest _ => .ok (.ok rest .null)
          | .err _ _ =>
            parseArray N n d (c :: s) >>= fun r =>
            match r with
            | .ok rest v => .ok (.ok rest v)
            | .err status pos =>
              if status ≠ .kExpectedOpeningSquareBrackets then .ok (.err status pos)
              else
                parseObject N n d pos >>= fun r =>
                match r with
                | .ok rest v => .ok (.ok rest v)
                | .err status pos =>
                  if status ≠ .kExpectedOpeningCurlyBraces ∨
                      status = .kNumbersCannotHaveLeadingZeros then .ok (.err status pos)
                  else .ok (.err .kExpectedJsonValue pos)) := by
  have hp := parseNumber_other N c s hnum
  rw [parseAny, parseString_other h34]
  simp only [Out.ok_bind, ne_eq, not_true_eq_false, if_false, hp]
  rfl

theorem parseAny_arr (N : NumOps D) (n d k : Nat) {s r : Bytes} {v : Value D}
    (h : ∀ d, arrayLoop N n d (91 :: s) [] = if k ≤ d then .ok (.ok r v) else .ub) :
    parseAny N (n + 2) d (91 :: s) = if k + 1 ≤ d then .ok (.ok r v) else .ub := by
  cases d with
  | zero => rfl
  | succ d =>
  rw [parseAny_other N (n + 1) d (by decide) (by simp [NumChar, Digit]),
    parseBool_other (by decide) (by decide)]
  simp only [Out.ok_bind]
  rw [parseNull_other (by decide)]
  simp only [Out.ok_bind]
  rw [parseArray]
  simp only [rd_cons_zero, Out.ok_bind]
  rw [if_neg (by simp), h]
  by_cases hk : k ≤ d
  · rw [if_pos hk, if_pos (by omega)]; rfl
  · rw [if_neg hk, if_neg (by omega)]; rfl

theorem parseAny_obj (N : NumOps D) (n d k : Nat) {s r : Bytes} {v : Value D}
    (h : ∀ d, objectLoop N n d (123 :: s) .nil [] = if k ≤ d then .ok (.ok r v) else .ub) :
    parseAny N (n + 2) d (123 :: s) = if k + 1 ≤ d then .ok (.ok r v) else .ub := by
  cases d with
  | zero => rfl
  | succ d =>
  rw [parseAny_other N (n + 1) d (by decide) (by simp [NumChar, Digit]),
    parseBool_other (by decide) (by decide)]
  simp only [Out.ok_bind]
  rw [parseNull_other (by decide)]
  simp only [Out.ok_bind]
  rw [parseArray]
  simp only [rd_cons_zero, Out.ok_bind]
  rw [if_pos (by decide)]
  simp only [Out.ok_bind, ne_eq, not_true_eq_false, if_false]
  rw [parseObject]
  simp only [rd_cons_zero, Out.ok_bind]
  rw [if_neg (by simp), h]
  by_cases hk : k ≤ d
  · rw [if_pos hk, if_pos (by omega)]; rfl
  · rw [if_neg hk, if_neg (by omega)]; rfl

theorem Out.ub_bind {α β : Type} (f : α → Out β) : ((.ub : Out α) >>= f) = .ub := rfl

/-- A token of the dialect needs as many levels as it is deep, no more and no less. -/
theorem any_exact (N : NumOps D) (hN : NegLaw N) {tok : Bytes} {j : J} (h : DVal tok j) :
    ValS N tok j := by
  refine Val.rec (motive_1 := fun t j _ => ValS N t j) (motive_2 := fun t l _ => ElemsS N t l)
    (motive_3 := fun t m _ => MembersS N t m) ?_ ?_ ?_ ?_ ?_ ?_ ?_ ?_ ?_ ?_ ?_ ?_ ?_ h
  · intro n d c s r hn hc ht hs
    refine ⟨c :: s, parseAny_leaf N (by omega) fun n d => ?_, hs⟩
    rw [List.cons_append, parseAny_other N n d (by decide) (by simp [NumChar, Digit]),
      parseBool_other (by decide) (by decide)]
    rfl
  · intro n d c s r hn hc ht hs
    refine ⟨c :: s, parseAny_leaf N (by omega) fun n d => ?_, hs⟩
    rw [List.cons_append, parseAny_other N n d (by decide) (by simp [NumChar, Digit])]
    rfl
  · intro n d c s r hn hc ht hs
    refine ⟨c :: s, parseAny_leaf N (by omega) fun n d => ?_, hs⟩
    rw [List.cons_append, parseAny_other N n d (by decide) (by simp [NumChar, Digit])]
    rfl
  · intro t x hx n d c s r hn hc ht hs
    refine ⟨r, parseAny_leaf N (by omega) fun n d => ?_, skipWs_idem hs⟩
    have hp := parseNumber_complete N hN t x hx c s r (hc.resolve_right fun h => h x rfl) hs
    obtain ⟨a, u, rfl, ha⟩ := dialNum_head hx
    have h34 : a ≠ 34 := by rintro rfl; revert ha; simp [NumChar, Digit]
    rw [parseAny, hp, List.cons_append, parseString_other h34]; rfl
  · intro t x hx n d c s r hn hc ht hs
    refine ⟨c :: s, parseAny_leaf N (by omega) fun n d => ?_, hs⟩
    rw [parseAny, parseString_complete _ _ _ hx ht]; rfl
  · -- empty array
    intro w hw n d c s r hn hc ht hs
    obtain ⟨k, rfl⟩ : ∃ k, n = k + 3 := ⟨n - 3, by simp at hn; omega⟩
    refine ⟨c :: s, ?_, hs⟩
    rw [List.cons_append, List.append_assoc]
    refine parseAny_arr N _ d 0 fun d => ?_
    rw [arrayLoop]
    simp only [List.drop_one, List.tail_cons]
    rw [skipWs_append hw, List.cons_append, skipWs_stop (by decide)]
    rfl
  · intro t l _ ih n d c s r hn hc ht hs
    obtain ⟨k, rfl⟩ : ∃ k, n = k + 2 := ⟨n - 2, by simp at hn; omega⟩
    refine ⟨c :: s, ?_, hs⟩
    rw [List.cons_append, List.append_assoc]
    refine parseAny_arr N _ d _ fun d => ?_
    exact ih k d 91 [] (c :: s) (by simp at hn; omega) ht
  · intro w hw n d c s r hn hc ht hs
    obtain ⟨k, rfl⟩ : ∃ k, n = k + 3 := ⟨n - 3, by simp at hn; omega⟩
    refine ⟨c :: s, ?_, hs⟩
    rw [List.cons_append, List.append_assoc]
    refine parseAny_obj N _ d 0 fun d => ?_
    rw [objectLoop]
    simp only [List.drop_one, List.tail_cons]
    rw [skipWs_append hw, List.cons_append, skipWs_stop (by decide)]
    rfl
  · intro t m _ ih n d c s r hn hc ht hs
    obtain ⟨k, rfl⟩ : ∃ k, n = k + 2 := ⟨n - 2, by simp at hn; omega⟩
    refine ⟨c :: s, ?_, hs⟩
    rw [List.cons_append, List.append_assoc]
    refine parseAny_obj N _ d _ fun d => ?_
    exact ih k d 123 .nil [] (c :: s) (by simp at hn; omega) ht treeOk_nil
  · -- last element
    intro w1 t w2 j hw1 hv hw2 ih n d c acc s hn hs
    obtain ⟨k, rfl⟩ : ∃ k, n = k + 1 := ⟨n - 1, by omega⟩
    obtain ⟨a, u, hau, haw, ha93, ha125⟩ := val_head hv
    have e : (w1 ++ (t ++ w2)) ++ 0x5D :: s = w1 ++ (t ++ (w2 ++ 93 :: s)) := by simp
    obtain ⟨b, x, hbx, hb, hbt, hbs⟩ :=
      after_token (c := 93) hw2 (by simp [NumChar, Digit]) (by decide) (s := s)
        (by simp [Term] at *; exact hs)
    obtain ⟨rest, hp, hrest⟩ := ih k d b x _ (by simp at hn; omega) (.inl hb) hbt hbs
    rw [arrayLoop]
    simp only [List.drop_one, List.tail_cons]
    rw [e, skipWs_append hw1, hbx]
    have : skipWs (t ++ b :: x) = .ok (t ++ b :: x) := by
      rw [hau, List.cons_append, skipWs_stop haw]
    rw [this]
    simp only [Out.ok_bind]
    have : rd (t ++ b :: x) 0 = .ok a := by rw [hau]; rfl
    rw [this]
    simp only [Out.ok_bind]
    rw [if_neg ha93, hp]
    have hD : depthL (.cons j .nil) = max (depth j) 0 := by simp only [depthL]
    rcases Nat.lt_or_ge d (depth j) with hd | hd
    · rw [if_neg (by omega), if_neg (by omega)]; rfl
    rw [if_pos hd]
    simp only [Out.ok_bind, hrest]
    rw [if_pos (by omega)]
    simp [rd_cons_zero, Out.ok_bind, interpL]
  · intro w1 t w2 j ts l hw1 hv hw2 hl ih ihl n d c acc s hn hs
    obtain ⟨k, rfl⟩ : ∃ k, n = k + 1 := ⟨n - 1, by omega⟩
    obtain ⟨a, u, hau, haw, ha93, ha125⟩ := val_head hv
    have e : (w1 ++ (t ++ (w2 ++ 0x2C :: ts))) ++ 0x5D :: s =
      w1 ++ (t ++ (w2 ++ 44 :: (ts ++ 93 :: s))) := by simp
    obtain ⟨b, x, hbx, hb, hbt, hbs⟩ :=
      after_token (c := 44) hw2 (by simp [NumChar, Digit]) (by decide) (s := ts ++ 93 :: s)
        (by simp [Term] at *; exact .inr hs)
    obtain ⟨rest, hp, hrest⟩ := ih k d b x _ (by simp at hn; omega) (.inl hb) hbt hbs
    rw [arrayLoop]
    simp only [List.drop_one, List.tail_cons]
    rw [e, skipWs_append hw1, hbx]
    have : skipWs (t ++ b :: x) = .ok (t ++ b :: x) := by
      rw [hau, List.cons_append, skipWs_stop haw]
    rw [this]
    simp only [Out.ok_bind]
    have : rd (t ++ b :: x) 0 = .ok a := by rw [hau]; rfl
    rw [this]
    simp only [Out.ok_bind]
    rw [if_neg ha93, hp]
    have hD : depthL (.cons j l) = max (depth j) (depthL l) := by simp only [depthL]
    rcases Nat.lt_or_ge d (depth j) with hd | hd
    · rw [if_neg (by omega), if_neg (by omega)]; rfl
    rw [if_pos hd]
    simp only [Out.ok_bind, hrest]
    have := ihl k d 44 (acc ++ [interp N j]) s (by simp at hn; omega) hs
    by_cases hl' : depthL l ≤ d
    · rw [if_pos hl'] at this
      rw [if_pos (by omega)]
      simp [rd_cons_zero, Out.ok_bind, interpL, this]
    · rw [if_neg hl'] at this
      rw [if_neg (by omega)]
      simp [rd_cons_zero, Out.ok_bind, this]
  · intro w1 tn w2 w3 t w4 name j hw1 hname hw2 hw3 hv hw4 ih n d c m order s hn hs hm
    obtain ⟨k, rfl⟩ : ∃ k, n = k + 1 := ⟨n - 1, by omega⟩
    obtain ⟨a, u, hau, haw, ha93, ha125⟩ := val_head hv
    obtain ⟨u', hu'⟩ := hname.head
    have e : (w1 ++ (tn ++ (w2 ++ 0x3A :: (w3 ++ (t ++ w4))))) ++ 0x7D :: s =
      w1 ++ (tn ++ (w2 ++ 58 :: (w3 ++ (t ++ (w4 ++ 125 :: s))))) := by simp
    obtain ⟨b, x, hbx, hb, hbt, hbs⟩ :=
      after_token (c := 125) hw4 (by simp [NumChar, Digit]) (by decide) (s := s)
        (by simp [Term] at *; exact hs)
    obtain ⟨rest, hp, hrest⟩ := ih k d b x _ (by simp at hn; omega) (.inl hb) hbt hbs
    obtain ⟨hins, hm'⟩ := insertAccounted_ok hm order name (interp N j)
    rw [objectLoop]
    simp only [List.drop_one, List.tail_cons]
    rw [e, skipWs_append hw1, hbx]
    have hsn : ∀ q, skipWs (tn ++ q) = .ok (tn ++ q) ∧ rd (tn ++ q) 0 = .ok 34 := by
      intro q; rw [hu', List.cons_append, skipWs_stop (by decide)]; exact ⟨rfl, rfl⟩
    rw [(hsn _).1]
    simp only [Out.ok_bind]
    rw [(hsn _).2]
    simp only [Out.ok_bind]
    rw [if_neg (by decide), parseString_complete _ _ _ hname
      (by simp only [Term, List.mem_append, List.mem_cons] at *; grind)]
    simp only [Out.ok_bind]
    rw [skipWs_append hw2, skipWs_stop (by decide)]
    simp only [Out.ok_bind, rd_cons_zero, List.drop_one, List.tail_cons]
    rw [if_neg (by decide), skipWs_append hw3]
    have : skipWs (t ++ b :: x) = .ok (t ++ b :: x) := by
      rw [hau, List.cons_append, skipWs_stop haw]
    rw [this]
    simp only [Out.ok_bind]
    rw [hp]
    have hD : depthM (.cons name j .nil) = max (depth j) 0 := by simp only [depthM]
    rcases Nat.lt_or_ge d (depth j) with hd | hd
    · rw [if_neg (by omega), if_neg (by omega)]; rfl
    rw [if_pos hd]
    simp only [Out.ok_bind, hrest, hins]
    rw [if_pos (by omega)]
    simp [rd_cons_zero, Out.ok_bind, interpM, JM.names]
  · intro w1 tn w2 w3 t w4 name j ts l hw1 hname hw2 hw3 hv hw4 hl ih ihl n d c m order s hn hs hm
    obtain ⟨k, rfl⟩ : ∃ k, n = k + 1 := ⟨n - 1, by omega⟩
    obtain ⟨a, u, hau, haw, ha93, ha125⟩ := val_head hv
    obtain ⟨u', hu'⟩ := hname.head
    have e : (w1 ++ (tn ++ (w2 ++ 0x3A :: (w3 ++ (t ++ (w4 ++ 0x2C :: ts)))))) ++ 0x7D :: s =
      w1 ++ (tn ++ (w2 ++ 58 :: (w3 ++ (t ++ (w4 ++ 44 :: (ts ++ 125 :: s)))))) := by simp
    obtain ⟨b, x, hbx, hb, hbt, hbs⟩ :=
      after_token (c := 44) hw4 (by simp [NumChar, Digit]) (by decide) (s := ts ++ 125 :: s)
        (by simp [Term] at *; exact .inr hs)
    obtain ⟨rest, hp, hrest⟩ := ih k d b x _ (by simp at hn; omega) (.inl hb) hbt hbs
    obtain ⟨hins, hm'⟩ := insertAccounted_ok hm order name (interp N j)
    rw [objectLoop]
    simp only [List.drop_one, List.tail_cons]
    rw [e, skipWs_append hw1, hbx]
    have hsn : ∀ q, skipWs (tn ++ q) = .ok (tn ++ q) ∧ rd (tn ++ q) 0 = .ok 34 := by
      intro q; rw [hu', List.cons_append, skipWs_stop (by decide)]; exact ⟨rfl, rfl⟩
    rw [(hsn _).1]
    simp only [Out.ok_bind]
    rw [(hsn _).2]
    simp only [Out.ok_bind]
    rw [if_neg (by decide), parseString_complete _ _ _ hname
      (by simp only [Term, List.mem_append, List.mem_cons] at *; grind)]
    simp only [Out.ok_bind]
    rw [skipWs_append hw2, skipWs_stop (by decide)]
    simp only [Out.ok_bind, rd_cons_zero, List.drop_one, List.tail_cons]
    rw [if_neg (by decide), skipWs_append hw3]
    have : skipWs (t ++ b :: x) = .ok (t ++ b :: x) := by
      rw [hau, List.cons_append, skipWs_stop haw]
    rw [this]
    simp only [Out.ok_bind]
    rw [hp]
    have hD : depthM (.cons name j l) = max (depth j) (depthM l) := by simp only [depthM]
    rcases Nat.lt_or_ge d (depth j) with hd | hd
    · rw [if_neg (by omega), if_neg (by omega)]; rfl
    rw [if_pos hd]
    simp only [Out.ok_bind, hrest, hins]
    have := ihl k d 44 (addMember m name (interp N j)) (order ++ [name]) s (by simp at hn; omega) hs hm'
    by_cases hl' : depthM l ≤ d
    · rw [if_pos hl'] at this
      rw [if_pos (by omega)]
      simp [rd_cons_zero, Out.ok_bind, interpM, JM.names, this]
    · rw [if_neg hl'] at this
      rw [if_neg (by omega)]
      simp [rd_cons_zero, Out.ok_bind, this]


end Verif.Stack
