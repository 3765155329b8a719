import Verif.Model.TextTools
import Verif.Spec.TextTools
import Verif.Lemmas.Strings

namespace Verif.Tools

open Verif Verif.Text Verif.Str Verif.Texts

/-! ## Searching for characters -/

theorem limit_ok {max : Int} (h : -2147483648 < max) : limit max = .ok max.toNat := by
  rw [limit, if_neg (by omega)]

theorem _root_.Verif.Texts.Least.zero {P : Nat → Prop} {n : Nat} (h : P 0) : Least P (n + 1) (some 0) :=
  ⟨by omega, h, fun j hj => by omega⟩

theorem _root_.Verif.Texts.Least.succ {P : Nat → Prop} {n : Nat} {o : Option Nat} (h0 : ¬ P 0)
    (h : Least (fun j => P (j + 1)) n o) : Least P (n + 1) (o.map (· + 1)) := by
  cases o with
  | none =>
    intro j hj
    cases j with
    | zero => exact h0
    | succ j => exact h j (by omega)
  | some i =>
    obtain ⟨h1, h2, h3⟩ := h
    refine ⟨by simpa using h1, h2, fun j hj => ?_⟩
    cases j with
    | zero => exact h0
    | succ j => exact h3 j (by simpa using hj)

theorem _root_.Verif.Texts.Least.congr {P Q : Nat → Prop} {n : Nat} {o : Option Nat} (h : Least P n o) (e : ∀ j, P j ↔ Q j) :
    Least Q n o := by
  have : P = Q := funext fun j => propext (e j)
  exact this ▸ h

theorem _root_.Verif.Texts.Least.unique {P : Nat → Prop} {n : Nat} {o o' : Option Nat} (h : Least P n o) (h' : Least P n o') :
    o = o' := by
  cases o with
  | none =>
    cases o' with
    | none => rfl
    | some j => exact absurd h'.2.1 (h j h'.1)
  | some i =>
    cases o' with
    | none => exact absurd h.2.1 (h' i h.1)
    | some j =>
      have h1 : ¬ i < j := fun hl => h'.2.2 i hl h.2.1
      have h2 : ¬ j < i := fun hl => h.2.2 j hl h'.2.1
      rw [show i = j by omega]

theorem map_shift (o : Option Nat) (i : Nat) : o.map (fun x => i + 1 + x) = (o.map (· + 1)).map (fun x => i + x) := by
  cases o with
  | none => rfl
  | some j => simp; omega




theorem findCharFrom_spec (k : Nat) (r : Bytes) : ∀ (s : Bytes) (i : Nat), 0 ∉ s →
    ∃ o : Option Nat, findCharFrom k i (s ++ 0 :: r) = .ok (o.map (fun x => i + x)) ∧
      Least (fun j => ∃ c, s[j]? = some c ∧ c.toNat = k) s.length o := by
  intro s
  induction s with
  | nil => intro i _; exact ⟨none, by simp [findCharFrom], fun j hj => by simp at hj⟩
  | cons c s ih =>
    intro i h0
    have hc : c ≠ 0 := fun e => h0 (by simp [e])
    rw [List.cons_append, findCharFrom, if_neg hc]
    by_cases hk : c.toNat = k
    · exact ⟨some 0, by simp [hk], Least.zero ⟨c, rfl, hk⟩⟩
    · obtain ⟨o, h1, h2⟩ := ih (i + 1) (fun h => h0 (by simp [h]))
      refine ⟨o.map (· + 1), by rw [if_neg hk, h1, map_shift], Least.succ ?_ (h2.congr fun j => by simp)⟩
      rintro ⟨d, hd, hd'⟩
      simp at hd; exact hk (hd ▸ hd')

theorem findCharMaxFrom_spec (k : Nat) : ∀ (m : Nat) (t s : Bytes) (i : Nat), Within m t s →
    ∃ o : Option Nat, findCharMaxFrom k m i t = .ok (o.map (fun x => i + x)) ∧
      Least (fun j => ∃ c, s[j]? = some c ∧ c.toNat = k) s.length o := by
  intro m
  induction m with
  | zero =>
    intro t s i h
    have : s = [] := by
      rcases h with ⟨_, ⟨h, _⟩ | ⟨h, _⟩⟩
      · exact List.length_eq_zero_iff.mp h
      · omega
    subst this
    exact ⟨none, by simp [findCharMaxFrom], fun j hj => by simp at hj⟩
  | succ m ih =>
    intro t s i h
    cases s with
    | nil =>
      obtain ⟨_, ⟨h, _⟩ | ⟨_, r, rfl⟩⟩ := h
      · simp at h
      · exact ⟨none, by simp [findCharMaxFrom], fun j hj => by simp at hj⟩
    | cons c s =>
      obtain ⟨t', rfl, hw⟩ : ∃ t', t = c :: t' ∧ Within m t' s := by
        obtain ⟨h0, ⟨h, r, rfl⟩ | ⟨h, r, rfl⟩⟩ := h
        · exact ⟨s ++ r, rfl, fun h' => h0 (by simp [h']), .inl ⟨by simpa using h, r, rfl⟩⟩
        · exact ⟨s ++ 0 :: r, rfl, fun h' => h0 (by simp [h']), .inr ⟨by simpa using h, r, rfl⟩⟩
      have hc : c ≠ 0 := fun e => h.1 (by simp [e])
      rw [findCharMaxFrom, if_neg hc]
      by_cases hk : c.toNat = k
      · exact ⟨some 0, by simp [hk], Least.zero ⟨c, rfl, hk⟩⟩
      · obtain ⟨o, h1, h2⟩ := ih t' s (i + 1) hw
        refine ⟨o.map (· + 1), by rw [if_neg hk, h1, map_shift], Least.succ ?_ (h2.congr fun j => by simp)⟩
        rintro ⟨d, hd, hd'⟩
        simp at hd; exact hk (hd ▸ hd')

/-- The bytes seen within a limit, one at a time. -/
theorem _root_.Verif.Texts.Within.cons {m : Nat} {t s : Bytes} {c : Byte} (h : Within (m + 1) t (c :: s)) :
    c ≠ 0 ∧ ∃ t', t = c :: t' ∧ Within m t' s := by
  refine ⟨fun e => h.1 (by simp [e]), ?_⟩
  obtain ⟨h0, ⟨h, r, rfl⟩ | ⟨h, r, rfl⟩⟩ := h
  · exact ⟨s ++ r, rfl, fun h' => h0 (by simp [h']), .inl ⟨by simpa using h, r, rfl⟩⟩
  · exact ⟨s ++ 0 :: r, rfl, fun h' => h0 (by simp [h']), .inr ⟨by simpa using h, r, rfl⟩⟩

theorem _root_.Verif.Texts.Within.nil {m : Nat} {t : Bytes} (h : Within (m + 1) t []) : ∃ r, t = 0 :: r := by
  obtain ⟨_, ⟨h, _⟩ | ⟨_, r, rfl⟩⟩ := h
  · simp at h
  · exact ⟨r, rfl⟩

theorem _root_.Verif.Texts.Within.zero {t s : Bytes} (h : Within 0 t s) : s = [] := by
  rcases h with ⟨_, ⟨h, _⟩ | ⟨h, _⟩⟩
  · exact List.length_eq_zero_iff.mp h
  · omega

theorem within_of_holds {m : Nat} {t s : Bytes} (h : Holds t s) : Within m t (s.take m) := by
  obtain ⟨h0, r, rfl⟩ := h
  refine ⟨not_mem_take h0 m, ?_⟩
  by_cases hm : m ≤ s.length
  · exact .inl ⟨by simp; omega, s.drop m ++ 0 :: r, by rw [← List.append_assoc, List.take_append_drop]⟩
  · exact .inr ⟨by simp; omega, r, by rw [List.take_of_length_le (by omega)]⟩

theorem countFrom_spec (k : Nat) : ∀ (m : Nat) (t s : Bytes) (n : Nat), Within m t s →
    countFrom k m n t = .ok (n + (s.filter fun c => c.toNat = k).length) := by
  intro m
  induction m with
  | zero => intro t s n h; rw [h.zero]; simp [countFrom]
  | succ m ih =>
    intro t s n h
    cases s with
    | nil => obtain ⟨r, rfl⟩ := h.nil; simp [countFrom]
    | cons c s =>
      obtain ⟨hc, t', rfl, hw⟩ := h.cons
      rw [countFrom, if_neg hc, ih t' s _ hw]
      by_cases hk : c.toNat = k
      · simp [hk]; omega
      · simp [hk]

/-! ## Hashing -/

def hashStep (h : UInt32) (c : Byte) : UInt32 := (h ^^^ c.toUInt32) * 0x6B84DF47 + 1

theorem hashLoop_spec (r : Bytes) : ∀ (s : Bytes) (h : UInt32), 0 ∉ s →
    hashLoop h (s ++ 0 :: r) = .ok (s.foldl hashStep h) := by
  intro s
  induction s with
  | nil => intro h _; simp [hashLoop]
  | cons c s ih =>
    intro h h0
    have hc : c ≠ 0 := fun e => h0 (by simp [e])
    rw [List.cons_append, hashLoop, if_neg hc, ih _ (fun h => h0 (by simp [h]))]; rfl

theorem mix_inj {a b : UInt32} (h : a * 0x6B84DF47 + 1 = b * 0x6B84DF47 + 1) : a = b := by
  have h1 : a * 0x6B84DF47 = b * 0x6B84DF47 := by
    have := congrArg (· - 1) h
    simpa [UInt32.add_sub_cancel] using this
  have h2 := congrArg (· * (309926519 : UInt32)) h1
  simp only [UInt32.mul_assoc] at h2
  rw [show (0x6B84DF47 : UInt32) * 309926519 = 1 by decide, UInt32.mul_one, UInt32.mul_one] at h2
  exact h2

theorem xor_cancel_left {a b c : UInt32} (h : a ^^^ b = a ^^^ c) : b = c := by
  have := congrArg (a ^^^ ·) h
  simpa [← UInt32.xor_assoc] using this

theorem hashStep_inj {h h' : UInt32} {c : Byte} (e : hashStep h c = hashStep h' c) : h = h' := by
  have := mix_inj e
  rw [UInt32.xor_comm, UInt32.xor_comm h'] at this
  exact xor_cancel_left this

theorem hashStep_inj_byte {h : UInt32} {c d : Byte} (e : hashStep h c = hashStep h d) : c = d := by
  have := xor_cancel_left (mix_inj e)
  exact UInt8.toUInt32_inj.mp this

theorem foldl_hash_inj (s : Bytes) : ∀ {h h' : UInt32}, s.foldl hashStep h = s.foldl hashStep h' → h = h' := by
  induction s with
  | nil => intro h h' e; exact e
  | cons c s ih => intro h h' e; exact hashStep_inj (ih e)

/-! ## Quotes -/

/-- The state of `FindUnquotedChar` after a character. -/
def quoteStep (st : Bool × Bool) (c : Byte) : Bool × Bool :=
  (if c = 34 then (if !st.1 then true else if !st.2 then false else st.1) else st.1, c = 92 && !st.2)

/-- What the text `p` is like when `FindUnquotedChar` is in state `st` after it. -/
def QuoteInv (p : Bytes) (st : Bool × Bool) : Prop :=
  match st with
  | (false, _) => Outside p
  | (true, false) => ∃ o t s, Outside o ∧ Inner 34 t s ∧ p = o ++ 34 :: t
  | (true, true) => ∃ o t s, Outside o ∧ Inner 34 t s ∧ p = o ++ 34 :: (t ++ [92])

theorem _root_.Verif.Texts.Inner.append {q : Byte} {t s t' s' : Bytes} (h : Inner q t s) (h' : Inner q t' s') :
    Inner q (t ++ t') (s ++ s') := by
  induction h with
  | nil => exact h'
  | plain h1 h2 _ ih => exact .plain h1 h2 ih
  | escape _ ih => exact .escape ih

theorem quoteInv_step {p : Bytes} {st : Bool × Bool} (c : Byte) (h : QuoteInv p st) :
    QuoteInv (p ++ [c]) (quoteStep st c) := by
  obtain ⟨q, b⟩ := st
  by_cases h34 : c = 34
  · subst h34
    match q, b with
    | false, b => exact ⟨p, [], [], h, .nil, rfl⟩
    | true, false =>
      obtain ⟨o, t, s, ho, hi, rfl⟩ := h
      have := Outside.quoted ho hi
      simpa [quoteStep, QuoteInv] using this
    | true, true =>
      obtain ⟨o, t, s, ho, hi, rfl⟩ := h
      exact ⟨o, t ++ [92, 34], s ++ [34], ho, Inner.append hi (.escape .nil), by simp⟩
  · match q, b with
    | false, b =>
      have := Outside.char h h34
      simpa [quoteStep, h34, QuoteInv] using this
    | true, false =>
      obtain ⟨o, t, s, ho, hi, rfl⟩ := h
      by_cases h92 : c = 92
      · subst h92
        exact ⟨o, t, s, ho, hi, by simp⟩
      · have : quoteStep (true, false) c = (true, false) := by simp [quoteStep, h34, h92]
        rw [this]
        exact ⟨o, t ++ [c], s ++ [c], ho, Inner.append hi (.plain h34 h92 .nil), by simp⟩
    | true, true =>
      obtain ⟨o, t, s, ho, hi, rfl⟩ := h
      have : quoteStep (true, true) c = (true, false) := by simp [quoteStep, h34]
      rw [this]
      exact ⟨o, t ++ [92, c], s ++ [c], ho, Inner.append hi (.escape .nil), by simp⟩

theorem quoteInv_foldl (l : Bytes) : ∀ (p : Bytes) (st : Bool × Bool), QuoteInv p st →
    QuoteInv (p ++ l) (l.foldl quoteStep st) := by
  induction l with
  | nil => intro p st h; simpa using h
  | cons c l ih =>
    intro p st h
    have := ih _ _ (quoteInv_step c h)
    simpa using this

theorem inner_state {t s : Bytes} (h : Inner 34 t s) : t.foldl quoteStep (true, false) = (true, false) := by
  generalize hq : (34 : Byte) = q at h
  induction h with
  | nil => rfl
  | @plain c t s h1 h2 _ ih =>
    subst hq
    rw [List.foldl_cons, show quoteStep (true, false) c = (true, false) by simp [quoteStep, h1, h2]]; exact ih
  | @escape c t s _ ih =>
    subst hq
    rw [List.foldl_cons, List.foldl_cons,
      show quoteStep (quoteStep (true, false) 92) c = (true, false) by simp [quoteStep]]; exact ih

theorem outside_iff (p : Bytes) : Outside p ↔ (p.foldl quoteStep (false, false)).1 = false := by
  constructor
  · intro h
    induction h with
    | nil => rfl
    | @char p c hp hc ih => rw [List.foldl_append]; simp [quoteStep, hc, ih]
    | @quoted p t s hp hi ih =>
      rw [List.foldl_append, List.foldl_cons, List.foldl_append]
      generalize hst : p.foldl quoteStep (false, false) = st at *
      obtain ⟨q, b⟩ := st
      obtain rfl : q = false := ih
      rw [show quoteStep (false, b) 34 = (true, false) by simp [quoteStep], inner_state hi]
      simp [quoteStep]
  · intro h
    have := quoteInv_foldl p [] (false, false) .nil
    rw [List.nil_append] at this
    generalize p.foldl quoteStep (false, false) = st at *
    obtain ⟨q, b⟩ := st
    obtain rfl : q = false := h
    exact this

theorem findUnquotedFrom_spec (k : Nat) (hk : k ≠ 34) (r : Bytes) : ∀ (s p : Bytes) (i : Nat), 0 ∉ s →
    ∃ o : Option Nat, findUnquotedFrom k (p.foldl quoteStep (false, false)).1 (p.foldl quoteStep (false, false)).2 i
        (s ++ 0 :: r) = .ok (o.map (fun x => i + x)) ∧
      Least (fun j => (∃ c, s[j]? = some c ∧ c.toNat = k) ∧ Outside (p ++ s.take j)) s.length o := by
  intro s
  induction s with
  | nil => intro p i _; exact ⟨none, by simp [findUnquotedFrom], fun j hj => by simp at hj⟩
  | cons c s ih =>
    intro p i h0
    have hc : c ≠ 0 := fun e => h0 (by simp [e])
    rw [List.cons_append, findUnquotedFrom, if_neg hc]
    have e1 : ((p ++ [c]).foldl quoteStep (false, false)) = quoteStep (p.foldl quoteStep (false, false)) c := by simp
    have hq : c.toNat = k → ((quoteStep (p.foldl quoteStep (false, false)) c).1 = false ↔ Outside p) := by
      intro e
      have : c ≠ 34 := fun e' => hk (by rw [← e, e']; rfl)
      rw [outside_iff]; simp [quoteStep, this]
    have ef : (if c = 34 then (if (!(p.foldl quoteStep (false, false)).1) = true then true
        else if (!(p.foldl quoteStep (false, false)).2) = true then false
        else (p.foldl quoteStep (false, false)).1) else (p.foldl quoteStep (false, false)).1) =
        (quoteStep (p.foldl quoteStep (false, false)) c).1 := rfl
    have eb : (decide (c = 92) && !(p.foldl quoteStep (false, false)).2) =
        (quoteStep (p.foldl quoteStep (false, false)) c).2 := rfl
    simp only [ef, eb]
    by_cases hm : c.toNat = k ∧ (quoteStep (p.foldl quoteStep (false, false)) c).1 = false
    · rw [if_pos hm]
      exact ⟨some 0, by simp, Least.zero ⟨⟨c, rfl, hm.1⟩, by simpa using (hq hm.1).mp hm.2⟩⟩
    · obtain ⟨o, h1, h2⟩ := ih (p ++ [c]) (i + 1) (fun h => h0 (by simp [h]))
      rw [e1] at h1
      refine ⟨o.map (· + 1), by rw [if_neg hm, h1, map_shift], Least.succ ?_ (h2.congr fun j => by simp)⟩
      rintro ⟨⟨d, hd, hd'⟩, ho⟩
      simp at hd; subst hd
      exact hm ⟨hd', (hq hd').mpr (by simpa using ho)⟩

end Verif.Tools
