import Verif.Lemmas.Root
import Verif.Spec.Faults

/-!
# The parser against the description of faults
-/

namespace Verif.Parser

open Verif Verif.Text Verif.Number Verif.Map Verif.Spec

variable {D : Type}

theorem ws_one {c : Byte} : Ws [c] ↔ isWs c = true := by
  rw [isWs_iff]
  simp [Ws]

theorem not_ws_one {c : Byte} : ¬ Ws [c] ↔ isWs c = false := by rw [ws_one]; simp

theorem NotBlank.skip {t : Bytes} (h : NotBlank t) (ht : Term t) : skipWs t = .ok t := by
  obtain ⟨c, s, rfl⟩ := ht.ne_nil
  exact skipWs_stop (not_ws_one.1 (h c s rfl))

theorem notBlank_cons {c : Byte} {s : Bytes} (h : isWs c = false) : NotBlank (c :: s) := by
  intro c' r e
  cases e
  exact not_ws_one.2 h

/-- Whitespace before something else is determined. -/
theorem ws_split {w w' t t' : Bytes} (hw : Ws w) (hw' : Ws w') (ht : NotBlank t) (ht' : NotBlank t') (hn : t ≠ []) (hn' : t' ≠ [])
    (e : w ++ t = w' ++ t') : w = w' ∧ t = t' := by
  induction w generalizing w' with
  | nil =>
    cases w' with
    | nil => exact ⟨rfl, by simpa using e⟩
    | cons a w' =>
      rw [List.nil_append, List.cons_append] at e
      exact absurd (ws_one.2 (Ws.cons_iff.1 hw').1) (ht a _ e)
  | cons a w ih =>
    cases w' with
    | nil =>
      rw [List.nil_append, List.cons_append] at e
      exact absurd (ws_one.2 (Ws.cons_iff.1 hw).1) (ht' a _ e.symm)
    | cons b w' =>
      simp only [List.cons_append, List.cons.injEq] at e
      obtain ⟨rfl, e⟩ := e
      obtain ⟨rfl, rfl⟩ := ih (Ws.cons_iff.1 hw).2 (Ws.cons_iff.1 hw').2 e
      exact ⟨rfl, rfl⟩

/-! ## Strings -/

/-- The status at a byte where no item begins. -/
def stuckStatus (c : Byte) : Status :=
  if c = 0 then .kPrematureNullTerminator else if c = 92 then .kStringIllegalEscape else .kStringIllegalChar

theorem measure_stuck {c : Byte} {s : Bytes} (ht : Term (c :: s)) (h34 : c ≠ 34)
    (h : ∀ i r', DialItem i → c :: s ≠ i.raw ++ r') (n tl cnt : Nat) :
    measureString (n + 1) (c :: s) tl cnt = .ok (stuckStatus c, tl, cnt) := by
  rw [measureString]
  simp only [rd_cons_zero, Out.ok_bind]
  unfold stuckStatus
  by_cases h0 : c = 0
  · rw [if_pos h0, if_pos h0]
  rw [if_neg h0, if_neg h34, if_neg h0]
  by_cases h32 : c.toNat < 32 ∨ c = 127
  · rw [if_pos h32, if_neg]
    rintro rfl
    revert h32
    decide
  rw [if_neg h32]
  by_cases h92 : c = 92
  · subst h92
    rw [if_neg (by simp), if_pos rfl]
    rcases escape_total s (ht.tail (by decide)) with ⟨i, r, w, e, hi, -⟩ | ⟨hm, -⟩
    · exact absurd e (h i r hi)
    · simp only [List.drop_one, List.tail_cons, hm, Out.ok_bind, if_true]
  · rw [if_pos h92, if_neg h92]
    obtain ⟨m, hm, hz | ⟨cp, r, hcp, e, hlen⟩⟩ := validate_sound (c :: s) ht
    · subst hz
      simp [hm]
    · exfalso
      obtain ⟨c', s', ec⟩ : ∃ c' s', utf8 cp = c' :: s' := by
        have := utf8_length_pos cp
        cases h : utf8 cp with
        | nil => rw [h] at this; simp at this
        | cons a b => exact ⟨a, b, rfl⟩
      have : c' = c := by rw [ec] at e; cases e; rfl
      subst this
      exact h (.lit cp) r (lit_of_utf8 hcp ec h32 h34 h92) e

theorem measure_fault (n : Nat) : ∀ (t : Bytes) (tl cnt : Nat) (st : Status) (a b : Nat), Term t →
    measureString n t tl cnt = .ok (st, a, b) → st ≠ .kOk → StrFault t st := by
  induction n with
  | zero => intro t tl cnt st a b ht h; cases h
  | succ n ih =>
    intro t tl cnt st a b ht h hst
    obtain ⟨c, s, rfl⟩ := ht.ne_nil
    by_cases hi : ∃ i r, DialItem i ∧ c :: s = i.raw ++ r
    · obtain ⟨i, r, hi, e⟩ := hi
      have hr : Term r := Adv.term (t := c :: s) ⟨i.raw, e, hi.nul_free⟩ ht
      rw [e, (passes_item n i hi r hr tl cnt []).1] at h
      rw [e]
      exact .item hi (ih r _ _ st a b hr h hst)
    · have hs : ∀ i r', DialItem i → c :: s ≠ i.raw ++ r' := fun i r hi' e => hi ⟨i, r, hi', e⟩
      by_cases h34 : c = 34
      · rw [measureString] at h
        simp only [rd_cons_zero, Out.ok_bind] at h
        rw [if_neg (by rw [h34]; decide), if_pos h34] at h
        cases h
        exact absurd rfl hst
      rw [measure_stuck ht h34 hs] at h
      cases h
      unfold stuckStatus
      split
      · rename_i h0; subst h0; exact .nul
      · split
        · rename_i h92; subst h92; exact .escape hs
        · exact .char (by assumption) h34 (by assumption) hs

theorem fault_measure {t : Bytes} {st : Status} (h : StrFault t st) : Term t → ∀ n tl cnt, t.length < n →
    st ≠ .kOk ∧ ∃ a b, measureString n t tl cnt = .ok (st, a, b) := by
  induction h with
  | nul =>
    intro ht n tl cnt hn
    obtain ⟨n, rfl⟩ : ∃ k, n = k + 1 := ⟨n - 1, by omega⟩
    exact ⟨by decide, _, _, by rw [measureString]; simp [rd_cons_zero]; exact ⟨rfl, rfl⟩⟩
  | @char c r h0 h34 h92 hs =>
    intro ht n tl cnt hn
    obtain ⟨n, rfl⟩ : ∃ k, n = k + 1 := ⟨n - 1, by omega⟩
    refine ⟨by decide, tl, cnt, ?_⟩
    rw [measure_stuck ht h34 hs]
    unfold stuckStatus
    rw [if_neg h0, if_neg h92]
  | @escape r hs =>
    intro ht n tl cnt hn
    obtain ⟨n, rfl⟩ : ∃ k, n = k + 1 := ⟨n - 1, by omega⟩
    refine ⟨by decide, tl, cnt, ?_⟩
    rw [measure_stuck ht (by decide) hs]
    rfl
  | @item i r st hi hf ih =>
    intro ht n tl cnt hn
    obtain ⟨n, rfl⟩ : ∃ k, n = k + 1 := ⟨n - 1, by omega⟩
    have hr : Term r := Adv.term (t := i.raw ++ r) ⟨i.raw, rfl, hi.nul_free⟩ ht
    have := raw_length_pos (i := i)
    rw [(passes_item n i hi r hr tl cnt []).1]
    exact ih hr n _ _ (by rw [List.length_append] at hn; omega)

theorem parseString_fault {s : Bytes} {st : Status} (h : StrFault s st) (ht : Term s) :
    parseString (0x22 :: s) = .ok (.err st s) ∧ st ≠ .kOk ∧ st ≠ .kExpectedBeginingDoubleQuotes := by
  obtain ⟨hst, a, b, hm⟩ := fault_measure h ht (s.length + 1) 0 0 (by omega)
  refine ⟨?_, hst, ?_⟩
  · unfold parseString
    simp only [rd_cons_zero, Out.ok_bind, List.drop_one, List.tail_cons, hm]
    rw [if_neg (by simp), if_pos hst]
  · clear hm
    induction h with
    | nul => decide
    | char => decide
    | escape => decide
    | @item i r st hi hf ih =>
      have hr : Term r := Adv.term (t := i.raw ++ r) ⟨i.raw, rfl, hi.nul_free⟩ ht
      exact ih hr hst

theorem parseString_err {t p : Bytes} {st : Status} (ht : Term t) (h : parseString t = .ok (.err st p)) :
    (st = .kExpectedBeginingDoubleQuotes ∧ p = t ∧ ∀ s, t ≠ 34 :: s) ∨ (t = 0x22 :: p ∧ StrFault p st) := by
  rcases parseString_total t ht with ⟨_, _, _, _, _, _, hp⟩ | ⟨st', p', hp, -, hc | ⟨hst, e⟩⟩
  · rw [hp] at h; cases h
  · rw [hp] at h; cases h; exact .inl hc
  · rw [hp] at h; cases h
    right
    refine ⟨e, ?_⟩
    subst e
    have htp := ht.tail (by decide)
    obtain ⟨is, r, st', his, e, hr, hst', hm, hw⟩ := passes_total (p.length + 1) p htp (by omega)
    unfold parseString at hp
    simp only [rd_cons_zero, Out.ok_bind, List.drop_one, List.tail_cons, hm] at hp
    rw [if_neg (by simp)] at hp
    by_cases hk : st' = .kOk
    · subst hk
      rcases hst' with ⟨-, s, rfl⟩ | ⟨hx, -⟩
      · have hd : DialStr (34 :: (raws is ++ [34])) (utf8s (plainCodes is)) := ⟨is, his, rfl, rfl⟩
        have := parseString_complete _ _ s hd (hr.tail (by decide))
        rw [show (34 :: (raws is ++ [34])) ++ s = 34 :: p by rw [e]; simp] at this
        have hp' := (parseString_total (34 :: p) ht)
        rw [this] at hp'
        rcases hp' with ⟨_, _, _, _, _, _, _⟩ | ⟨_, _, hp', _⟩
        · unfold parseString at this
          simp only [rd_cons_zero, Out.ok_bind, List.drop_one, List.tail_cons, hm] at this
          rw [if_neg (by simp)] at this
          rw [hp] at this
          cases this
        · cases hp'
      · rcases hx with h | h | h <;> cases h
    · rw [if_pos hk] at hp
      cases hp
      exact measure_fault _ p 0 0 _ _ _ htp (hm 0 0) hk

/-! ## Numbers -/

theorem longest_exists {run p junk : Bytes} {d : Dec} (e : run = p ++ junk) (h : LooseNum p d) : ∃ d, LongestNum run d := by
  generalize hk : run.length - p.length = k
  induction k using Nat.strongRecOn generalizing p junk d with
  | _ k ih =>
    by_cases hm : ∀ p' junk' d', run = p' ++ junk' → LooseNum p' d' → p'.length ≤ p.length
    · exact ⟨d, p, junk, e, h, hm⟩
    · simp only [Classical.not_forall] at hm
      obtain ⟨p', junk', d', e', h', hl⟩ := hm
      have : p'.length ≤ run.length := by rw [e']; simp
      exact ih (run.length - p'.length) (by omega) e' h' rfl

theorem run_prefix {run run' s r : Bytes} {c : Byte} (hc : ¬ NumChar c) (h : ∀ x ∈ run', NumChar x)
    (e : run ++ c :: s = run' ++ r) : ∃ x, run = run' ++ x := by
  induction run' generalizing run with
  | nil => exact ⟨run, rfl⟩
  | cons a run' ih =>
    cases run with
    | nil =>
      simp only [List.nil_append, List.cons_append, List.cons.injEq] at e
      exact absurd (h a (by simp)) (e.1 ▸ hc)
    | cons b run =>
      simp only [List.cons_append, List.cons.injEq] at e
      obtain ⟨x, rfl⟩ := ih (fun x hx => h x (by simp [hx])) e.2
      exact ⟨x, by rw [e.1]; rfl⟩

theorem no_number {run run' s r : Bytes} {c : Byte} {d : Dec} (hc : ¬ NumChar c) (hno : ∀ d, ¬ LongestNum run d)
    (h : ∀ x ∈ run', NumChar x) (hl : LongestNum run' d) (e : run ++ c :: s = run' ++ r) : False := by
  obtain ⟨x, rfl⟩ := run_prefix hc h e
  obtain ⟨p, junk, rfl, hp, -⟩ := hl
  obtain ⟨d', hd'⟩ := longest_exists (run := p ++ junk ++ x) (p := p) (junk := junk ++ x) (by simp) hp
  exact hno d' hd'

theorem run_notBlank {run : Bytes} {d : Dec} (h : ∀ x ∈ run, NumChar x) (hl : LongestNum run d) (r : Bytes) : NotBlank (run ++ r) ∧ run ++ r ≠ [] := by
  have := longest_ne_nil hl
  cases run with
  | nil => exact absurd rfl this
  | cons a run =>
    refine ⟨?_, by simp⟩
    intro c r' e
    simp only [List.cons_append, List.cons.injEq] at e
    rw [← e.1]
    intro hw
    exact ws_not_num (ws_one.1 hw) (h a (by simp))

/-- What `NumberValue::Parse` does on a terminated text. -/
theorem parseNumber_cases (N : NumOps D) (hN : NegLaw N) (t : Bytes) (ht : Term t) :
    (∃ tok w d rest, DialNum tok d ∧ Ws w ∧ t = tok ++ (w ++ rest) ∧ Term rest ∧ (∀ c s, w ++ rest = c :: s → ¬ NumChar c) ∧
      parseNumber N t = .ok (.ok rest (numVal N d))) ∨
    (∃ p, LeadZero t p ∧ parseNumber N t = .ok (.err .kNumbersCannotHaveLeadingZeros p)) ∨
    ((∀ tok d r, DialNum tok d → t ≠ tok ++ r) ∧ ∃ p, parseNumber N t = .ok (.err .kFloatInvalid p)) := by
  have core : ∀ (pre t1 : Bytes) (neg : Bool), t = pre ++ t1 → (0 : Byte) ∉ pre → Term t1 →
      parseSign t = .ok (neg, t1) →
      (∀ run d, (∀ c ∈ run, NumChar c) → LongestNum run d → ZeroOk run →
        (∃ x, t1 = run ++ x) →
        DialNum (pre ++ run) (if neg then ⟨!d.neg, d.mantissa, d.exponent⟩ else d)) →
      (∀ c r, t1 = 0x30 :: c :: r → NumChar c → c ≠ 0x2E → LeadZero t t1) →
      (∀ tok d r, DialNum tok d → t = tok ++ r → ∃ run d', (∀ x ∈ run, NumChar x) ∧ LongestNum run d' ∧ t1 = run ++ r) →
      (∃ tok w d rest, DialNum tok d ∧ Ws w ∧ t = tok ++ (w ++ rest) ∧ Term rest ∧ (∀ c s, w ++ rest = c :: s → ¬ NumChar c) ∧
        parseNumber N t = .ok (.ok rest (numVal N d))) ∨
      (∃ p, LeadZero t p ∧ parseNumber N t = .ok (.err .kNumbersCannotHaveLeadingZeros p)) ∨
      ((∀ tok d r, DialNum tok d → t ≠ tok ++ r) ∧ ∃ p, parseNumber N t = .ok (.err .kFloatInvalid p)) := by
    intro pre t1 neg e hpre ht1 hps hmk hzero hno
    obtain ⟨run, c, s, rfl, hrun, hc⟩ := spanFloat_total ht1
    unfold parseNumber
    rw [hps]
    simp only [Out.ok_bind]
    rcases readDouble_spec N run c s hrun hc with ⟨d, hl, hz, hr⟩ | ⟨hn, -, hr⟩ | ⟨hz, hr⟩
    · left
      have htc : Term (c :: s) := (Adv.of_append (run_nul_free hrun)).term ht1
      obtain ⟨w, c', s', hw, hcs, hc', hsk⟩ := skipWs_total htc
      refine ⟨pre ++ run, w, _, c' :: s', hmk run d hrun hl hz ⟨_, rfl⟩, hw, ?_, ?_, ?_, ?_⟩
      · rw [e, hcs]; simp
      · exact (skipWs_adv hsk).term htc
      · intro x y exy
        rw [← hcs] at exy
        cases exy
        exact hc
      · rw [hr]
        simp only [Out.ok_bind, hsk]
        cases neg with
        | false => rfl
        | true =>
          simp only [if_true, numVal]
          rw [hN]
    · right; right
      refine ⟨?_, _, by rw [hr]; rfl⟩
      intro tok d r hd et
      obtain ⟨run', d', h1, h2, h3⟩ := hno tok d r hd et
      exact no_number hc hn h1 h2 h3
    · right; left
      refine ⟨_, ?_, by rw [hr]; rfl⟩
      simp only [ZeroOk, Classical.not_forall] at hz
      obtain ⟨c', r, e', hc'⟩ := hz
      exact hzero c' (r ++ c :: s) (by rw [e']; rfl) (hrun c' (by rw [e']; simp)) hc'
  have sgn : ∀ (sg : Byte) (w : Bytes) (c : Byte) (s : Bytes), sg = 0x2B ∨ sg = 0x2D → Ws w → isWs c = false → t = sg :: (w ++ c :: s) →
      ∀ tok d r, DialNum tok d → t = tok ++ r → ∃ run d', (∀ x ∈ run, NumChar x) ∧ LongestNum run d' ∧ c :: s = run ++ r := by
    intro sg w c s hsg hw hc e tok d r hd et
    rw [e] at et
    cases hd with
    | plain h hl hp hm _ =>
      exfalso
      cases tok with
      | nil => exact longest_ne_nil hl rfl
      | cons a tok =>
        simp only [List.cons_append, List.cons.injEq] at et
        rcases hsg with rfl | rfl
        · exact hp tok (by rw [← et.1])
        · exact hm tok (by rw [← et.1])
    | plus hw' h hl _ =>
      simp only [List.cons_append, List.cons.injEq, List.append_assoc] at et
      obtain ⟨h1, h2⟩ := run_notBlank h hl r
      obtain ⟨-, h3⟩ := ws_split hw hw' (notBlank_cons hc) h1 (by simp) h2 et.2
      exact ⟨_, _, h, hl, h3⟩
    | minus hw' h hl _ =>
      simp only [List.cons_append, List.cons.injEq, List.append_assoc] at et
      obtain ⟨h1, h2⟩ := run_notBlank h hl r
      obtain ⟨-, h3⟩ := ws_split hw hw' (notBlank_cons hc) h1 (by simp) h2 et.2
      exact ⟨_, _, h, hl, h3⟩
  rcases parseSign_total t ht with ⟨w, c, s, hw, hc, e, hp⟩ | ⟨w, c, s, hw, hc, e, hp⟩ | ⟨h1, h2, hp⟩
  · have hpre : (0 : Byte) ∉ (0x2D :: w) := by
      simp only [List.mem_cons, not_or]; exact ⟨by decide, hw.nul_free⟩
    refine core (0x2D :: w) (c :: s) true (by rw [e]; rfl) hpre ?_ hp ?_ ?_ (sgn _ w c s (.inr rfl) hw hc e)
    · have : Adv t (c :: s) := ⟨0x2D :: w, by rw [e]; rfl, hpre⟩
      exact this.term ht
    · intro run d hrun hl hz _
      exact .minus hw hrun hl hz
    · intro c' r e' h1 h2
      rw [e, e']
      exact .signed (.inr rfl) hw h1 h2
  · have hpre : (0 : Byte) ∉ (0x2B :: w) := by
      simp only [List.mem_cons, not_or]; exact ⟨by decide, hw.nul_free⟩
    refine core (0x2B :: w) (c :: s) false (by rw [e]; rfl) hpre ?_ hp ?_ ?_ (sgn _ w c s (.inl rfl) hw hc e)
    · have : Adv t (c :: s) := ⟨0x2B :: w, by rw [e]; rfl, hpre⟩
      exact this.term ht
    · intro run d hrun hl hz _
      exact .plus hw hrun hl hz
    · intro c' r e' h1 h2
      rw [e, e']
      exact .signed (.inl rfl) hw h1 h2
  · refine core [] t false rfl (by simp) ht hp ?_ ?_ ?_
    · intro run d hrun hl hz ⟨x, hx⟩
      refine .plain hrun hl ?_ ?_ hz
      · intro r e; rw [List.nil_append] at e; rw [e] at hx; exact h2 _ hx
      · intro r e; rw [List.nil_append] at e; rw [e] at hx; exact h1 _ hx
    · intro c r e h1 h2
      rw [e]
      exact .plain h1 h2
    · intro tok d r hd et
      cases hd with
      | plain h hl _ _ _ => exact ⟨_, _, h, hl, et⟩
      | plus => exact absurd et (h2 _)
      | minus => exact absurd et (h1 _)

theorem zero_number (N : NumOps D) {t p : Bytes} (h : LeadZero t p) (ht : Term t) :
    parseNumber N t = .ok (.err .kNumbersCannotHaveLeadingZeros p) := by
  have key : ∀ (neg : Bool) (c : Byte) (r : Bytes), NumChar c → c ≠ 0x2E → Term (0x30 :: c :: r) → parseSign t = .ok (neg, 0x30 :: c :: r) →
      parseNumber N t = .ok (.err .kNumbersCannotHaveLeadingZeros (0x30 :: c :: r)) := by
    intro neg c r hc hp htr hs
    obtain ⟨run, a, s, e, hrun, ha⟩ := spanFloat_total htr
    have hx : ∃ x, run = [0x30, c] ++ x := run_prefix (run' := [0x30, c]) (r := r) ha (by
      intro x hx
      simp only [List.mem_cons, List.not_mem_nil, or_false] at hx
      rcases hx with rfl | rfl
      · exact .inl (by simp [Digit])
      · exact hc) e.symm
    obtain ⟨x, rfl⟩ := hx
    unfold parseNumber
    rw [hs]
    simp only [Out.ok_bind]
    rw [e]
    rcases readDouble_spec N _ a s hrun ha with ⟨d, -, hz, -⟩ | ⟨-, hz, -⟩ | ⟨-, hr⟩
    · exact absurd (hz c x rfl) hp
    · exact absurd (hz c x rfl) hp
    · rw [hr]; rfl
  cases h with
  | plain hc hp => exact key false _ _ hc hp ht (parseSign_none (by decide) (by decide))
  | @signed sg w c r hsg hw hc hp =>
    have hne : sg ≠ 0 := by rcases hsg with rfl | rfl <;> decide
    have htr : Term (0x30 :: c :: r) := by
      have := ht.tail hne
      exact (Adv.of_append hw.nul_free).term this
    rcases hsg with rfl | rfl
    · exact key false _ _ hc hp htr (parseSign_plus hw (by decide))
    · exact key true _ _ hc hp htr (parseSign_minus hw (by decide))

/-! ## Values -/

theorem parseAny_number (N : NumOps D) {n : Nat} {t rest : Bytes} {d : D} (h : parseNumber N t = .ok (.ok rest d)) (h34 : ∀ s, t ≠ 34 :: s)
    (ht : Term t) : parseAny N (n + 1) t = .ok (.ok rest (.num d)) := by
  obtain ⟨c, s, rfl⟩ := ht.ne_nil
  rw [parseAny_succ, parseString_other (fun e => h34 s (by rw [e]))]
  simp only [Out.ok_bind, ne_eq, not_true_eq_false, if_false, h]

/-- `any_total`, with the whole number read. -/
theorem any_ends (N : NumOps D) (hN : NegLaw N) (n : Nat) (t : Bytes) (ht : Term t) (hn : 3 * t.length + 1 ≤ n) :
    (∃ tok j w rest, DVal tok j ∧ Ws w ∧ t = tok ++ (w ++ rest) ∧ Term rest ∧ Ends j (w ++ rest) ∧
      parseAny N n t = .ok (.ok rest (interp N j))) ∨ ∃ st p, parseAny N n t = .ok (.err st p) := by
  rcases any_total N hN n t ht hn with ⟨tok, j, w, rest, hv, hw, e, hr, hp⟩ | ⟨st, p, hp, -⟩
  · left
    by_cases hj : ∃ d, j = .num d
    · obtain ⟨d, rfl⟩ := hj
      have hd : DialNum tok d := by cases hv; assumption
      obtain ⟨a, u, rfl, ha⟩ := dialNum_head hd
      have h34 : ∀ s, t ≠ 34 :: s := by
        intro s e'
        rw [e'] at e
        simp only [List.cons_append, List.cons.injEq] at e
        rw [← e.1] at ha
        revert ha
        simp [NumChar, Digit]
      obtain ⟨n, rfl⟩ : ∃ k, n = k + 1 := ⟨n - 1, by omega⟩
      rcases parseNumber_cases N hN t ht with ⟨tok', w', d', rest', hd', hw', e', hr', hends, hp'⟩ | ⟨p, hz, hp'⟩ | ⟨hno, -⟩
      · exact ⟨tok', .num d', w', rest', .num hd', hw', e', hr', fun d _ => hends, by
          rw [parseAny_number N hp' h34 ht]; rfl⟩
      · exfalso
        obtain ⟨c, s, rfl⟩ := ht.ne_nil
        rw [parseAny_succ, parseString_other (fun e => h34 s (by rw [e]))] at hp
        simp only [Out.ok_bind, ne_eq, not_true_eq_false, if_false, hp', if_true] at hp
        cases hp
      · exact absurd e (hno _ _ _ hd)
    · exact ⟨tok, j, w, rest, hv, hw, e, hr, fun d hd => absurd ⟨d, hd⟩ hj, hp⟩
  · exact .inr ⟨st, p, hp⟩

theorem err_arr (N : NumOps D) (hN : NegLaw N) (n : Nat)
    (ihA : ∀ t st p, Term t → 3 * t.length + 1 ≤ n → parseAny N n t = .ok (.err st p) → ErrV t st p)
    (ihL : ∀ c t acc st p, Term t → 3 * t.length + 2 ≤ n → arrayLoop N n (c :: t) acc = .ok (.err st p) → ErrE acc.isEmpty t st p)
    (c : Byte) (t : Bytes) (acc : List (Value D)) (st : Status) (p : Bytes) (ht : Term t) (hn : 3 * t.length + 2 ≤ n + 1)
    (h : arrayLoop N (n + 1) (c :: t) acc = .ok (.err st p)) : ErrE acc.isEmpty t st p := by
  obtain ⟨w1, a, s, hw1, e1, ha, hs1⟩ := skipWs_total ht
  have hadv1 : Adv t (a :: s) := ⟨w1, e1, hw1.nul_free⟩
  have hts := hadv1.term ht
  have hlen1 := hadv1.length_le
  rw [arrayLoop_succ] at h
  simp only [List.drop_one, List.tail_cons, hs1, Out.ok_bind, rd_cons_zero] at h
  by_cases h93 : a = 93
  · subst h93
    rw [if_pos rfl] at h
    cases acc with
    | nil => simp at h
    | cons x acc =>
      simp at h
      obtain ⟨rfl, rfl⟩ := h
      rw [e1]
      exact .close hw1
  · rw [if_neg h93] at h
    rcases any_ends N hN n (a :: s) hts (by omega) with ⟨tok, j, w2, rest, hv, hw2, e2, hr, hends, hp⟩ | ⟨st', p', hp⟩
    · rw [hp] at h
      simp only [Out.ok_bind] at h
      have hz := val_nul_free_ne hv
      have hadv2 : Adv (a :: s) rest := ⟨tok ++ w2, by rw [e2]; simp, by simp [hz.1, hw2.nul_free]⟩
      obtain ⟨w3, b, s3, hw3, e3, hb, hs3⟩ := skipWs_total hr
      have hadv3 : Adv rest (b :: s3) := ⟨w3, e3, hw3.nul_free⟩
      have hlen2 := hadv2.length_le
      have hlen3 := hadv3.length_le
      rw [hs3] at h
      simp only [Out.ok_bind, rd_cons_zero] at h
      have etext : t = w1 ++ (tok ++ ((w2 ++ w3) ++ b :: s3)) := by rw [e1, e2, e3]; simp
      by_cases h44 : b = 44
      · subst h44
        rw [if_neg (by simp)] at h
        have ht4 : Term s3 := (hadv3.term hr).tail (by decide)
        have := ihL 44 s3 _ st p ht4 (by simp only [List.length_cons] at *; omega) h
        rw [etext]
        rw [show (acc ++ [interp N j]).isEmpty = false by simp] at this
        exact .next hw1 hv (hw2.append hw3) this
      · rw [if_pos h44] at h
        by_cases h93' : b = 93
        · rw [if_neg (by simp [h93'])] at h
          cases h
        · rw [if_pos h93'] at h
          cases h
          rw [etext]
          refine .sep hw1 hv (hw2.append hw3) ?_ (not_ws_one.2 hb) h44 h93'
          rw [List.append_assoc, ← e3]
          exact hends
    · have hh := h
      rw [hp] at hh
      cases hh
      rw [e1]
      refine .value hw1 (notBlank_cons ha) ?_ (ihA _ _ _ hts (by omega) hp)
      intro r e
      cases e
      exact h93 rfl

theorem err_obj (N : NumOps D) (hN : NegLaw N) (n : Nat)
    (ihA : ∀ t st p, Term t → 3 * t.length + 1 ≤ n → parseAny N n t = .ok (.err st p) → ErrV t st p)
    (ihL : ∀ c t m order st p, TreeOk m → Term t → 3 * t.length + 2 ≤ n → objectLoop N n (c :: t) m order = .ok (.err st p) →
      ErrM order.isEmpty t st p)
    (c : Byte) (t : Bytes) (m : Tree Bytes (Value D)) (order : List Bytes) (st : Status) (p : Bytes) (hm : TreeOk m) (ht : Term t)
    (hn : 3 * t.length + 2 ≤ n + 1) (h : objectLoop N (n + 1) (c :: t) m order = .ok (.err st p)) : ErrM order.isEmpty t st p := by
  obtain ⟨w1, a, s, hw1, e1, ha, hs1⟩ := skipWs_total ht
  have hadv1 : Adv t (a :: s) := ⟨w1, e1, hw1.nul_free⟩
  have hts := hadv1.term ht
  have hlen1 := hadv1.length_le
  rw [objectLoop_succ] at h
  simp only [List.drop_one, List.tail_cons, hs1, Out.ok_bind, rd_cons_zero] at h
  by_cases h125 : a = 125
  · subst h125
    rw [if_pos rfl] at h
    cases order with
    | nil => simp at h
    | cons x order =>
      simp at h
      obtain ⟨rfl, rfl⟩ := h
      rw [e1]
      exact .close hw1
  · rw [if_neg h125] at h
    rcases parseString_total (a :: s) hts with ⟨tn, name, rest, hname, e2, hr, hp⟩ | ⟨st', p', hp, -⟩
    · rw [hp] at h
      simp only [Out.ok_bind] at h
      have hadv2 : Adv (a :: s) rest := ⟨tn, e2, hname.nul_free⟩
      have hlen2 := hadv2.length_le
      obtain ⟨w2, b, s2, hw2, e3, hb, hs2⟩ := skipWs_total hr
      have hadv3 : Adv rest (b :: s2) := ⟨w2, e3, hw2.nul_free⟩
      have hlen3 := hadv3.length_le
      rw [hs2] at h
      simp only [Out.ok_bind, rd_cons_zero] at h
      by_cases h58 : b = 58
      · subst h58
        rw [if_neg (by simp)] at h
        have hts2 : Term s2 := (hadv3.term hr).tail (by decide)
        obtain ⟨w3, d, s3, hw3, e4, hd, hs3⟩ := skipWs_total hts2
        have hadv4 : Adv s2 (d :: s3) := ⟨w3, e4, hw3.nul_free⟩
        have hlen4 := hadv4.length_le
        have ht4 := hadv4.term hts2
        simp only [List.drop_one, List.tail_cons, hs3, Out.ok_bind] at h
        rcases any_ends N hN n (d :: s3) ht4 (by simp only [List.length_cons] at *; omega) with
          ⟨tok, j, w4, rest', hv, hw4, e5, hr', hends, hp'⟩ | ⟨st', p', hp'⟩
        · rw [hp'] at h
          obtain ⟨hins, hm'⟩ := insertAccounted_ok hm order name (interp N j)
          simp only [Out.ok_bind, hins] at h
          have hz := val_nul_free_ne hv
          have hadv5 : Adv (d :: s3) rest' :=
            ⟨tok ++ w4, by rw [e5]; simp, by simp [hz.1, hw4.nul_free]⟩
          have hlen5 := hadv5.length_le
          obtain ⟨w5, b, s5, hw5, e6, hb, hs5⟩ := skipWs_total hr'
          have hadv6 : Adv rest' (b :: s5) := ⟨w5, e6, hw5.nul_free⟩
          have hlen6 := hadv6.length_le
          have ht6 := hadv6.term hr'
          rw [hs5] at h
          simp only [Out.ok_bind, rd_cons_zero] at h
          have etext : t = w1 ++ (tn ++ (w2 ++ 0x3A :: (w3 ++ (tok ++ ((w4 ++ w5) ++ b :: s5))))) := by
            rw [e1, e2, e3, e4, e5, e6]; simp
          by_cases h44 : b = 44
          · subst h44
            rw [if_neg (by simp)] at h
            have ht7 : Term s5 := ht6.tail (by decide)
            have := ihL 44 s5 _ _ st p hm' ht7 (by simp only [List.length_cons] at *; omega) h
            rw [show (order ++ [name]).isEmpty = false by simp] at this
            rw [etext]
            exact .next hw1 hname hw2 hw3 hv (hw4.append hw5) this
          · rw [if_pos h44] at h
            by_cases h125' : b = 125
            · rw [if_neg (by simp [h125'])] at h
              cases h
            · rw [if_pos h125'] at h
              cases h
              rw [etext]
              refine .sep hw1 hname hw2 hw3 hv (hw4.append hw5) ?_ (not_ws_one.2 hb) h44 h125'
              rw [List.append_assoc, ← e6]
              exact hends
        · have hh := h
          rw [hp'] at hh
          cases hh
          rw [e1, e2, e3, e4]
          exact .value hw1 hname hw2 hw3 (notBlank_cons hd) (ihA _ _ _ ht4 (by simp only [List.length_cons] at *; omega) hp')
      · rw [if_pos h58] at h
        cases h
        rw [e1, e2, e3]
        exact .colon hw1 hname hw2 (not_ws_one.2 hb) h58
    · have hh := h
      rw [hp] at hh
      cases hh
      rcases parseString_err hts hp with ⟨rfl, rfl, h34⟩ | ⟨e, hf⟩
      · rw [e1]
        exact .quote hw1 (not_ws_one.2 ha) (fun e => h34 s (by rw [e])) h125
      · rw [e1, e]
        exact .name hw1 hf

theorem matchWord_false {ws t : Bytes} (h : matchWord ws t = .ok false) (r : Bytes) : t ≠ ws ++ r := by
  rintro rfl
  rw [matchWord_append] at h
  cases h

/-- Every failure of the parser is a fault. -/
theorem err_sound (N : NumOps D) (hN : NegLaw N) (n : Nat) :
    (∀ t st p, Term t → 3 * t.length + 1 ≤ n → parseAny N n t = .ok (.err st p) → ErrV t st p) ∧
    (∀ c t acc st p, Term t → 3 * t.length + 2 ≤ n → arrayLoop N n (c :: t) acc = .ok (.err st p) → ErrE acc.isEmpty t st p) ∧
    (∀ c t m order st p, TreeOk m → Term t → 3 * t.length + 2 ≤ n → objectLoop N n (c :: t) m order = .ok (.err st p) →
      ErrM order.isEmpty t st p) := by
  induction n using Nat.strongRecOn with
  | _ n ih =>
    refine ⟨?_, ?_, ?_⟩
    · intro t st p ht hn h
      obtain ⟨k, rfl⟩ : ∃ k, n = k + 1 := ⟨n - 1, by omega⟩
      rw [parseAny_succ] at h
      rcases parseString_total t ht with ⟨tok, s, rest, hs, e, hr, hp⟩ | ⟨st', p', hp, -⟩
      · rw [hp] at h; cases h
      rcases parseString_err ht hp with ⟨rfl, rfl, h34⟩ | ⟨e, hf⟩
      rotate_left
      · rw [hp] at h
        simp only [Out.ok_bind] at h
        rw [if_pos (parseString_fault hf (by rw [e] at ht; exact ht.tail (by decide))).2.2] at h
        cases h
        rw [e]
        exact .str hf
      rw [hp] at h
      simp only [Out.ok_bind, ne_eq, not_true_eq_false, if_false] at h
      rcases parseNumber_cases N hN p' ht with ⟨_, _, _, _, _, _, _, _, _, hp⟩ | ⟨pz, hz, hp⟩ | ⟨hno, pz, hp⟩
      · rw [hp] at h; cases h
      · rw [hp] at h
        simp only [Out.ok_bind, if_true] at h
        cases h
        exact .zero hz
      rw [hp] at h
      simp only [Out.ok_bind] at h
      rw [if_neg (by decide)] at h
      have hbool : ((∀ r, p' ≠ [0x74, 0x72, 0x75, 0x65] ++ r) ∧ (∀ r, p' ≠ [0x66, 0x61, 0x6C, 0x73, 0x65] ++ r) ∧
          parseBool p' = .ok (.err .kExpectedTrueOrFalse p')) := by
        unfold parseBool at h ⊢
        rcases matchWord_total [116, 114, 117, 101] p' ht (by decide) with ⟨hm, -⟩ | hm
        · rw [hm] at h; cases h
        · rw [hm] at h ⊢
          simp only [Out.ok_bind] at h ⊢
          rcases matchWord_total [102, 97, 108, 115, 101] p' ht (by decide) with ⟨hm', -⟩ | hm'
          · rw [hm'] at h; cases h
          · rw [hm']
            exact ⟨matchWord_false hm, matchWord_false hm', rfl⟩
      rw [hbool.2.2] at h
      simp only [Out.ok_bind] at h
      have hnull : (∀ r, p' ≠ [0x6E, 0x75, 0x6C, 0x6C] ++ r) ∧ parseNull p' = .ok (.err .kExpectedNull p') := by
        unfold parseNull at h ⊢
        rcases matchWord_total [110, 117, 108, 108] p' ht (by decide) with ⟨hm, -⟩ | hm
        · rw [hm] at h; cases h
        · rw [hm]
          exact ⟨matchWord_false hm, rfl⟩
      rw [hnull.2] at h
      simp only [Out.ok_bind] at h
      obtain ⟨c, s, rfl⟩ := ht.ne_nil
      obtain ⟨k, rfl⟩ : ∃ i, k = i + 1 := ⟨k - 1, by simp at hn; omega⟩
      rw [parseArray_succ] at h
      simp only [rd_cons_zero, Out.ok_bind] at h
      by_cases h91 : c = 91
      · subst h91
        rw [if_neg (by simp)] at h
        have hs := ht.tail (by decide)
        rcases (all_total N hN k).2.1 91 s [] hs (by simp at hn; omega) with
          ⟨-, _, _, _, _, _, hp⟩ | ⟨_, _, _, _, _, _, hp⟩ | ⟨st', p', hp, hst, -⟩
        · rw [hp] at h; cases h
        · rw [hp] at h; cases h
        · have := (ih k (by omega)).2.1 91 s [] st' p' hs (by simp at hn; omega) hp
          rw [hp] at h
          simp only [Out.ok_bind] at h
          rw [if_pos hst.ne.2.1] at h
          cases h
          exact .arr this
      · rw [if_pos h91] at h
        simp only [Out.ok_bind, not_true_eq_false, if_false, parseObject_succ, rd_cons_zero] at h
        by_cases h123 : c = 123
        · subst h123
          rw [if_neg (by simp)] at h
          have hs := ht.tail (by decide)
          rcases (all_total N hN k).2.2 123 s .nil [] treeOk_nil hs (by simp at hn; omega) with
            ⟨-, _, _, _, _, _, hp⟩ | ⟨_, _, _, _, _, _, hp⟩ | ⟨st', p', hp, hst, -⟩
          · rw [hp] at h; cases h
          · rw [hp] at h; cases h
          · have := (ih k (by omega)).2.2 123 s .nil [] st' p' treeOk_nil hs (by simp at hn; omega) hp
            rw [hp] at h
            simp only [Out.ok_bind] at h
            rw [if_pos (.inl hst.ne.2.2)] at h
            cases h
            exact .obj this
        · rw [if_pos h123] at h
          simp only [Out.ok_bind] at h
          rw [if_neg (by decide)] at h
          cases h
          refine .none ⟨h34, ?_, ?_, hbool.1, hbool.2.1, hnull.1, hno⟩
          · intro r e; cases e; exact h91 rfl
          · intro r e; cases e; exact h123 rfl
    · intro c t acc st p ht hn h
      obtain ⟨k, rfl⟩ : ∃ k, n = k + 1 := ⟨n - 1, by omega⟩
      exact err_arr N hN k (ih k (by omega)).1 (ih k (by omega)).2.1 c t acc st p ht hn h
    · intro c t m order st p hm ht hn h
      obtain ⟨k, rfl⟩ : ∃ k, n = k + 1 := ⟨n - 1, by omega⟩
      exact err_obj N hN k (ih k (by omega)).1 (ih k (by omega)).2.2 c t m order st p hm ht hn h

/-! ## Every fault is reported -/

theorem ends_sep {w r : Bytes} {c : Byte} (hw : Ws w) (hc : ¬ NumChar c) (j : J) : Ends j (w ++ c :: r) := by
  intro d _ a u e
  cases w with
  | nil => cases e; exact hc
  | cons b w =>
    simp only [List.cons_append, List.cons.injEq] at e
    rw [← e.1]
    exact ws_not_num (Ws.cons_iff.1 hw).1

theorem value_read (N : NumOps D) (hN : NegLaw N) {tok w r : Bytes} {j : J} {c : Byte} (hv : DVal tok j) (hw : Ws w)
    (he : Ends j (w ++ c :: r)) (hc : isWs c = false) (ht : Term (c :: r)) {n : Nat} (hn : 3 * tok.length + 1 ≤ n) :
    ∃ rest, parseAny N n (tok ++ (w ++ c :: r)) = .ok (.ok rest (interp N j)) ∧ skipWs rest = .ok (c :: r) := by
  have hsk : skipWs (w ++ c :: r) = .ok (c :: r) := by rw [skipWs_append hw, skipWs_stop hc]
  have htw : Term (w ++ c :: r) := by simp only [Term, List.mem_append]; exact .inr ht
  obtain ⟨a, u, e⟩ := htw.ne_nil
  rw [e] at he hsk htw ⊢
  refine any_complete N hN hv n a u _ hn ?_ htw hsk
  by_cases hj : ∃ d, j = .num d
  · obtain ⟨d, rfl⟩ := hj
    exact .inl (he d rfl a u rfl)
  · exact .inr fun d e => hj ⟨d, e⟩

theorem val_start {tok : Bytes} {j : J} (hv : DVal tok j) (q : Bytes) :
    skipWs (tok ++ q) = .ok (tok ++ q) ∧ ∃ a, rd (tok ++ q) 0 = .ok a ∧ a ≠ 93 ∧ a ≠ 125 := by
  obtain ⟨a, u, rfl, haw, ha93, ha125⟩ := val_head hv
  rw [List.cons_append, skipWs_stop haw]
  exact ⟨rfl, a, rfl, ha93, ha125⟩

theorem name_start {tok x : Bytes} (h : DialStr tok x) (q : Bytes) : skipWs (tok ++ q) = .ok (tok ++ q) ∧ rd (tok ++ q) 0 = .ok 34 := by
  obtain ⟨u, rfl⟩ := h.head
  rw [List.cons_append, skipWs_stop (by decide)]
  exact ⟨rfl, rfl⟩

theorem parseAny_arr_err (N : NumOps D) (n : Nat) {s p : Bytes} {st : Status} (h : arrayLoop N n (91 :: s) [] = .ok (.err st p))
    (hst : st ≠ .kExpectedOpeningSquareBrackets) : parseAny N (n + 2) (91 :: s) = .ok (.err st p) := by
  rw [parseAny_other N (n + 1) (by decide) (by simp [NumChar, Digit]), parseBool_other (by decide) (by decide)]
  simp only [Out.ok_bind]
  rw [parseNull_other (by decide)]
  simp only [Out.ok_bind]
  rw [parseArray_succ]
  simp only [rd_cons_zero, Out.ok_bind]
  rw [if_neg (by simp), h]
  simp only [Out.ok_bind]
  rw [if_pos hst]

theorem parseAny_obj_err (N : NumOps D) (n : Nat) {s p : Bytes} {st : Status} (h : objectLoop N n (123 :: s) .nil [] = .ok (.err st p))
    (hst : st ≠ .kExpectedOpeningCurlyBraces) : parseAny N (n + 2) (123 :: s) = .ok (.err st p) := by
  rw [parseAny_other N (n + 1) (by decide) (by simp [NumChar, Digit]), parseBool_other (by decide) (by decide)]
  simp only [Out.ok_bind]
  rw [parseNull_other (by decide)]
  simp only [Out.ok_bind]
  rw [parseArray_succ]
  simp only [rd_cons_zero, Out.ok_bind]
  rw [if_pos (by decide)]
  simp only [Out.ok_bind, ne_eq, not_true_eq_false, if_false]
  rw [parseObject_succ]
  simp only [rd_cons_zero, Out.ok_bind]
  rw [if_neg (by simp), h]
  simp only [Out.ok_bind]
  rw [if_pos (.inl hst)]

theorem fits {a b : Bytes} {n k : Nat} (h : 3 * (a ++ b).length + k ≤ n) : 3 * a.length + k ≤ n ∧ 3 * b.length + k ≤ n := by
  rw [List.length_append] at h
  omega

/-- A fault in a text that should begin with a value is reported. -/
def RepV (N : NumOps D) (t : Bytes) (st : Status) (p : Bytes) : Prop :=
  st ≠ .kOk ∧ st ≠ .kExpectedOpeningSquareBrackets ∧ st ≠ .kExpectedOpeningCurlyBraces ∧
  (Term t → ∀ n, 3 * t.length + 1 ≤ n → parseAny N n t = .ok (.err st p))

/-- A fault in a text that should continue an array is reported. -/
def RepE (N : NumOps D) (b : Bool) (t : Bytes) (st : Status) (p : Bytes) : Prop :=
  st ≠ .kOk ∧ st ≠ .kExpectedOpeningSquareBrackets ∧ st ≠ .kExpectedOpeningCurlyBraces ∧
  (Term t → ∀ n c acc, 3 * t.length + 2 ≤ n → acc.isEmpty = b → arrayLoop N n (c :: t) acc = .ok (.err st p))

/-- A fault in a text that should continue an object is reported. -/
def RepM (N : NumOps D) (b : Bool) (t : Bytes) (st : Status) (p : Bytes) : Prop :=
  st ≠ .kOk ∧ st ≠ .kExpectedOpeningSquareBrackets ∧ st ≠ .kExpectedOpeningCurlyBraces ∧
  (Term t → ∀ n c m order, 3 * t.length + 2 ≤ n → TreeOk m → order.isEmpty = b → objectLoop N n (c :: t) m order = .ok (.err st p))

theorem strFault_status {s : Bytes} {st : Status} (h : StrFault s st) :
    st ≠ .kOk ∧ st ≠ .kExpectedOpeningSquareBrackets ∧ st ≠ .kExpectedOpeningCurlyBraces := by
  induction h with
  | nul => decide
  | char => decide
  | escape => decide
  | item _ _ ih => exact ih

theorem leadZero_number {t p : Bytes} (h : LeadZero t p) : ∃ tok d r, DialNum tok d ∧ t = tok ++ r := by
  have hl : LongestNum [0x30] ⟨false, 0, 0⟩ := by
    rw [← strtodParts_iff]; rfl
  have hn : ∀ x ∈ ([0x30] : Bytes), NumChar x := by simp [NumChar, Digit]
  have hz : ZeroOk [0x30] := by
    intro c r e
    cases e
  cases h with
  | @plain c r =>
    exact ⟨[0x30], _, c :: r, .plain hn hl (by simp) (by simp) hz, rfl⟩
  | @signed s w c r hs hw =>
    rcases hs with rfl | rfl
    · exact ⟨0x2B :: (w ++ [0x30]), _, c :: r, .plus hw hn hl hz, by simp⟩
    · exact ⟨0x2D :: (w ++ [0x30]), _, c :: r, .minus hw hn hl hz, by simp⟩

theorem rep_none (N : NumOps D) (hN : NegLaw N) {t : Bytes} (h : NoValue t) : RepV N t .kExpectedJsonValue t := by
  refine ⟨by decide, by decide, by decide, ?_⟩
  intro ht n hn
  obtain ⟨h1, h2, h3, h4, h5, h6, h7⟩ := h
  rcases any_total N hN n t ht hn with ⟨tok, j, w, rest, hv, hw, e, hr, hp⟩ | ⟨st, p, hp, -⟩
  · exfalso
    cases hv with
    | true => exact h4 _ e
    | false => exact h5 _ e
    | null => exact h6 _ e
    | num hd => exact h7 _ _ _ hd e
    | str hs =>
      obtain ⟨u, rfl⟩ := hs.head
      exact h1 _ e
    | arrEmpty => exact h2 _ e
    | arr => exact h2 _ e
    | objEmpty => exact h3 _ e
    | obj => exact h3 _ e
  · have := (err_sound N hN n).1 t st p ht hn hp
    cases this with
    | none => exact hp
    | zero hz =>
      obtain ⟨tok, d, r, hd, e⟩ := leadZero_number hz
      exact absurd e (h7 tok d r hd)
    | str => exact absurd rfl (h1 _)
    | arr => exact absurd rfl (h2 _)
    | obj => exact absurd rfl (h3 _)

theorem err_complete (N : NumOps D) (hN : NegLaw N) {t p : Bytes} {st : Status} (h : ErrV t st p) : RepV N t st p := by
  refine ErrV.rec (motive_1 := fun t st p _ => RepV N t st p) (motive_2 := fun b t st p _ => RepE N b t st p)
    (motive_3 := fun b t st p _ => RepM N b t st p) ?_ ?_ ?_ ?_ ?_ ?_ ?_ ?_ ?_ ?_ ?_ ?_ ?_ ?_ ?_ ?_ h
  · intro t h
    exact rep_none N hN h
  · intro t p h
    refine ⟨by decide, by decide, by decide, ?_⟩
    intro ht n hn
    obtain ⟨k, rfl⟩ : ∃ k, n = k + 1 := ⟨n - 1, by omega⟩
    have h34 : ∀ s, t ≠ 34 :: s := by
      intro s e
      cases h with
      | plain => cases e
      | signed hs => rcases hs with rfl | rfl <;> cases e
    obtain ⟨c, s, rfl⟩ := ht.ne_nil
    rw [parseAny_succ, parseString_other (fun e => h34 s (by rw [e]))]
    simp only [Out.ok_bind, ne_eq, not_true_eq_false, if_false, zero_number N h ht, if_true]
  · intro s st h
    refine ⟨(strFault_status h).1, (strFault_status h).2.1, (strFault_status h).2.2, ?_⟩
    intro ht n hn
    obtain ⟨k, rfl⟩ : ∃ k, n = k + 1 := ⟨n - 1, by omega⟩
    obtain ⟨h1, h2, h3⟩ := parseString_fault h (ht.tail (by decide))
    rw [parseAny_succ, h1]
    simp only [Out.ok_bind]
    rw [if_pos h3]
  · intro s st p _ ⟨h1, h2, h3, ih⟩
    refine ⟨h1, h2, h3, ?_⟩
    intro ht n hn
    obtain ⟨k, rfl⟩ : ∃ k, n = k + 2 := ⟨n - 2, by simp at hn; omega⟩
    exact parseAny_arr_err N k (ih (ht.tail (by decide)) k 91 [] (by simp at hn; omega) rfl) h2
  · intro s st p _ ⟨h1, h2, h3, ih⟩
    refine ⟨h1, h2, h3, ?_⟩
    intro ht n hn
    obtain ⟨k, rfl⟩ : ∃ k, n = k + 2 := ⟨n - 2, by simp at hn; omega⟩
    exact parseAny_obj_err N k (ih (ht.tail (by decide)) k 123 .nil [] (by simp at hn; omega) treeOk_nil rfl) h3
  · -- array: closing bracket after a comma
    intro w r hw
    refine ⟨by decide, by decide, by decide, ?_⟩
    intro ht n c acc hn hb
    obtain ⟨k, rfl⟩ : ∃ k, n = k + 1 := ⟨n - 1, by omega⟩
    rw [arrayLoop_succ]
    simp only [List.drop_one, List.tail_cons, skipWs_append hw]
    rw [skipWs_stop (by decide)]
    simp only [Out.ok_bind, rd_cons_zero, if_true]
    cases acc with
    | nil => cases hb
    | cons => simp
  · intro b w t st p hw hnb h93 _ ⟨h1, h2, h3, ih⟩
    refine ⟨h1, h2, h3, ?_⟩
    intro ht n c acc hn hb
    obtain ⟨k, rfl⟩ : ∃ k, n = k + 1 := ⟨n - 1, by omega⟩
    have htt : Term t := (Adv.of_append hw.nul_free).term ht
    obtain ⟨a, s, rfl⟩ := htt.ne_nil
    rw [arrayLoop_succ]
    simp only [List.drop_one, List.tail_cons, skipWs_append hw]
    rw [skipWs_stop (not_ws_one.1 (hnb _ _ rfl))]
    simp only [Out.ok_bind, rd_cons_zero]
    rw [if_neg (fun e => h93 s (by rw [e])), ih htt k (by have := (fits hn).2; omega)]
    rfl
  · intro b w tok j w' c r hw hv hw' he hc h44 h93
    refine ⟨by decide, by decide, by decide, ?_⟩
    intro ht n c0 acc hn hb
    obtain ⟨k, rfl⟩ : ∃ k, n = k + 1 := ⟨n - 1, by omega⟩
    have ht1 : Term (tok ++ (w' ++ c :: r)) := (Adv.of_append hw.nul_free).term ht
    have ht2 : Term (w' ++ c :: r) := (Adv.of_append (val_nul_free hv)).term ht1
    have ht3 : Term (c :: r) := (Adv.of_append hw'.nul_free).term ht2
    obtain ⟨rest, hp, hr⟩ := value_read N hN hv hw' he (not_ws_one.1 hc) ht3 (n := k) (by have := (fits (fits hn).2).1; omega)
    obtain ⟨hs, a, ha, ha93, -⟩ := val_start hv (w' ++ c :: r)
    rw [arrayLoop_succ]
    simp only [List.drop_one, List.tail_cons, skipWs_append hw, hs, Out.ok_bind, ha]
    rw [if_neg ha93, hp]
    simp only [Out.ok_bind, hr, rd_cons_zero]
    rw [if_pos h44, if_pos h93]
  · intro b w tok j w' s st p hw hv hw' _ ⟨h1, h2, h3, ih⟩
    refine ⟨h1, h2, h3, ?_⟩
    intro ht n c0 acc hn hb
    obtain ⟨k, rfl⟩ : ∃ k, n = k + 1 := ⟨n - 1, by omega⟩
    have ht1 : Term (tok ++ (w' ++ 44 :: s)) := (Adv.of_append hw.nul_free).term ht
    have ht2 : Term (w' ++ 44 :: s) := (Adv.of_append (val_nul_free hv)).term ht1
    have ht3 : Term (44 :: s) := (Adv.of_append hw'.nul_free).term ht2
    obtain ⟨rest, hp, hr⟩ := value_read N hN hv hw' (ends_sep hw' (by simp [NumChar, Digit]) j) (by decide) ht3 (n := k)
      (by have := (fits (fits hn).2).1; omega)
    obtain ⟨hs, a, ha, ha93, -⟩ := val_start hv (w' ++ 44 :: s)
    rw [arrayLoop_succ]
    simp only [List.drop_one, List.tail_cons, skipWs_append hw, hs, Out.ok_bind, ha]
    rw [if_neg ha93, hp]
    simp only [Out.ok_bind, hr, rd_cons_zero]
    rw [if_neg (by simp)]
    refine ih (ht3.tail (by decide)) k 44 _ ?_ (by simp)
    have := (fits (fits (fits hn).2).2).2
    simp only [List.length_cons] at this
    omega
  · -- object: closing brace after a comma
    intro w r hw
    refine ⟨by decide, by decide, by decide, ?_⟩
    intro ht n c m order hn hm hb
    obtain ⟨k, rfl⟩ : ∃ k, n = k + 1 := ⟨n - 1, by omega⟩
    rw [objectLoop_succ]
    simp only [List.drop_one, List.tail_cons, skipWs_append hw]
    rw [skipWs_stop (by decide)]
    simp only [Out.ok_bind, rd_cons_zero, if_true]
    cases order with
    | nil => cases hb
    | cons => simp
  · intro b w c r hw hc h34 h125
    refine ⟨by decide, by decide, by decide, ?_⟩
    intro ht n c0 m order hn hm hb
    obtain ⟨k, rfl⟩ : ∃ k, n = k + 1 := ⟨n - 1, by omega⟩
    rw [objectLoop_succ]
    simp only [List.drop_one, List.tail_cons, skipWs_append hw]
    rw [skipWs_stop (not_ws_one.1 hc)]
    simp only [Out.ok_bind, rd_cons_zero]
    rw [if_neg h125, parseString_other h34]
    rfl
  · intro b w s st hw hf
    refine ⟨(strFault_status hf).1, (strFault_status hf).2.1, (strFault_status hf).2.2, ?_⟩
    intro ht n c0 m order hn hm hb
    obtain ⟨k, rfl⟩ : ∃ k, n = k + 1 := ⟨n - 1, by omega⟩
    have ht1 : Term (34 :: s) := (Adv.of_append hw.nul_free).term ht
    rw [objectLoop_succ]
    simp only [List.drop_one, List.tail_cons, skipWs_append hw]
    rw [skipWs_stop (by decide)]
    simp only [Out.ok_bind, rd_cons_zero]
    rw [if_neg (by decide), (parseString_fault hf (ht1.tail (by decide))).1]
    rfl
  · intro b w n x w' c r hw hname hw' hc h58
    refine ⟨by decide, by decide, by decide, ?_⟩
    intro ht n' c0 m order hn hm hb
    obtain ⟨k, rfl⟩ : ∃ k, n' = k + 1 := ⟨n' - 1, by omega⟩
    have ht1 : Term (n ++ (w' ++ c :: r)) := (Adv.of_append hw.nul_free).term ht
    have ht2 : Term (w' ++ c :: r) := (Adv.of_append hname.nul_free).term ht1
    rw [objectLoop_succ]
    simp only [List.drop_one, List.tail_cons, skipWs_append hw, (name_start hname _).1, (name_start hname _).2, Out.ok_bind]
    rw [if_neg (by decide), parseString_complete _ _ _ hname ht2]
    simp only [Out.ok_bind, skipWs_append hw', skipWs_stop (not_ws_one.1 hc), rd_cons_zero]
    rw [if_pos h58]
  · intro b w n x w1 w2 t st p hw hname hw1 hw2 hnb _ ⟨h1, h2, h3, ih⟩
    refine ⟨h1, h2, h3, ?_⟩
    intro ht n' c0 m order hn hm hb
    obtain ⟨k, rfl⟩ : ∃ k, n' = k + 1 := ⟨n' - 1, by omega⟩
    have ht1 : Term (n ++ (w1 ++ 58 :: (w2 ++ t))) := (Adv.of_append hw.nul_free).term ht
    have ht2 : Term (w1 ++ 58 :: (w2 ++ t)) := (Adv.of_append hname.nul_free).term ht1
    have ht3 : Term (58 :: (w2 ++ t)) := (Adv.of_append hw1.nul_free).term ht2
    have ht4 : Term t := (Adv.of_append hw2.nul_free).term (ht3.tail (by decide))
    rw [objectLoop_succ]
    simp only [List.drop_one, List.tail_cons, skipWs_append hw, (name_start hname _).1, (name_start hname _).2, Out.ok_bind]
    rw [if_neg (by decide), parseString_complete _ _ _ hname ht2]
    simp only [Out.ok_bind, skipWs_append hw1]
    rw [skipWs_stop (by decide)]
    simp only [Out.ok_bind, rd_cons_zero]
    rw [if_neg (by simp)]
    simp only [List.drop_one, List.tail_cons, skipWs_append hw2, NotBlank.skip hnb ht4, Out.ok_bind]
    rw [ih ht4 k (by simp only [List.length_append, List.length_cons] at hn; omega)]
    rfl
  · intro b w n x w1 w2 tok j w' c r hw hname hw1 hw2 hv hw' he hc h44 h125
    refine ⟨by decide, by decide, by decide, ?_⟩
    intro ht n' c0 m order hn hm hb
    obtain ⟨k, rfl⟩ : ∃ k, n' = k + 1 := ⟨n' - 1, by omega⟩
    have ht1 : Term (n ++ (w1 ++ 58 :: (w2 ++ (tok ++ (w' ++ c :: r))))) := (Adv.of_append hw.nul_free).term ht
    have ht2 : Term (w1 ++ 58 :: (w2 ++ (tok ++ (w' ++ c :: r)))) := (Adv.of_append hname.nul_free).term ht1
    have ht3 : Term (58 :: (w2 ++ (tok ++ (w' ++ c :: r)))) := (Adv.of_append hw1.nul_free).term ht2
    have ht4 : Term (tok ++ (w' ++ c :: r)) := (Adv.of_append hw2.nul_free).term (ht3.tail (by decide))
    have ht5 : Term (w' ++ c :: r) := (Adv.of_append (val_nul_free hv)).term ht4
    have ht6 : Term (c :: r) := (Adv.of_append hw'.nul_free).term ht5
    obtain ⟨rest, hp, hr⟩ := value_read N hN hv hw' he (not_ws_one.1 hc) ht6 (n := k)
      (by simp only [List.length_append, List.length_cons] at hn; omega)
    obtain ⟨hins, hm'⟩ := insertAccounted_ok hm order x (interp N j)
    rw [objectLoop_succ]
    simp only [List.drop_one, List.tail_cons, skipWs_append hw, (name_start hname _).1, (name_start hname _).2, Out.ok_bind]
    rw [if_neg (by decide), parseString_complete _ _ _ hname ht2]
    simp only [Out.ok_bind, skipWs_append hw1]
    rw [skipWs_stop (by decide)]
    simp only [Out.ok_bind, rd_cons_zero]
    rw [if_neg (by simp)]
    simp only [List.drop_one, List.tail_cons, skipWs_append hw2, (val_start hv _).1, Out.ok_bind, hp, hins, hr, rd_cons_zero]
    rw [if_pos h44, if_pos h125]
  · intro b w n x w1 w2 tok j w' s st p hw hname hw1 hw2 hv hw' _ ⟨h1, h2, h3, ih⟩
    refine ⟨h1, h2, h3, ?_⟩
    intro ht n' c0 m order hn hm hb
    obtain ⟨k, rfl⟩ : ∃ k, n' = k + 1 := ⟨n' - 1, by omega⟩
    have ht1 : Term (n ++ (w1 ++ 58 :: (w2 ++ (tok ++ (w' ++ 44 :: s))))) := (Adv.of_append hw.nul_free).term ht
    have ht2 : Term (w1 ++ 58 :: (w2 ++ (tok ++ (w' ++ 44 :: s)))) := (Adv.of_append hname.nul_free).term ht1
    have ht3 : Term (58 :: (w2 ++ (tok ++ (w' ++ 44 :: s)))) := (Adv.of_append hw1.nul_free).term ht2
    have ht4 : Term (tok ++ (w' ++ 44 :: s)) := (Adv.of_append hw2.nul_free).term (ht3.tail (by decide))
    have ht5 : Term (w' ++ 44 :: s) := (Adv.of_append (val_nul_free hv)).term ht4
    have ht6 : Term (44 :: s) := (Adv.of_append hw'.nul_free).term ht5
    obtain ⟨rest, hp, hr⟩ := value_read N hN hv hw' (ends_sep hw' (by simp [NumChar, Digit]) j) (by decide) ht6 (n := k)
      (by simp only [List.length_append, List.length_cons] at hn; omega)
    obtain ⟨hins, hm'⟩ := insertAccounted_ok hm order x (interp N j)
    rw [objectLoop_succ]
    simp only [List.drop_one, List.tail_cons, skipWs_append hw, (name_start hname _).1, (name_start hname _).2, Out.ok_bind]
    rw [if_neg (by decide), parseString_complete _ _ _ hname ht2]
    simp only [Out.ok_bind, skipWs_append hw1]
    rw [skipWs_stop (by decide)]
    simp only [Out.ok_bind, rd_cons_zero]
    rw [if_neg (by simp)]
    simp only [List.drop_one, List.tail_cons, skipWs_append hw2, (val_start hv _).1, Out.ok_bind, hp, hins, hr, rd_cons_zero]
    rw [if_neg (by simp)]
    exact ih (ht6.tail (by decide)) k 44 _ _ (by simp only [List.length_append, List.length_cons] at hn; omega) hm' (by simp)

/-! ## Documents -/

theorem root_fault (N : NumOps D) (hN : NegLaw N) (buf : Bytes) (h3 : 3 ≤ buf.length) (hlast : buf.getLast? = some 0) :
    (∀ st root line col, st ≠ .kOk → parseRoot N (parseFuel buf) buf = .ok ⟨st, root, line, col⟩ →
      ∃ q, Fault buf st q ∧ line = lineOf q ∧ col = colOf q) ∧
    (∀ st q, Fault buf st q → st ≠ .kOk ∧ ∃ root, parseRoot N (parseFuel buf) buf = .ok ⟨st, root, lineOf q, colOf q⟩) := by
  have ht := (last_zero hlast).1
  obtain ⟨w1, a, s, hw1, e1, ha, hs1⟩ := skipWs_total ht
  have hadv1 : Adv buf (a :: s) := ⟨w1, e1, hw1.nul_free⟩
  have hts := hadv1.term ht
  have hlen := hadv1.length_le
  have hfuel : 3 * (a :: s).length + 1 ≤ parseFuel buf := by unfold parseFuel; omega
  have htake : ∀ p q : Bytes, a :: s = p ++ q → (a :: s).take ((a :: s).length - q.length) = p := by
    intro p q e
    rw [e]
    simp
  rw [parseRoot_unfold N _ buf h3 hlast, hs1]
  simp only [Out.ok_bind]
  constructor
  · intro st root line col hst h
    rcases any_ends N hN _ (a :: s) hts hfuel with ⟨tok, j, w2, rest, hv, hw2, e2, hr, hends, hp⟩ | ⟨st', p, hp⟩
    · rw [hp] at h
      obtain ⟨w3, c, u, hw3, e3, hc, hs3⟩ := skipWs_total hr
      simp only [Out.ok_bind, hs3, rd_cons_zero, true_and] at h
      have eall : a :: s = (tok ++ (w2 ++ w3)) ++ c :: u := by rw [e2, e3]; simp
      by_cases h0 : c = 0
      · exfalso
        subst h0
        simp at h
        exact hst h.1.symm
      · rw [if_pos h0, if_pos (by decide), htake _ _ eall, scanBack_reverse] at h
        cases h
        refine ⟨tok ++ (w2 ++ w3), ⟨w1, [], c :: u, c :: u, ?_, hw1, Ws.nil, notBlank_cons hc, rfl, ?_⟩, rfl, rfl⟩
        · rw [e1, eall]
        · rw [List.append_assoc]
          refine .trailing hv (hw2.append hw3) ?_ (not_ws_one.2 hc) h0
          rw [List.append_assoc, ← e3]
          exact hends
    · have herr := (err_sound N hN _).1 _ _ _ hts hfuel hp
      rw [hp] at h
      have hadv : Adv (a :: s) p := by
        rcases any_total N hN _ (a :: s) hts hfuel with ⟨_, _, _, _, _, _, _, _, hp'⟩ | ⟨_, _, hp', _, hadv, _⟩
        · rw [hp] at hp'; cases hp'
        · rw [hp] at hp'; cases hp'; exact hadv
      obtain ⟨w3, c, u, hw3, e3, hc, hs3⟩ := skipWs_total (hadv.term hts)
      obtain ⟨cv, ec, -⟩ := hadv
      have eall : a :: s = (cv ++ w3) ++ c :: u := by rw [ec, e3]; simp
      have hne := (err_complete N hN herr).1
      simp only [Out.ok_bind, hs3, rd_cons_zero] at h
      rw [if_neg (c := st' = .kOk ∧ c ≠ 0) (fun h => hne h.1), if_pos hne, htake _ _ eall, scanBack_reverse] at h
      cases h
      refine ⟨cv ++ w3, ⟨w1, w3, p, c :: u, ?_, hw1, hw3, notBlank_cons hc, e3, ?_⟩, rfl, rfl⟩
      · rw [e1, eall]
      · rw [← eall]
        exact .value (notBlank_cons ha) herr
  · rintro st q ⟨w, w', p, r, e, hw, hw', hnb, rfl, hd⟩
    generalize ex : w' ++ r = p at hd
    generalize et : q ++ r = t at hd e
    cases hd with
    | value hb herr =>
      have htt : Term t := by
        rw [e] at ht
        exact (Adv.of_append hw.nul_free).term ht
      obtain ⟨c, s', rfl⟩ := htt.ne_nil
      obtain ⟨rfl, es⟩ := ws_split hw1 hw (notBlank_cons ha) hb (by simp) (by simp) (e1.symm.trans e)
      cases es
      obtain ⟨hne, -, -, hrep⟩ := err_complete N hN herr
      refine ⟨hne, ?_⟩
      have hp := hrep hts _ hfuel
      have hadv : Adv (a :: s) p := by
        rcases any_total N hN _ (a :: s) hts hfuel with ⟨_, _, _, _, _, _, _, _, hp'⟩ | ⟨_, _, hp', _, hadv, _⟩
        · rw [hp] at hp'; cases hp'
        · rw [hp] at hp'; cases hp'; exact hadv
      have htp := hadv.term hts
      rw [← ex] at htp
      have htr : Term r := (Adv.of_append hw'.nul_free).term htp
      obtain ⟨c, u, rfl⟩ := htr.ne_nil
      have hsk : skipWs p = .ok (c :: u) := by
        rw [← ex, skipWs_append hw', skipWs_stop (not_ws_one.1 (hnb _ _ rfl))]
      rw [hp]
      simp only [Out.ok_bind, hsk, rd_cons_zero]
      rw [if_neg (c := st = .kOk ∧ c ≠ 0) (fun h => hne h.1), if_pos hne, htake _ _ et.symm, scanBack_reverse]
      exact ⟨_, rfl⟩
    | @trailing tok j w2 c u hv hw2 hends hc h0 =>
      refine ⟨by decide, ?_⟩
      obtain ⟨b, v, rfl, hbw, -⟩ := val_head hv
      obtain ⟨rfl, es⟩ := ws_split hw1 hw (notBlank_cons ha) (notBlank_cons hbw) (by simp) (by simp) (e1.symm.trans e)
      change a :: s = (b :: v) ++ (w2 ++ c :: u) at es
      have ht2 : Term (w2 ++ c :: u) := by
        rw [es] at hts
        exact (Adv.of_append (val_nul_free hv)).term hts
      have ht3 : Term (c :: u) := (Adv.of_append hw2.nul_free).term ht2
      have hwr : w' = [] ∧ r = c :: u := by
        have hr : r ≠ [] := by
          rintro rfl
          have : Ws (c :: u) := by rw [← ex]; simpa using hw'
          exact hc (ws_one.2 (Ws.cons_iff.1 this).1)
        exact ws_split hw' Ws.nil hnb (notBlank_cons (not_ws_one.1 hc)) hr (by simp) (by rw [ex]; rfl)
      obtain ⟨rfl, rfl⟩ := hwr
      obtain ⟨rest, hp, hr⟩ := value_read N hN hv hw2 hends (not_ws_one.1 hc) ht3 (n := parseFuel buf) (by
        have := congrArg List.length es
        simp only [List.length_append, List.length_cons] at this hfuel ⊢
        omega)
      rw [← es] at hp
      rw [hp]
      simp only [Out.ok_bind, hr, rd_cons_zero, true_and]
      rw [if_pos h0, if_pos (by decide), htake q (c :: u) (by rw [es, ← et]), scanBack_reverse]
      exact ⟨_, rfl⟩

end Verif.Parser
