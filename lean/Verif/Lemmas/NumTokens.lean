import Verif.Lemmas.Tokens

/-! # Lemmas about number tokens -/

namespace Verif.Parser

open Verif Verif.Text Verif.Number Verif.Spec

theorem isDigit_iff (c : Byte) : isDigit c = true ↔ Digit c := by
  simp [isDigit, Digit]

theorem isFloatChar_iff (c : Byte) : isFloatChar c = true ↔ NumChar c := by
  simp [isFloatChar, NumChar, isDigit_iff, or_assoc]

theorem not_digit {c : Byte} (h : isDigit c ≠ true) : ¬ Digit c := fun h' => h ((isDigit_iff c).2 h')

theorem digitsVal_go (ds : Bytes) (n : Nat) :
    ds.foldl (fun n c => n * 10 + (c.toNat - 48)) n = n * 10 ^ ds.length + decimal ds := by
  induction ds generalizing n with
  | nil => simp [decimal]
  | cons c ds ih =>
    rw [List.foldl_cons, ih, decimal, List.length_cons, Nat.pow_succ, Nat.add_mul]
    have : n * 10 * 10 ^ ds.length = n * (10 ^ ds.length * 10) := by
      rw [Nat.mul_assoc, Nat.mul_comm 10]
    omega

theorem digitsVal_eq (ds : Bytes) : digitsVal ds = decimal ds := by
  rw [digitsVal, digitsVal_go]; omega

/-- The text does not begin with a digit. -/
def StopD (x : Bytes) : Prop := ∀ c s, x = c :: s → ¬ Digit c

theorem stopD_nil : StopD [] := by intro c s h; cases h

theorem spanDigits_spec (t : Bytes) :
    t = (spanDigits t).1 ++ (spanDigits t).2 ∧ (∀ d ∈ (spanDigits t).1, Digit d) ∧
      StopD (spanDigits t).2 := by
  induction t with
  | nil => exact ⟨rfl, by simp [spanDigits], stopD_nil⟩
  | cons c t ih =>
    rw [spanDigits]
    split
    · rename_i h
      refine ⟨by simp only [List.cons_append]; rw [← ih.1], ?_, ih.2.2⟩
      intro d hd
      rcases List.mem_cons.1 hd with rfl | hd
      · exact (isDigit_iff _).1 h
      · exact ih.2.1 d hd
    · rename_i h
      refine ⟨rfl, by simp, ?_⟩
      intro c' s e; cases e
      exact not_digit h

/-- Digits at the beginning of a text are part of the longest run of digits. -/
theorem digits_prefix {ds x ds' y : Bytes} (hds : ∀ d ∈ ds, Digit d) (hx : StopD x)
    (hds' : ∀ d ∈ ds', Digit d) (e : ds ++ x = ds' ++ y) :
    ∃ z, ds = ds' ++ z ∧ y = z ++ x := by
  induction ds' generalizing ds with
  | nil => exact ⟨ds, rfl, e.symm⟩
  | cons c ds' ih =>
    cases ds with
    | nil => exact absurd (hds' c (by simp)) (hx c _ e)
    | cons c' ds =>
      simp only [List.cons_append, List.cons.injEq] at e
      obtain ⟨z, hz1, hz2⟩ := ih (fun d hd => hds d (by simp [hd])) (fun d hd => hds' d (by simp [hd])) e.2
      exact ⟨z, by rw [hz1, e.1]; rfl, hz2⟩

theorem spanDigits_append {ds x : Bytes} (hds : ∀ d ∈ ds, Digit d) (hx : StopD x) :
    spanDigits (ds ++ x) = (ds, x) := by
  induction ds with
  | nil =>
    cases x with
    | nil => rfl
    | cons c x =>
      have : isDigit c = false := by
        have := hx c x rfl
        rw [← isDigit_iff] at this; simpa using this
      simp [spanDigits, this]
  | cons c ds ih =>
    have hc := (isDigit_iff c).2 (hds c (by simp))
    rw [List.cons_append, spanDigits, if_pos hc, ih fun d hd => hds d (by simp [hd])]

theorem rfcExp_head {et : Bytes} {e : Int} (h : RfcExp et e) :
    et = [] ∨ ∃ c s, et = c :: s ∧ (c = 0x65 ∨ c = 0x45) := by
  cases h with
  | none => exact .inl rfl
  | unsigned h _ _ => exact .inr ⟨_, _, rfl, h⟩
  | plus h _ _ => exact .inr ⟨_, _, rfl, h⟩
  | minus h _ _ => exact .inr ⟨_, _, rfl, h⟩

theorem e_not_digit {c : Byte} (h : c = 0x65 ∨ c = 0x45) : ¬ Digit c := by
  rcases h with rfl | rfl <;> simp [Digit]

theorem sign_not_digit {c : Byte} (h : c = 0x2B ∨ c = 0x2D) : ¬ Digit c := by
  rcases h with rfl | rfl <;> simp [Digit]

theorem point_not_digit : ¬ Digit 0x2E := by simp [Digit]

/-- The exponent taken is the longest one. -/
theorem exp_spec (r : Bytes) : ∃ et junk, r = et ++ junk ∧ RfcExp et (optExponent r) ∧
    ∀ et' junk' e', r = et' ++ junk' → RfcExp et' e' → et'.length ≤ et.length := by
  cases r with
  | nil =>
    refine ⟨[], [], rfl, .none, ?_⟩
    intro et' junk' e' h _
    have := congrArg List.length h
    simp only [List.length_nil, List.length_append] at this ⊢; omega
  | cons c t =>
    by_cases hc : c = 101 ∨ c = 69
    · -- a candidate exponent
      have hc' : c = 0x65 ∨ c = 0x45 := hc
      have none_case : (spanDigits (optSign t).2).1 = [] →
          ∃ et junk, c :: t = et ++ junk ∧ RfcExp et (optExponent (c :: t)) ∧
            ∀ et' junk' e', c :: t = et' ++ junk' → RfcExp et' e' → et'.length ≤ et.length := by
        intro hds
        refine ⟨[], c :: t, rfl, ?_, ?_⟩
        · have : optExponent (c :: t) = 0 := by
            simp [optExponent, hc, hds]
          rw [this]; exact .none
        · intro et' junk' e' h hr
          cases hr with
          | none => simp
          | @unsigned c' ds h1 h2 h3 =>
            exfalso
            simp only [List.cons_append, List.cons.injEq] at h
            obtain ⟨d, ds', rfl⟩ : ∃ d ds', ds = d :: ds' := by
              cases ds with
              | nil => exact absurd rfl h2
              | cons d ds' => exact ⟨d, ds', rfl⟩
            have hd := h3 d (by simp)
            have hs : (optSign t).2 = t := by
              rw [h.2]
              unfold optSign
              split
              · rename_i heq; cases heq; exact absurd hd (sign_not_digit (.inr rfl))
              · rename_i heq; cases heq; exact absurd hd (sign_not_digit (.inl rfl))
              · rfl
            rw [hs, h.2] at hds
            rw [List.cons_append, spanDigits, if_pos ((isDigit_iff _).2 hd)] at hds
            cases hds
          | @plus c' ds h1 h2 h3 =>
            exfalso
            simp only [List.cons_append, List.cons.injEq] at h
            obtain ⟨d, ds', rfl⟩ : ∃ d ds', ds = d :: ds' := by
              cases ds with
              | nil => exact absurd rfl h2
              | cons d ds' => exact ⟨d, ds', rfl⟩
            have hd := h3 d (by simp)
            rw [h.2] at hds
            rw [show (optSign (0x2B :: (d :: ds' ++ junk'))).2 = d :: ds' ++ junk' from rfl,
              List.cons_append, spanDigits, if_pos ((isDigit_iff _).2 hd)] at hds
            cases hds
          | @minus c' ds h1 h2 h3 =>
            exfalso
            simp only [List.cons_append, List.cons.injEq] at h
            obtain ⟨d, ds', rfl⟩ : ∃ d ds', ds = d :: ds' := by
              cases ds with
              | nil => exact absurd rfl h2
              | cons d ds' => exact ⟨d, ds', rfl⟩
            have hd := h3 d (by simp)
            rw [h.2] at hds
            rw [show (optSign (0x2D :: (d :: ds' ++ junk'))).2 = d :: ds' ++ junk' from rfl,
              List.cons_append, spanDigits, if_pos ((isDigit_iff _).2 hd)] at hds
            cases hds
      by_cases hds : (spanDigits (optSign t).2).1 = []
      · exact none_case hds
      · -- sign cases
        have hopt : optExponent (c :: t) =
            if (optSign t).1 then -(decimal (spanDigits (optSign t).2).1 : Int)
            else (decimal (spanDigits (optSign t).2).1 : Int) := by
          simp [optExponent, hc, hds, digitsVal_eq]
        have key : ∀ sg neg u, t = sg ++ u → optSign t = (neg, u) →
            (∀ ds : Bytes, ds ≠ [] → (∀ d ∈ ds, Digit d) → RfcExp (c :: (sg ++ ds))
              (if neg then -(decimal ds : Int) else (decimal ds : Int))) →
            (∀ et' junk' e', c :: t = et' ++ junk' → RfcExp et' e' → et' = [] ∨
              ∃ ds', et' = c :: (sg ++ ds') ∧ (∀ d ∈ ds', Digit d)) →
            ∃ et junk, c :: t = et ++ junk ∧ RfcExp et (optExponent (c :: t)) ∧
              ∀ et' junk' e', c :: t = et' ++ junk' → RfcExp et' e' → et'.length ≤ et.length := by
          intro sg neg u ht ho hmk hinv
          obtain ⟨h1, h2, h3⟩ := spanDigits_spec u
          rw [ho] at hds hopt
          refine ⟨c :: (sg ++ (spanDigits u).1), (spanDigits u).2, ?_, ?_, ?_⟩
          · rw [ht]; simp only [List.cons_append, List.append_assoc]; rw [← h1]
          · rw [hopt]; exact hmk _ hds h2
          · intro et' junk' e' he hr
            rcases hinv et' junk' e' he hr with rfl | ⟨ds', rfl, hds'⟩
            · simp
            · have : u = ds' ++ junk' := by
                rw [ht] at he
                simp only [List.cons_append, List.cons.injEq, true_and, List.append_assoc] at he
                exact List.append_cancel_left he
              obtain ⟨z, hz, -⟩ := digits_prefix h2 h3 hds' (h1.symm.trans this)
              rw [hz]
              simp
        have hinv0 : ∀ {et' : Bytes} {junk' e'}, c :: t = et' ++ junk' → RfcExp et' e' →
            et' = [] ∨ (∃ ds', et' = c :: ds' ∧ ds' ≠ [] ∧ (∀ d ∈ ds', Digit d) ∧ t = ds' ++ junk') ∨
            (∃ ds', et' = c :: 0x2B :: ds' ∧ (∀ d ∈ ds', Digit d) ∧ t = 0x2B :: ds' ++ junk') ∨
            (∃ ds', et' = c :: 0x2D :: ds' ∧ (∀ d ∈ ds', Digit d) ∧ t = 0x2D :: ds' ++ junk') := by
          intro et' junk' e' he hr
          cases hr with
          | none => exact .inl rfl
          | unsigned h1 h2 h3 =>
            simp only [List.cons_append, List.cons.injEq] at he
            exact .inr (.inl ⟨_, by rw [he.1], h2, h3, he.2⟩)
          | plus h1 h2 h3 =>
            simp only [List.cons_append, List.cons.injEq] at he
            exact .inr (.inr (.inl ⟨_, by rw [he.1], h3, he.2⟩))
          | minus h1 h2 h3 =>
            simp only [List.cons_append, List.cons.injEq] at he
            exact .inr (.inr (.inr ⟨_, by rw [he.1], h3, he.2⟩))
        by_cases hm : ∃ u, t = 45 :: u
        · obtain ⟨u, rfl⟩ := hm
          refine key [45] true u rfl rfl ?_ ?_
          · intro ds h1 h2; exact .minus hc' h1 h2
          · intro et' junk' e' he hr
            rcases hinv0 he hr with h | ⟨ds', -, h0, h1, h2⟩ | ⟨ds', -, -, h2⟩ | ⟨ds', h1, h2, -⟩
            · exact .inl h
            · cases ds' with
              | nil => exact absurd rfl h0
              | cons d ds' =>
                simp only [List.cons_append, List.cons.injEq] at h2
                have := h1 d (by simp)
                rw [← h2.1] at this
                exact absurd this (sign_not_digit (.inr rfl))
            · simp at h2
            · exact .inr ⟨ds', h1, h2⟩
        · by_cases hp : ∃ u, t = 43 :: u
          · obtain ⟨u, rfl⟩ := hp
            refine key [43] false u rfl rfl ?_ ?_
            · intro ds h1 h2; exact .plus hc' h1 h2
            · intro et' junk' e' he hr
              rcases hinv0 he hr with h | ⟨ds', -, h0, h1, h2⟩ | ⟨ds', h1, h2, -⟩ | ⟨ds', -, -, h2⟩
              · exact .inl h
              · cases ds' with
                | nil => exact absurd rfl h0
                | cons d ds' =>
                  simp only [List.cons_append, List.cons.injEq] at h2
                  have := h1 d (by simp)
                  rw [← h2.1] at this
                  exact absurd this (sign_not_digit (.inl rfl))
              · exact .inr ⟨ds', h1, h2⟩
              · simp at h2
          · have ho : optSign t = (false, t) := by
              unfold optSign
              split
              · exact absurd ⟨_, rfl⟩ hm
              · exact absurd ⟨_, rfl⟩ hp
              · rfl
            refine key [] false t rfl ho ?_ ?_
            · intro ds h1 h2; exact .unsigned hc' h1 h2
            · intro et' junk' e' he hr
              rcases hinv0 he hr with h | ⟨ds', h1, -, h2, -⟩ | ⟨ds', -, -, h2⟩ | ⟨ds', -, -, h2⟩
              · exact .inl h
              · exact .inr ⟨ds', h1, h2⟩
              · exact absurd ⟨_, h2⟩ hp
              · exact absurd ⟨_, h2⟩ hm
    · refine ⟨[], c :: t, rfl, ?_, ?_⟩
      · have : optExponent (c :: t) = 0 := by simp [optExponent, hc]
        rw [this]; exact .none
      · intro et' junk' e' h hr
        rcases rfcExp_head hr with rfl | ⟨c', s, rfl, hc'⟩
        · simp
        · simp only [List.cons_append, List.cons.injEq] at h
          rw [← h.1] at hc'
          exact absurd hc' hc

/-- Sign of a subject sequence. -/
def SignOf (sg : Bytes) (neg : Bool) : Prop :=
  sg = [] ∧ neg = false ∨ sg = [0x2B] ∧ neg = false ∨ sg = [0x2D] ∧ neg = true

theorem optSign_spec (run : Bytes) : ∃ sg, run = sg ++ (optSign run).2 ∧ SignOf sg (optSign run).1 ∧
    ∀ sg' neg' x, run = sg' ++ x → SignOf sg' neg' → (∃ c y, x = c :: y ∧ (Digit c ∨ c = 0x2E)) →
      sg' = sg ∧ x = (optSign run).2 ∧ neg' = (optSign run).1 := by
  by_cases hm : ∃ u, run = 45 :: u
  · obtain ⟨u, rfl⟩ := hm
    refine ⟨[45], rfl, .inr (.inr ⟨rfl, rfl⟩), ?_⟩
    rintro sg' neg' x h (⟨rfl, rfl⟩ | ⟨rfl, rfl⟩ | ⟨rfl, rfl⟩) ⟨c, y, rfl, hc⟩
    · simp only [List.nil_append, List.cons.injEq] at h
      rw [← h.1] at hc
      rcases hc with hc | hc
      · exact absurd hc (sign_not_digit (.inr rfl))
      · exact absurd hc (by decide)
    · simp at h
    · simp only [List.cons_append, List.nil_append, List.cons.injEq, true_and] at h
      exact ⟨rfl, h.symm, rfl⟩
  · by_cases hp : ∃ u, run = 43 :: u
    · obtain ⟨u, rfl⟩ := hp
      refine ⟨[43], rfl, .inr (.inl ⟨rfl, rfl⟩), ?_⟩
      rintro sg' neg' x h (⟨rfl, rfl⟩ | ⟨rfl, rfl⟩ | ⟨rfl, rfl⟩) ⟨c, y, rfl, hc⟩
      · simp only [List.nil_append, List.cons.injEq] at h
        rw [← h.1] at hc
        rcases hc with hc | hc
        · exact absurd hc (sign_not_digit (.inl rfl))
        · exact absurd hc (by decide)
      · simp only [List.cons_append, List.nil_append, List.cons.injEq, true_and] at h
        exact ⟨rfl, h.symm, rfl⟩
      · simp at h
    · have ho : optSign run = (false, run) := by
        unfold optSign
        split
        · exact absurd ⟨_, rfl⟩ hm
        · exact absurd ⟨_, rfl⟩ hp
        · rfl
      rw [ho]
      refine ⟨[], rfl, .inl ⟨rfl, rfl⟩, ?_⟩
      rintro sg' neg' x h (⟨rfl, rfl⟩ | ⟨rfl, rfl⟩ | ⟨rfl, rfl⟩) _
      · exact ⟨rfl, h.symm, rfl⟩
      · exact absurd ⟨_, h⟩ hp
      · exact absurd ⟨_, h⟩ hm

/-- The fraction taken. -/
theorem optFraction_spec (r : Bytes) : ∃ pf,
    r = pf ++ (optFraction r).2 ∧ (∀ d ∈ (optFraction r).1, Digit d) ∧
    (pf = [] ∧ (optFraction r).1 = [] ∧ (∀ s, r ≠ 0x2E :: s) ∨
      pf = 0x2E :: (optFraction r).1 ∧ StopD (optFraction r).2) := by
  by_cases h : ∃ s, r = 46 :: s
  · obtain ⟨s, rfl⟩ := h
    obtain ⟨h1, h2, h3⟩ := spanDigits_spec s
    refine ⟨46 :: (spanDigits s).1, ?_, h2, .inr ⟨rfl, h3⟩⟩
    show 46 :: s = 46 :: (spanDigits s).1 ++ (spanDigits s).2
    rw [List.cons_append, ← h1]
  · have ho : optFraction r = ([], r) := by
      unfold optFraction
      split
      · exact absurd ⟨_, rfl⟩ h
      · rfl
    rw [ho]
    exact ⟨[], rfl, by simp, .inl ⟨rfl, rfl, fun s e => h ⟨s, e⟩⟩⟩

/-- **`strtod` takes the longest number.** -/
theorem strtod_longest (run : Bytes) :
    (strtodParts run = none ∧ ∀ p junk d, run = p ++ junk → ¬ LooseNum p d) ∨
    (∃ d g junk, strtodParts run = some (d.neg, d.mantissa, d.exponent) ∧ run = g ++ junk ∧
      LooseNum g d ∧ ∀ p' junk' d', run = p' ++ junk' → LooseNum p' d' → p'.length ≤ g.length) := by
  obtain ⟨sg, hsg1, hsg2, hsg3⟩ := optSign_spec run
  generalize hneg : (optSign run).1 = neg at *
  generalize hr1 : (optSign run).2 = r1 at *
  obtain ⟨hip1, hip2, hip3⟩ := spanDigits_spec r1
  generalize hip : (spanDigits r1).1 = ip at *
  generalize hr2 : (spanDigits r1).2 = r2 at *
  obtain ⟨pf, hpf1, hpf2, hpf3⟩ := optFraction_spec r2
  generalize hfp : (optFraction r2).1 = fp at *
  generalize hr4 : (optFraction r2).2 = r4 at *
  obtain ⟨et, junk, het1, het2, het3⟩ := exp_spec r4
  have hparts : strtodParts run = if ip = [] ∧ fp = [] then none
      else some (neg, decimal (ip ++ fp), optExponent r4 - fp.length) := by
    unfold strtodParts
    rw [← hneg, ← hip, ← hfp, ← hr4, ← hr2, ← hr1]
    simp only [digitsVal_eq]
  -- any number at the beginning of the run is covered by the greedy one
  have hmax : ∀ p' junk' d', run = p' ++ junk' → LooseNum p' d' →
      ip ++ fp ≠ [] ∧ p'.length ≤ (sg ++ (ip ++ (pf ++ et))).length := by
    intro p' junk' d' hp hl
    cases hl with
    | @mk sg' ip' pf' fp' et' neg' e' hs' hip' hfp' hpf' hne' hexp' =>
      have hx : ∃ c y, ip' ++ (pf' ++ et') ++ junk' = c :: y ∧ (Digit c ∨ c = 0x2E) := by
        cases ip' with
        | cons c ip' => exact ⟨c, _, rfl, .inl (hip' c (by simp))⟩
        | nil =>
          rcases hpf' with ⟨rfl, rfl⟩ | rfl
          · exact absurd rfl hne'
          · exact ⟨0x2E, _, rfl, .inr rfl⟩
      obtain ⟨rfl, hx2, -⟩ := hsg3 sg' neg' (ip' ++ (pf' ++ et') ++ junk')
        (by rw [hp]; simp) hs' hx
      -- digits
      obtain ⟨z, hz1, hz2⟩ := digits_prefix hip2 hip3 hip'
        (show ip ++ r2 = ip' ++ (pf' ++ et' ++ junk') by rw [← hip1, ← hx2]; simp)
      subst hz1
      rcases hpf' with ⟨rfl, rfl⟩ | rfl
      · -- no fraction
        have hne : ip' ≠ [] := by simpa using hne'
        refine ⟨by simp [hne], ?_⟩
        rcases rfcExp_head hexp' with rfl | ⟨c, s, rfl, hc⟩
        · simp
        · -- the exponent follows the digits
          have hz : z = [] := by
            cases z with
            | nil => rfl
            | cons c' z =>
              simp only [List.nil_append, List.cons_append, List.cons.injEq] at hz2
              have := hip2 c' (by simp)
              rw [← hz2.1] at this
              exact absurd this (e_not_digit hc)
          subst hz
          simp only [List.nil_append] at hz2
          have hr2e : ∀ s, r2 ≠ 0x2E :: s := by
            intro s' e
            rw [e] at hz2
            simp only [List.cons_append, List.cons.injEq] at hz2
            rcases hc with rfl | rfl <;> revert hz2 <;> simp
          rcases hpf3 with ⟨rfl, rfl, -⟩ | ⟨rfl, -⟩
          · simp only [List.nil_append] at hpf1
            have := het3 (c :: s) junk' e' (by rw [← hpf1, ← hz2]) hexp'
            simp only [List.length_append, List.append_nil, List.nil_append] at *
            omega
          · exact absurd hpf1 (hr2e _)
      · -- with a fraction
        have hz : z = [] := by
          cases z with
          | nil => rfl
          | cons c' z =>
            simp only [List.cons_append, List.cons.injEq] at hz2
            have := hip2 c' (by simp)
            rw [← hz2.1] at this
            exact absurd this point_not_digit
        subst hz
        simp only [List.nil_append, List.cons_append] at hz2
        rcases hpf3 with ⟨rfl, rfl, h⟩ | ⟨rfl, hstop⟩
        · exact absurd hz2.symm (h _)
        · rw [hpf1] at hz2
          simp only [List.cons_append, List.cons.injEq, true_and] at hz2
          obtain ⟨z', hz1', hz2'⟩ := digits_prefix hpf2 hstop hfp'
            (show fp ++ r4 = fp' ++ (et' ++ junk') by rw [← hz2]; simp)
          subst hz1'
          refine ⟨?_, ?_⟩
          · intro e
            apply hne'
            simp only [List.append_nil, List.append_eq_nil_iff] at e ⊢
            exact ⟨e.1, e.2.1⟩
          · rcases rfcExp_head hexp' with rfl | ⟨c, s, rfl, hc⟩
            · simp
            · have hz : z' = [] := by
                cases z' with
                | nil => rfl
                | cons c' z =>
                  simp only [List.cons_append, List.cons.injEq] at hz2'
                  have := hpf2 c' (by simp)
                  rw [← hz2'.1] at this
                  exact absurd this (e_not_digit hc)
              subst hz
              have := het3 (c :: s) junk' e' (by rw [hz2']; simp) hexp'
              simp only [List.length_append, List.append_nil, List.length_cons] at *
              omega
  by_cases hno : ip = [] ∧ fp = []
  · left
    refine ⟨by rw [hparts, if_pos hno], ?_⟩
    intro p junk d hp hl
    exact (hmax p junk d hp hl).1 (by rw [hno.1, hno.2]; rfl)
  · right
    refine ⟨⟨neg, decimal (ip ++ fp), optExponent r4 - fp.length⟩, sg ++ (ip ++ (pf ++ et)), junk,
      by rw [hparts, if_neg hno], ?_, ?_, fun p' junk' d' hp hl => (hmax p' junk' d' hp hl).2⟩
    · conv => lhs; rw [hsg1, hip1, hpf1, het1]
      simp
    · refine .mk hsg2 hip2 hpf2 ?_ (by simpa using hno) het2
      rcases hpf3 with ⟨h1, h2, -⟩ | ⟨h1, -⟩
      · exact .inl ⟨h1, h2⟩
      · exact .inr h1

/-- A loose number denotes one number. -/
theorem loose_det {p : Bytes} {d d' : Dec} (h : LooseNum p d) (h' : LooseNum p d') : d = d' := by
  -- both are what `strtod` computes on the token itself
  have key : ∀ {p d}, LooseNum p d → strtodParts p = some (d.neg, d.mantissa, d.exponent) := by
    intro p d h
    cases h with
    | @mk sg ip pf fp et neg e hs hip hfp hpf hne hexp =>
      obtain ⟨sg', h1, h2, h3⟩ := optSign_spec (sg ++ (ip ++ (pf ++ et)))
      have hx : ∃ c y, ip ++ (pf ++ et) = c :: y ∧ (Digit c ∨ c = 0x2E) := by
        cases ip with
        | cons c ip => exact ⟨c, _, rfl, .inl (hip c (by simp))⟩
        | nil =>
          rcases hpf with ⟨rfl, rfl⟩ | rfl
          · exact absurd rfl hne
          · exact ⟨0x2E, _, rfl, .inr rfl⟩
      obtain ⟨rfl, h5, h6⟩ := h3 sg neg _ rfl hs hx
      have hete : StopD et := by
        intro c s e
        rcases rfcExp_head hexp with rfl | ⟨c', s', rfl, hc⟩
        · cases e
        · cases e; exact e_not_digit hc
      have hstop : StopD (pf ++ et) := by
        rcases hpf with ⟨rfl, rfl⟩ | rfl
        · exact hete
        · intro c s e; cases e; exact point_not_digit
      have hopt : optFraction (pf ++ et) = (fp, et) := by
        rcases hpf with ⟨rfl, rfl⟩ | rfl
        · rcases rfcExp_head hexp with rfl | ⟨c', s', rfl, hc⟩
          · rfl
          · rcases hc with rfl | rfl <;> rfl
        · show spanDigits (fp ++ et) = _
          exact spanDigits_append hfp hete
      have hexp' : optExponent et = e := by
        cases hexp with
        | none => rfl
        | @unsigned c ds g1 g2 g3 =>
          have g1' : c = 101 ∨ c = 69 := g1
          have ho : optSign ds = (false, ds) := by
            cases ds with
            | nil => exact absurd rfl g2
            | cons d ds =>
              unfold optSign
              split
              · rename_i heq; cases heq; exact absurd (g3 _ (by simp)) (sign_not_digit (.inr rfl))
              · rename_i heq; cases heq; exact absurd (g3 _ (by simp)) (sign_not_digit (.inl rfl))
              · rfl
          have := spanDigits_append g3 stopD_nil
          rw [List.append_nil] at this
          simp [optExponent, g1', ho, this, g2, digitsVal_eq]
        | @plus c ds g1 g2 g3 =>
          have g1' : c = 101 ∨ c = 69 := g1
          have := spanDigits_append g3 stopD_nil
          rw [List.append_nil] at this
          simp [optExponent, g1', optSign, this, g2, digitsVal_eq]
        | @minus c ds g1 g2 g3 =>
          have g1' : c = 101 ∨ c = 69 := g1
          have := spanDigits_append g3 stopD_nil
          rw [List.append_nil] at this
          simp [optExponent, g1', optSign, this, g2, digitsVal_eq]
      unfold strtodParts
      simp only [← h5, ← h6, spanDigits_append hip hstop, hopt, hexp', digitsVal_eq]
      rw [if_neg (by simpa using hne)]
  have h1 := key h
  have h2 := key h'
  rw [h1] at h2
  cases d; cases d'
  simp only [Option.some.injEq, Prod.mk.injEq] at h2
  simp [h2]

/-- `strtod` on a run: exactly the longest number. -/
theorem strtodParts_iff (run : Bytes) (d : Dec) :
    strtodParts run = some (d.neg, d.mantissa, d.exponent) ↔ LongestNum run d := by
  rcases strtod_longest run with ⟨h1, h2⟩ | ⟨d', g, junk, h1, h2, h3, h4⟩
  · rw [h1]
    constructor
    · intro h; cases h
    · rintro ⟨p, junk, h, hl, -⟩; exact absurd hl (h2 p junk d h)
  · rw [h1]
    constructor
    · intro h
      have : d' = d := by
        cases d; cases d'
        simp only [Option.some.injEq, Prod.mk.injEq] at h
        simp [h]
      subst this
      exact ⟨g, junk, h2, h3, h4⟩
    · rintro ⟨p, junk', h, hl, hmax⟩
      have hle1 := h4 p junk' d h hl
      have hle2 := hmax g junk d' h2 h3
      have hpg : p = g := by
        have e : p ++ junk' = g ++ junk := h.symm.trans h2
        exact (List.append_inj e (by omega)).1
      subst hpg
      rw [loose_det h3 hl]

theorem longest_det {run : Bytes} {d d' : Dec} (h : LongestNum run d) (h' : LongestNum run d') :
    d = d' := by
  rw [← strtodParts_iff] at h h'
  rw [h] at h'
  cases d; cases d'
  simp only [Option.some.injEq, Prod.mk.injEq] at h'
  simp [h']

theorem longest_ne_nil {run : Bytes} {d : Dec} (h : LongestNum run d) : run ≠ [] := by
  obtain ⟨p, junk, h1, h2, -⟩ := h
  intro e
  subst e
  have h1 := h1.symm
  simp only [List.append_eq_nil_iff] at h1
  rw [h1.1] at h2
  generalize hq : ([] : Bytes) = q at h2
  cases h2 with
  | mk hs hip hfp hpf hne hexp =>
    have hq := hq.symm
    simp only [List.append_eq_nil_iff] at hq
    rcases hpf with ⟨rfl, rfl⟩ | rfl
    · simp [hq.2.1] at hne
    · simp at hq

/-! ## The run of number characters -/

theorem numChar_ne_zero {c : Byte} (h : NumChar c) : c ≠ 0 := by
  intro e; subst e
  rcases h with h | h | h | h | h | h
  · simp [Digit] at h
  all_goals revert h; decide

theorem run_nul_free {run : Bytes} (h : ∀ c ∈ run, NumChar c) : (0 : Byte) ∉ run :=
  fun h0 => numChar_ne_zero (h 0 h0) rfl

theorem spanFloat_append {run : Bytes} {c : Byte} {s : Bytes} (h : ∀ c ∈ run, NumChar c)
    (hc : ¬ NumChar c) : spanFloat (run ++ c :: s) = .ok (run, c :: s) := by
  induction run with
  | nil =>
    have : isFloatChar c = false := by
      rw [← isFloatChar_iff] at hc; simpa using hc
    simp [spanFloat, this]
  | cons a run ih =>
    have ha := h a (by simp)
    rw [List.cons_append, spanFloat, if_pos ⟨numChar_ne_zero ha, (isFloatChar_iff a).2 ha⟩,
      ih fun c hc => h c (by simp [hc])]
    rfl

theorem spanFloat_total {t : Bytes} (ht : Term t) :
    ∃ run c s, t = run ++ c :: s ∧ (∀ c ∈ run, NumChar c) ∧ ¬ NumChar c := by
  induction t with
  | nil => simp [Term] at ht
  | cons a t ih =>
    by_cases ha : NumChar a
    · obtain ⟨run, c, s, rfl, h1, h2⟩ := ih (ht.tail (numChar_ne_zero ha))
      refine ⟨a :: run, c, s, rfl, ?_, h2⟩
      intro x hx
      rcases List.mem_cons.1 hx with rfl | hx
      · exact ha
      · exact h1 x hx
    · exact ⟨[], a, t, rfl, by simp, ha⟩

/-- The condition on leading zeros. -/
def ZeroOk (run : Bytes) : Prop := ∀ c r, run = 0x30 :: c :: r → c = 0x2E

theorem leadingZero_spec (run : Bytes) (c : Byte) (s : Bytes) (hne : run ≠ []) :
    ∃ b, leadingZero (run ++ c :: s) run.length = .ok b ∧ (b = false ↔ ZeroOk run) := by
  cases run with
  | nil => exact absurd rfl hne
  | cons a r =>
    unfold leadingZero
    simp only [List.cons_append, rd_cons_zero, rd_cons_succ, Out.ok_bind]
    by_cases ha : a = 48
    · subst ha
      rw [if_pos rfl]
      cases r with
      | nil =>
        refine ⟨false, by simp, ?_⟩
        simp [ZeroOk]
      | cons b r =>
        refine ⟨decide (b ≠ 46), by simp [rd_cons_zero], ?_⟩
        simp only [decide_eq_false_iff_not, Decidable.not_not, ZeroOk]
        constructor
        · intro hb c' r' e; cases e; exact hb
        · intro h; exact h b r rfl
    · rw [if_neg ha]
      refine ⟨false, rfl, ?_⟩
      simp only [true_iff, ZeroOk]
      intro c' r' e; cases e; exact absurd rfl ha

/-- The double a decimal is converted to. -/
def numVal {D : Type} (N : NumOps D) (d : Dec) : D := N.conv d.neg d.mantissa d.exponent

/-- `ReadDoubleLiteral` on a run followed by another character. -/
theorem readDouble_spec {D : Type} (N : NumOps D) (run : Bytes) (c : Byte) (s : Bytes)
    (h : ∀ c ∈ run, NumChar c) (hc : ¬ NumChar c) :
    (∃ d, LongestNum run d ∧ ZeroOk run ∧
      readDoubleLiteral N (run ++ c :: s) = .ok (.inr (numVal N d, c :: s))) ∨
    ((∀ d, ¬ LongestNum run d) ∧ ZeroOk run ∧
      readDoubleLiteral N (run ++ c :: s) = .ok (.inl .kFloatInvalid)) ∨
    (¬ ZeroOk run ∧
      readDoubleLiteral N (run ++ c :: s) = .ok (.inl .kNumbersCannotHaveLeadingZeros)) := by
  unfold readDoubleLiteral
  rw [spanFloat_append h hc]
  simp only [Out.ok_bind]
  by_cases hne : run = []
  · right; left
    subst hne
    refine ⟨fun d hd => longest_ne_nil hd rfl, ?_, by simp⟩
    intro c r e; cases e
  · have hlen : ¬ run.length = 0 := by simpa using hne
    rw [if_neg hlen]
    obtain ⟨b, hb1, hb2⟩ := leadingZero_spec run c s hne
    rw [hb1]
    simp only [Out.ok_bind]
    cases b with
    | true =>
      right; right
      refine ⟨fun hz => ?_, by simp⟩
      have := hb2.2 hz
      cases this
    | false =>
      have hz := hb2.1 rfl
      simp only [strtod]
      cases hs : strtodParts run with
      | none =>
        right; left
        refine ⟨fun d hd => ?_, hz, by simp⟩
        rw [← strtodParts_iff, hs] at hd
        cases hd
      | some p =>
        left
        obtain ⟨neg, m, e⟩ := p
        exact ⟨⟨neg, m, e⟩, (strtodParts_iff run ⟨neg, m, e⟩).1 hs, hz, by simp [numVal]⟩

/-- Negating a double flips the sign of the decimal (a law of IEEE 754 round-to-nearest conversion). -/
def NegLaw {D : Type} (N : NumOps D) : Prop :=
  ∀ b m e, N.neg (N.conv b m e) = N.conv (!b) m e

theorem dialNum_nul_free {tok : Bytes} {d : Dec} (h : DialNum tok d) : (0 : Byte) ∉ tok := by
  cases h with
  | plain h _ _ _ _ => exact run_nul_free h
  | plus hw h _ _ =>
    simp only [List.mem_cons, List.mem_append, not_or]
    exact ⟨by decide, hw.nul_free, run_nul_free h⟩
  | minus hw h _ _ =>
    simp only [List.mem_cons, List.mem_append, not_or]
    exact ⟨by decide, hw.nul_free, run_nul_free h⟩

/-- First byte of a number token. -/
theorem dialNum_head {tok : Bytes} {d : Dec} (h : DialNum tok d) : ∃ c s, tok = c :: s ∧ NumChar c := by
  cases h with
  | @plain run d h hl _ _ _ =>
    have := longest_ne_nil hl
    cases tok with
    | nil => exact absurd rfl this
    | cons c s => exact ⟨c, s, rfl, h c (by simp)⟩
  | plus => exact ⟨_, _, rfl, .inr (.inr (.inr (.inr (.inl rfl))))⟩
  | minus => exact ⟨_, _, rfl, .inr (.inr (.inr (.inr (.inr rfl))))⟩

theorem ws_not_num {c : Byte} (h : isWs c = true) : ¬ NumChar c := by
  rw [isWs_iff] at h
  rcases h with rfl | rfl | rfl | rfl <;> simp [NumChar, Digit]

/-- `ParseSign` on a number token and on other texts. -/
theorem parseSign_total (t : Bytes) (ht : Term t) :
    (∃ w c s, Ws w ∧ isWs c = false ∧ t = 0x2D :: (w ++ c :: s) ∧
      parseSign t = .ok (true, c :: s)) ∨
    (∃ w c s, Ws w ∧ isWs c = false ∧ t = 0x2B :: (w ++ c :: s) ∧
      parseSign t = .ok (false, c :: s)) ∨
    ((∀ s, t ≠ 0x2D :: s) ∧ (∀ s, t ≠ 0x2B :: s) ∧ parseSign t = .ok (false, t)) := by
  obtain ⟨c, s, rfl⟩ := ht.ne_nil
  unfold parseSign
  simp only [rd_cons_zero, Out.ok_bind, List.drop_one, List.tail_cons]
  by_cases h1 : c = 45
  · left
    subst h1
    obtain ⟨w, c, s', hw, rfl, hc, hs⟩ := skipWs_total (ht.tail (by decide))
    exact ⟨w, c, s', hw, hc, rfl, by rw [if_pos rfl, hs]; rfl⟩
  · by_cases h2 : c = 43
    · right; left
      subst h2
      obtain ⟨w, c, s', hw, rfl, hc, hs⟩ := skipWs_total (ht.tail (by decide))
      exact ⟨w, c, s', hw, hc, rfl, by rw [if_neg (by decide), if_pos rfl, hs]; rfl⟩
    · right; right
      refine ⟨?_, ?_, by rw [if_neg h1, if_neg h2]⟩
      · intro s e; cases e; exact h1 rfl
      · intro s e; cases e; exact h2 rfl

theorem parseSign_minus {w : Bytes} {c : Byte} {s : Bytes} (hw : Ws w) (hc : isWs c = false) :
    parseSign (0x2D :: (w ++ c :: s)) = .ok (true, c :: s) := by
  unfold parseSign
  simp [rd_cons_zero, skipWs_append hw, skipWs_stop hc]

theorem parseSign_plus {w : Bytes} {c : Byte} {s : Bytes} (hw : Ws w) (hc : isWs c = false) :
    parseSign (0x2B :: (w ++ c :: s)) = .ok (false, c :: s) := by
  unfold parseSign
  simp [rd_cons_zero, skipWs_append hw, skipWs_stop hc]

theorem parseSign_none {c : Byte} {s : Bytes} (h1 : c ≠ 0x2D) (h2 : c ≠ 0x2B) :
    parseSign (c :: s) = .ok (false, c :: s) := by
  unfold parseSign
  simp only [rd_cons_zero, Out.ok_bind]
  rw [if_neg h1, if_neg h2]

/-- `NumberValue::Parse` on a terminated text. -/
theorem parseNumber_total {D : Type} (N : NumOps D) (hN : NegLaw N) (t : Bytes) (ht : Term t) :
    (∃ tok w d rest, DialNum tok d ∧ Ws w ∧ t = tok ++ (w ++ rest) ∧ Term rest ∧
      parseNumber N t = .ok (.ok rest (numVal N d))) ∨
    (∃ st p, parseNumber N t = .ok (.err st p) ∧ Adv t p ∧
      (st = .kFloatInvalid ∨ st = .kNumbersCannotHaveLeadingZeros)) := by
  -- after the sign
  have core : ∀ (pre t1 : Bytes) (neg : Bool), t = pre ++ t1 → (0 : Byte) ∉ pre → Term t1 →
      parseSign t = .ok (neg, t1) →
      (∀ run d, (∀ c ∈ run, NumChar c) → LongestNum run d → ZeroOk run →
        (∃ x, t1 = run ++ x) →
        DialNum (pre ++ run) (if neg then ⟨!d.neg, d.mantissa, d.exponent⟩ else d)) →
      (∃ tok w d rest, DialNum tok d ∧ Ws w ∧ t = tok ++ (w ++ rest) ∧ Term rest ∧
        parseNumber N t = .ok (.ok rest (numVal N d))) ∨
      (∃ st p, parseNumber N t = .ok (.err st p) ∧ Adv t p ∧
        (st = .kFloatInvalid ∨ st = .kNumbersCannotHaveLeadingZeros)) := by
    intro pre t1 neg e hpre ht1 hps hmk
    obtain ⟨run, c, s, rfl, hrun, hc⟩ := spanFloat_total ht1
    have hadv : Adv t (run ++ c :: s) := ⟨pre, e, hpre⟩
    unfold parseNumber
    rw [hps]
    simp only [Out.ok_bind]
    rcases readDouble_spec N run c s hrun hc with ⟨d, hl, hz, hr⟩ | ⟨-, -, hr⟩ | ⟨-, hr⟩
    · left
      have htc : Term (c :: s) := (Adv.of_append (run_nul_free hrun)).term ht1
      obtain ⟨w, c', s', hw, hcs, hc', hsk⟩ := skipWs_total htc
      refine ⟨pre ++ run, w, _, c' :: s', hmk run d hrun hl hz ⟨_, rfl⟩, hw, ?_, ?_, ?_⟩
      · rw [e, hcs]; simp
      · exact (skipWs_adv hsk).term htc
      · rw [hr]
        simp only [Out.ok_bind, hsk]
        cases neg with
        | false => rfl
        | true =>
          simp only [if_true, numVal]
          rw [hN]
    · right
      exact ⟨_, _, by rw [hr]; rfl, hadv, .inl rfl⟩
    · right
      exact ⟨_, _, by rw [hr]; rfl, hadv, .inr rfl⟩
  rcases parseSign_total t ht with ⟨w, c, s, hw, hc, e, hp⟩ | ⟨w, c, s, hw, hc, e, hp⟩ | ⟨h1, h2, hp⟩
  · have hpre : (0 : Byte) ∉ (0x2D :: w) := by
      simp only [List.mem_cons, not_or]; exact ⟨by decide, hw.nul_free⟩
    refine core (0x2D :: w) (c :: s) true (by rw [e]; rfl) hpre ?_ hp ?_
    · have : Adv t (c :: s) := ⟨0x2D :: w, by rw [e]; rfl, hpre⟩
      exact this.term ht
    · intro run d hrun hl hz _
      exact .minus hw hrun hl hz
  · have hpre : (0 : Byte) ∉ (0x2B :: w) := by
      simp only [List.mem_cons, not_or]; exact ⟨by decide, hw.nul_free⟩
    refine core (0x2B :: w) (c :: s) false (by rw [e]; rfl) hpre ?_ hp ?_
    · have : Adv t (c :: s) := ⟨0x2B :: w, by rw [e]; rfl, hpre⟩
      exact this.term ht
    · intro run d hrun hl hz _
      exact .plus hw hrun hl hz
  · refine core [] t false rfl (by simp) ht hp ?_
    intro run d hrun hl hz ⟨x, hx⟩
    refine .plain hrun hl ?_ ?_ hz
    · intro r e; rw [List.nil_append] at e; rw [e] at hx; exact h2 _ hx
    · intro r e; rw [List.nil_append] at e; rw [e] at hx; exact h1 _ hx

/-- `NumberValue::Parse` on a number token followed by another character. -/
theorem parseNumber_complete {D : Type} (N : NumOps D) (hN : NegLaw N) (tok : Bytes) (d : Dec)
    (h : DialNum tok d) (c : Byte) (s r : Bytes) (hc : ¬ NumChar c)
    (hsk : skipWs (c :: s) = .ok r) :
    parseNumber N (tok ++ c :: s) = .ok (.ok r (numVal N d)) := by
  have core : ∀ (t : Bytes) (neg : Bool) (run : Bytes) (d : Dec), (∀ c ∈ run, NumChar c) →
      LongestNum run d → ZeroOk run → parseSign t = .ok (neg, run ++ c :: s) →
      parseNumber N t = .ok (.ok r (numVal N (if neg then ⟨!d.neg, d.mantissa, d.exponent⟩ else d))) := by
    intro t neg run d hrun hl hz hp
    unfold parseNumber
    rw [hp]
    simp only [Out.ok_bind]
    rcases readDouble_spec N run c s hrun hc with ⟨d', hl', -, hr⟩ | ⟨hno, -, -⟩ | ⟨hnz, -⟩
    · rw [hr]
      simp only [Out.ok_bind, hsk]
      rw [longest_det hl' hl]
      cases neg with
      | false => rfl
      | true =>
        simp only [if_true, numVal]
        rw [hN]
    · exact absurd hl (hno d)
    · exact absurd hz hnz
  have nonws : ∀ {run d}, (∀ c ∈ run, NumChar c) → LongestNum run d →
      ∃ a x, run ++ c :: s = a :: x ∧ isWs a = false := by
    intro run d hrun hl
    have := longest_ne_nil hl
    cases run with
    | nil => exact absurd rfl this
    | cons a x =>
      refine ⟨a, x ++ c :: s, rfl, ?_⟩
      have ha := hrun a (by simp)
      cases hw : isWs a with
      | false => rfl
      | true => exact absurd ha (ws_not_num hw)
  cases h with
  | @plain run d hrun hl hp hm hz =>
    refine core _ false tok d hrun hl hz ?_
    have := longest_ne_nil hl
    cases tok with
    | nil => exact absurd rfl this
    | cons a x =>
      exact parseSign_none (fun e => hm x (by rw [e])) (fun e => hp x (by rw [e]))
  | @plus w run d hw hrun hl hz =>
    refine core _ false run d hrun hl hz ?_
    obtain ⟨a, x, e, ha⟩ := nonws hrun hl
    rw [List.cons_append, List.append_assoc, e]
    exact parseSign_plus hw ha
  | @minus w run neg m e hw hrun hl hz =>
    refine core _ true run ⟨neg, m, e⟩ hrun hl hz ?_
    obtain ⟨a, x, e, ha⟩ := nonws hrun hl
    rw [List.cons_append, List.append_assoc, e]
    exact parseSign_minus hw ha

/-- On a text beginning with another character there is no number. -/
theorem parseNumber_other {D : Type} (N : NumOps D) (c : Byte) (s : Bytes) (hc : ¬ NumChar c) :
    parseNumber N (c :: s) = .ok (.err .kFloatInvalid (c :: s)) := by
  have h1 : c ≠ 0x2D := by intro e; subst e; exact hc (by simp [NumChar])
  have h2 : c ≠ 0x2B := by intro e; subst e; exact hc (by simp [NumChar])
  unfold parseNumber
  rw [parseSign_none h1 h2]
  simp only [Out.ok_bind]
  rcases readDouble_spec N [] c s (by simp) hc with ⟨d, hl, -, -⟩ | ⟨-, -, hr⟩ | ⟨hnz, -⟩
  · exact absurd rfl (longest_ne_nil hl)
  · rw [List.nil_append] at hr; rw [hr]; rfl
  · exact absurd (by intro c r e; cases e) hnz

end Verif.Parser
