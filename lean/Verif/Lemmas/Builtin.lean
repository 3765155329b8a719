import Verif.Model.Builtin
import Verif.Spec.Builtin

/-!
# Lemmas about the built-in number reader
-/

namespace Verif.Builtin

open Verif Verif.Number Verif.Spec

theorem isDigit_iff (c : Byte) : isDigit c = true ↔ Digit c := by
  unfold isDigit Digit
  simp

/-- A character at which the loops stop. -/
def Stop (c : Byte) : Prop := ¬ Digit c ∧ c ≠ 95

/-- Effect of a string of digits. -/
def feed {S : Type} (f : S → Nat → S) (s : S) (ds : Bytes) : S := ds.foldl (fun s c => f s (c.toNat - 48)) s

/-- Digits and underscores as the loops take them, beginning with the flag `b` and ending behind a digit: the text and its
digits. -/
inductive Digs (lz : Bool) : Bool → Bytes → Bytes → Prop
  | nil : Digs lz true [] []
  | digit {b c s ds} : Digit c → (lz = true → b = false) → Digs lz true s ds → Digs lz b (c :: s) (c :: ds)
  | sep {s ds} : Digs lz false s ds → Digs lz true (95 :: s) ds

section
variable {S : Type} {f : S → Nat → S} {lz : Bool}

theorem digitLoop_digit {c : Byte} (hc : Digit c) (t : Bytes) (x : S) (b seen : Bool) (h : lz = true → b = false) :
    digitLoop f lz (c :: t) x b seen = digitLoop f lz t (f x (c.toNat - 48)) true true := by
  have : (b && lz) = false := by cases lz <;> cases b <;> simp_all
  rw [digitLoop, if_pos ((isDigit_iff c).2 hc), this]
  rfl

theorem not_digit_sep : ¬ Digit 95 := by unfold Digit; decide

theorem digitLoop_sep (t : Bytes) (x : S) (seen : Bool) :
    digitLoop f lz (95 :: t) x true seen = digitLoop f lz t x false seen := rfl

theorem digitLoop_stop {c : Byte} (hc : Stop c) (t : Bytes) (x : S) (b seen : Bool) :
    digitLoop f lz (c :: t) x b seen = .ok (.inr (x, b, seen, c :: t)) := by
  rw [digitLoop, if_neg (fun h => hc.1 ((isDigit_iff c).1 h)), if_neg hc.2]

theorem digitLoop_ok {b : Bool} {s ds : Bytes} (h : Digs lz b s ds) {c : Byte} (hc : Stop c) (r : Bytes) :
    ∀ (x : S) (seen : Bool), digitLoop f lz (s ++ c :: r) x b seen =
      .ok (.inr (feed f x ds, true, seen || !ds.isEmpty, c :: r)) := by
  induction h with
  | nil => intro x seen; simp [digitLoop_stop hc, feed]
  | digit hd hl _ ih =>
    intro x seen
    rw [List.cons_append, digitLoop_digit hd _ _ _ _ hl, ih]
    simp [feed]
  | sep _ ih =>
    intro x seen
    rw [List.cons_append, digitLoop_sep, ih]

theorem digitLoop_sound (t : Bytes) : ∀ (x : S) (b seen : Bool) (x' : S) (dig' seen' : Bool) (r : Bytes),
    digitLoop f lz t x b seen = .ok (.inr (x', dig', seen', r)) →
    ∃ s ds c r', t = s ++ r ∧ r = c :: r' ∧ Stop c ∧ x' = feed f x ds ∧ seen' = (seen || !ds.isEmpty) ∧
      (dig' = true → Digs lz b s ds) ∧ (dig' = false → b = false → s = [] ∨ ds ≠ []) := by
  induction t with
  | nil => intro x b seen x' dig' seen' r h; exact nomatch h
  | cons c t ih =>
    intro x b seen x' dig' seen' r h
    by_cases hd : Digit c
    · rw [digitLoop, if_pos ((isDigit_iff c).2 hd)] at h
      by_cases hb : (b && lz) = true
      · rw [if_pos hb] at h; exact nomatch h
      · rw [if_neg hb] at h
        obtain ⟨s, ds, c', r', h1, h2, h3, h4, h5, h6, h7⟩ := ih _ _ _ _ _ _ _ h
        refine ⟨c :: s, c :: ds, c', r', by rw [h1]; rfl, h2, h3, h4, by simp [h5], fun hg => ?_, fun _ _ => .inr (by simp)⟩
        exact .digit hd (by rintro rfl; simpa using hb) (h6 hg)
    · by_cases hs : c = 95
      · subst hs
        cases b with
        | false => exact nomatch h
        | true =>
          rw [digitLoop_sep] at h
          obtain ⟨s, ds, c', r', h1, h2, h3, h4, h5, h6, h7⟩ := ih _ _ _ _ _ _ _ h
          exact ⟨95 :: s, ds, c', r', by rw [h1]; rfl, h2, h3, h4, h5, fun hg => .sep (h6 hg), by simp⟩
      · rw [digitLoop_stop ⟨hd, hs⟩] at h
        simp only [Out.ok.injEq, Sum.inr.injEq, Prod.mk.injEq] at h
        obtain ⟨rfl, rfl, rfl, rfl⟩ := h
        exact ⟨[], [], c, t, rfl, rfl, ⟨hd, hs⟩, rfl, by simp, by rintro rfl; exact .nil, by simp⟩

theorem digitLoop_safe (t : Bytes) : ∀ (x : S) (b seen : Bool), 0 ∈ t →
    (∃ st, digitLoop f lz t x b seen = .ok (.inl st)) ∨
    ∃ x' d s r, digitLoop f lz t x b seen = .ok (.inr (x', d, s, r)) ∧ 0 ∈ r := by
  induction t with
  | nil => intro x b seen h; simp at h
  | cons c t ih =>
    intro x b seen h
    by_cases hd : Digit c
    · rw [digitLoop, if_pos ((isDigit_iff c).2 hd)]
      have : 0 ∈ t := by
        rcases List.mem_cons.1 h with rfl | h
        · exact absurd hd (by unfold Digit; decide)
        · exact h
      split
      · exact .inl ⟨_, rfl⟩
      · exact ih _ _ _ this
    · by_cases hs : c = 95
      · subst hs
        have : 0 ∈ t := by
          rcases List.mem_cons.1 h with h | h
          · exact absurd h (by decide)
          · exact h
        cases b with
        | false => exact .inl ⟨_, rfl⟩
        | true => rw [digitLoop_sep]; exact ih _ _ _ this
      · rw [digitLoop_stop ⟨hd, hs⟩]
        exact .inr ⟨_, _, _, _, rfl, h⟩

end

/-! ## Groups of digits -/

/-- Groups of digits separated by underscores. -/
theorem digs_iff {lz : Bool} {b : Bool} {s ds : Bytes} : Digs lz b s ds ↔
    ∃ (g : Bytes) (gs : List Bytes), (b = false → g ≠ []) ∧ (∀ d ∈ g, Digit d) ∧ (lz = true → b = true → g = []) ∧ (lz = true → g.length ≤ 1) ∧
      (∀ g ∈ gs, g ≠ [] ∧ (∀ d ∈ g, Digit d) ∧ (lz = true → g.length = 1)) ∧
      s = g ++ (gs.map (95 :: ·)).flatten ∧ ds = g ++ gs.flatten := by
  constructor
  · intro h
    induction h with
    | nil => exact ⟨[], [], by simp⟩
    | @digit b c s ds hd hl _ ih =>
      obtain ⟨g, gs, h1, h2, h3, h4, h5, h6, h7⟩ := ih
      refine ⟨c :: g, gs, by simp, ?_, ?_, ?_, h5, by rw [h6]; rfl, by rw [h7]; rfl⟩
      · intro d hd'
        rcases List.mem_cons.1 hd' with rfl | h
        · exact hd
        · exact h2 d h
      · intro h hb; rw [hl h] at hb; exact nomatch hb
      · intro h; rw [h3 h rfl]; simp
    | @sep s ds _ ih =>
      obtain ⟨g, gs, h1, h2, h3, h4, h5, h6, h7⟩ := ih
      refine ⟨[], g :: gs, by simp, by simp, by simp, by simp, ?_, by rw [h6]; rfl, by rw [h7]; rfl⟩
      intro g' hg'
      rcases List.mem_cons.1 hg' with rfl | h
      · refine ⟨h1 rfl, h2, fun h => ?_⟩
        have := h4 h
        have : 0 < g'.length := List.length_pos_iff.2 (h1 rfl)
        omega
      · exact h5 g' h
  · rintro ⟨g, gs, h1, h2, h3, h4, h5, h6, h7⟩
    have H : ∀ (gs : List Bytes), (∀ g ∈ gs, g ≠ [] ∧ (∀ d ∈ g, Digit d) ∧ (lz = true → g.length = 1)) →
        Digs lz true (gs.map (95 :: ·)).flatten gs.flatten ∧
        ∀ g : Bytes, (∀ d ∈ g, Digit d) → (lz = true → g = []) →
          Digs lz true (g ++ (gs.map (95 :: ·)).flatten) (g ++ gs.flatten) := by
      intro gs
      induction gs with
      | nil =>
        intro _
        refine ⟨.nil, fun g hg hl => ?_⟩
        induction g with
        | nil => exact .nil
        | cons c g ih =>
          refine .digit (hg c (by simp)) (fun h => nomatch hl h) (ih (fun d hd => hg d (by simp [hd])) (fun h => nomatch hl h))
      | cons g0 gs ih =>
        intro h
        obtain ⟨i1, i2⟩ := ih (fun g hg => h g (by simp [hg]))
        obtain ⟨a1, a2, a3⟩ := h g0 (by simp)
        have base : Digs lz true (((g0 :: gs).map (95 :: ·)).flatten) ((g0 :: gs).flatten) := by
          cases g0 with
          | nil => exact absurd rfl a1
          | cons c g0 =>
            refine .sep (.digit (a2 c (by simp)) (fun _ => rfl) (i2 g0 (fun d hd => a2 d (by simp [hd])) fun h => ?_))
            have := a3 h
            simp at this
            exact this
        refine ⟨base, fun g hg hl => ?_⟩
        induction g with
        | nil => exact base
        | cons c g ih' =>
          exact .digit (hg c (by simp)) (fun h => nomatch hl h) (ih' (fun d hd => hg d (by simp [hd])) (fun h => nomatch hl h))
    subst h6 h7
    cases b with
    | true => exact (H gs h5).2 g h2 (fun h => h3 h rfl)
    | false =>
      cases g with
      | nil => exact absurd rfl (h1 rfl)
      | cons c g =>
        refine .digit (h2 c (by simp)) (fun _ => rfl) ((H gs h5).2 g (fun d hd => h2 d (by simp [hd])) fun h => ?_)
        have := h4 h
        simp at this
        exact this

theorem digs_ne_nil {lz : Bool} {s ds : Bytes} (h : Digs lz false s ds) : ds ≠ [] := by
  cases h; simp

/-! ## The exponent -/

theorem feed_exp (ds : Bytes) : ∀ (n : Nat), n ≤ 65535 → (∀ d ∈ ds, Digit d) →
    feed (fun e x => min (e * 10 + x) 65535) n ds = min (n * 10 ^ ds.length + decimal ds) 65535 := by
  induction ds with
  | nil => intro n hn _; simp [feed, decimal]; omega
  | cons c ds ih =>
    intro n hn hd
    have := ih (min (n * 10 + (c.toNat - 48)) 65535) (Nat.min_le_right _ _) (fun d hd' => hd d (by simp [hd']))
    unfold feed at this ⊢
    rw [List.foldl_cons, this]
    simp only [decimal, List.length_cons]
    by_cases h : n * 10 + (c.toNat - 48) ≤ 65535
    · rw [Nat.min_eq_left h, Nat.add_mul, Nat.pow_succ]
      have : n * 10 * 10 ^ ds.length = n * (10 ^ ds.length * 10) := by
        rw [Nat.mul_assoc, Nat.mul_comm 10]
      omega
    · have h1 : 65535 ≤ n * 10 + (c.toNat - 48) := by omega
      rw [Nat.min_eq_right h1, Nat.pow_succ]
      have p : 0 < 10 ^ ds.length := Nat.pos_of_ne_zero (by simp)
      have e1 : 65535 ≤ 65535 * 10 ^ ds.length := Nat.le_mul_of_pos_right _ p
      have e2 : (n * 10 + (c.toNat - 48)) * 10 ^ ds.length = n * (10 ^ ds.length * 10) + (c.toNat - 48) * 10 ^ ds.length := by
        rw [Nat.add_mul, Nat.mul_assoc, Nat.mul_comm 10]
      have e3 : 65535 * 10 ^ ds.length ≤ (n * 10 + (c.toNat - 48)) * 10 ^ ds.length := Nat.mul_le_mul_right _ h1
      omega

theorem grouped_iff {lz : Bool} {s ds : Bytes} : Digs lz false s ds ↔ Grouped lz s ds := by
  rw [digs_iff]
  unfold Grouped
  constructor
  · rintro ⟨g, gs, h1, h2, h3, h4, h5, h6, h7⟩
    refine ⟨g, gs, ?_, h6, h7⟩
    intro g' hg'
    rcases List.mem_cons.1 hg' with rfl | h
    · refine ⟨h1 rfl, h2, fun h => ?_⟩
      have := h4 h
      have : 0 < g'.length := List.length_pos_iff.2 (h1 rfl)
      omega
    · exact h5 g' h
  · rintro ⟨g, gs, h1, h2, h3⟩
    obtain ⟨a1, a2, a3⟩ := h1 g (by simp)
    exact ⟨g, gs, fun _ => a1, a2, by simp, fun h => by rw [a3 h]; exact Nat.le_refl _, fun g' hg' => h1 g' (by simp [hg']), h2, h3⟩

theorem digs_digits {lz b : Bool} {s ds : Bytes} (h : Digs lz b s ds) : ∀ d ∈ ds, Digit d := by
  induction h with
  | nil => simp
  | digit hd _ _ ih =>
    intro d h
    rcases List.mem_cons.1 h with rfl | h
    · exact hd
    · exact ih d h
  | sep _ ih => exact ih

/-- The factor for an exponent. -/
def power {D : Type} (A : Arith D) (e : Int) : D :=
  if 309 ≤ e then A.huge else if e ≤ -309 then A.ofNat 0 else A.lit e

/-- Multiplication by the factor, if there is an exponent. -/
def applyExp {D : Type} (A : Arith D) (e : Option Int) (v : D) : D :=
  match e with
  | none => v
  | some e => A.mul v (power A e)

theorem expSign_cons (c : Byte) (t : Bytes) : expSign (c :: t) =
    if c = 45 then .ok (true, t) else if c = 43 then .ok (false, t) else .ok (false, c :: t) := rfl

theorem finish_cons {D : Type} (A : Arith D) (v : D) (digits : Bool) (c : Byte) (t : Bytes) : finish A v digits (c :: t) =
    if !digits then .ok (.inl .kFloatInvalid)
    else if c = 101 ∨ c = 69 then readExponent A v t
    else .ok (.inr (v, c :: t)) := rfl

theorem readFraction_cons {D : Type} (A : Arith D) (v : D) (whole : Bool) (c : Byte) (t : Bytes) :
    readFraction A v whole (c :: t) =
    if c = 46 then
      digitLoop (fun (s : D × D) x => (A.add s.1 (A.div (A.ofNat x) s.2), A.mul s.2 (A.ofNat 10))) false t
        (v, A.ofNat 10) false false >>= fun r =>
      match r with
      | .inl st => .ok (.inl st)
      | .inr (s, dig, fraction, t) =>
        if fraction && !dig then .ok (.inl .kFloatInvalid) else finish A s.1 (whole || fraction) t
    else finish A v whole (c :: t) := rfl

theorem readDouble_cons {D : Type} (A : Arith D) (c : Byte) (t : Bytes) : readDouble A (c :: t) =
    digitLoop (fun v x => A.add (A.mul v (A.ofNat 10)) (A.ofNat x)) (c == 48) (c :: t) (A.ofNat 0) false false >>= fun r =>
    match r with
    | .inl st => .ok (.inl st)
    | .inr (v, dig, whole, t) =>
      if whole && !dig then .ok (.inl .kFloatInvalid) else readFraction A v whole t := rfl

/-- The value computed from the digits and the exponent. -/
def valueOf {D : Type} (A : Arith D) (ip fp : Bytes) (e : Option Int) : D :=
  let v := feed (fun v x => A.add (A.mul v (A.ofNat 10)) (A.ofNat x)) (A.ofNat 0) ip
  let v := (feed (fun (s : D × D) x => (A.add s.1 (A.div (A.ofNat x) s.2), A.mul s.2 (A.ofNat 10))) (v, A.ofNat 10) fp).1
  applyExp A e v

theorem plus_power {D : Type} (A : Arith D) (n : Nat) :
    plusPower10 A (min ((min n 65535 : Nat) : Int) 309) = .ok (power A n) := by
  unfold plusPower10 power
  rw [if_neg (by omega)]
  by_cases h : 309 ≤ n
  · rw [if_pos (by omega), if_pos (by omega)]
  · rw [if_neg (by omega), if_neg (by omega), if_neg (by omega)]
    congr 2; omega

theorem minus_power {D : Type} (A : Arith D) (n : Nat) :
    minusPower10 A (max (309 - ((min n 65535 : Nat) : Int)) 0) = .ok (power A (-(n : Int))) := by
  unfold minusPower10 power
  rw [if_neg (by omega)]
  by_cases h : 309 ≤ n
  · rw [if_pos (by omega), if_neg (by omega), if_pos (by omega)]
  · rw [if_neg (by omega), if_neg (by omega), if_neg (by omega)]
    congr 2; omega

/-- Tail of `readExponent` behind the sign. -/
theorem exponent_tail {D : Type} (A : Arith D) (v : D) {neg : Bool} {t s ds : Bytes} {c : Byte} {r : Bytes}
    (hs : expSign t = .ok (neg, s ++ c :: r)) (h : Digs false false s ds) (hc : Stop c) :
    readExponent A v t = .ok (.inr (A.mul v (power A (if neg then -(decimal ds : Int) else decimal ds)), c :: r)) := by
  unfold readExponent
  rw [hs]
  simp only [Out.ok_bind]
  rw [digitLoop_ok h hc]
  simp only [Out.ok_bind]
  rw [feed_exp _ _ (by decide) (digs_digits h)]
  simp only [Nat.zero_mul, Nat.zero_add]
  cases neg with
  | true => simp [minus_power]
  | false => simp [plus_power]

/-- Characters at which any literal ends. -/
def Final (c : Byte) : Prop := ¬ Digit c ∧ c ≠ 95 ∧ c ≠ 46 ∧ c ≠ 101 ∧ c ≠ 69

theorem Final.stop {c : Byte} (h : Final c) : Stop c := ⟨h.1, h.2.1⟩

theorem grouped_head {s ds : Bytes} {lz : Bool} (h : Grouped lz s ds) : ∃ c s', s = c :: s' ∧ Digit c := by
  obtain ⟨g, gs, h1, h2, h3⟩ := h
  obtain ⟨a1, a2, a3⟩ := h1 g (by simp)
  cases g with
  | nil => exact absurd rfl a1
  | cons c g => exact ⟨c, _, h2, a2 c (by simp)⟩

theorem expSign_digit {c : Byte} (hc : Digit c) (t : Bytes) : expSign (c :: t) = .ok (false, c :: t) := by
  rw [expSign_cons, if_neg (by rintro rfl; exact absurd hc (by unfold Digit; decide)),
    if_neg (by rintro rfl; exact absurd hc (by unfold Digit; decide))]

/-- Reading the exponent part and what follows. -/
theorem finish_ok {D : Type} (A : Arith D) (v : D) {et : Bytes} {e : Option Int} (h : UnderExp et e) {c : Byte} (hc : Final c)
    (r : Bytes) : finish A v true (et ++ c :: r) =
      .ok (.inr (applyExp A e v, c :: r)) := by
  cases h with
  | none =>
    simp only [List.nil_append, finish_cons, Bool.not_true, Bool.false_eq_true, if_false]
    rw [if_neg (by rintro (h | h); exact hc.2.2.2.1 h; exact hc.2.2.2.2 h)]
    rfl
  | unsigned hx hg =>
    obtain ⟨d, s', rfl, hd⟩ := grouped_head hg
    simp only [List.cons_append, finish_cons, Bool.not_true, Bool.false_eq_true, if_false]
    rw [if_pos hx, exponent_tail A v (t := d :: (s' ++ c :: r)) (s := d :: s') (expSign_digit hd _) (grouped_iff.2 hg) hc.stop]
    rfl
  | plus hx hg =>
    simp only [List.cons_append, finish_cons, Bool.not_true, Bool.false_eq_true, if_false]
    rw [if_pos hx, exponent_tail A v (t := 0x2B :: (_ ++ c :: r)) rfl (grouped_iff.2 hg) hc.stop]
    rfl
  | minus hx hg =>
    simp only [List.cons_append, finish_cons, Bool.not_true, Bool.false_eq_true, if_false]
    rw [if_pos hx, exponent_tail A v (t := 0x2D :: (_ ++ c :: r)) rfl (grouped_iff.2 hg) hc.stop]
    rfl

/-- The head of what follows the digits. -/
theorem exp_head {et : Bytes} {e : Option Int} (h : UnderExp et e) {c : Byte} (hc : Final c) (r : Bytes) :
    ∃ c' r', et ++ c :: r = c' :: r' ∧ Stop c' ∧ c' ≠ 46 := by
  have he : ∀ x : Byte, x = 0x65 ∨ x = 0x45 → Stop x ∧ x ≠ 46 := by
    rintro x (rfl | rfl) <;> exact ⟨⟨by unfold Digit; decide, by decide⟩, by decide⟩
  cases h with
  | none => exact ⟨c, r, rfl, hc.stop, hc.2.2.1⟩
  | unsigned hx hg => exact ⟨_, _, rfl, he _ hx⟩
  | plus hx hg => exact ⟨_, _, rfl, he _ hx⟩
  | minus hx hg => exact ⟨_, _, rfl, he _ hx⟩

theorem readFraction_ok {D : Type} (A : Arith D) (v : D) (whole : Bool) {ft fp et : Bytes} {e : Option Int}
    (hf : UnderFrac ft fp) (h : UnderExp et e) (hw : whole = true ∨ fp ≠ []) {c : Byte} (hc : Final c) (r : Bytes) :
    readFraction A v whole (ft ++ (et ++ c :: r)) = .ok (.inr (
      applyExp A e
        (feed (fun (s : D × D) x => (A.add s.1 (A.div (A.ofNat x) s.2), A.mul s.2 (A.ofNat 10))) (v, A.ofNat 10) fp).1,
      c :: r)) := by
  obtain ⟨c', r', e1, e2, e3⟩ := exp_head h hc r
  cases hf with
  | none =>
    have : whole = true := by simpa using hw
    subst this
    simp only [List.nil_append]
    have := finish_ok A v h hc r
    rw [e1] at this ⊢
    rw [readFraction_cons, if_neg e3, this]
    rfl
  | point =>
    have : whole = true := by simpa using hw
    subst this
    simp only [List.cons_append, List.nil_append]
    have := finish_ok A v h hc r
    rw [e1] at this ⊢
    rw [readFraction_cons, if_pos rfl, digitLoop_stop e2]
    simp only [Out.ok_bind, Bool.false_and, Bool.false_eq_true, if_false, Bool.or_false]
    rw [this]
    rfl
  | some hg =>
    simp only [List.cons_append]
    have := fun v => finish_ok A v h hc r
    rw [e1] at this ⊢
    have hd := grouped_iff.2 hg
    rw [readFraction_cons, if_pos rfl, digitLoop_ok hd e2]
    have hne : fp.isEmpty = false := by simpa using digs_ne_nil hd
    simp only [Out.ok_bind, Bool.not_true, Bool.and_false, Bool.false_eq_true, if_false, hne, Bool.not_false, Bool.or_true]
    rw [this]

/-- Every literal is read, up to a character that cannot belong to it. -/
theorem readDouble_ok {D : Type} (A : Arith D) {p ip fp : Bytes} {e : Option Int} (h : UnderNum p ip fp e) {c : Byte}
    (hc : Final c) (r : Bytes) : readDouble A (p ++ c :: r) = .ok (.inr (valueOf A ip fp e, c :: r)) := by
  obtain ⟨hi, hf, hne, he⟩ := h
  rename_i it ft et
  rw [List.append_assoc, List.append_assoc]
  obtain ⟨c', r', e1, e2, e3⟩ := exp_head he hc r
  -- what follows the digits before the point
  have hh : ∃ c'' r'', ft ++ (et ++ c :: r) = c'' :: r'' ∧ Stop c'' := by
    cases hf with
    | none => exact ⟨c', r', e1, e2⟩
    | point => exact ⟨_, _, rfl, by unfold Stop Digit; decide⟩
    | some hg => exact ⟨_, _, rfl, by unfold Stop Digit; decide⟩
  obtain ⟨c'', r'', e4, e5⟩ := hh
  rcases hi with ⟨rfl, rfl⟩ | hg
  · have := readFraction_ok A (A.ofNat 0) false hf he (.inr (by simpa using hne)) hc r
    rw [List.nil_append]
    rw [e4] at this ⊢
    rw [readDouble_cons]
    rw [digitLoop_stop e5]
    simp only [Out.ok_bind, Bool.false_and, Bool.false_eq_true, if_false]
    rw [this]
    cases e <;> rfl
  · obtain ⟨d, s', rfl, hd⟩ := grouped_head hg
    have hD := grouped_iff.2 hg
    have hne : ip.isEmpty = false := by simpa using digs_ne_nil hD
    have := fun v => readFraction_ok A v true hf he (.inl rfl) hc r
    rw [e4] at this ⊢
    rw [List.cons_append, readDouble_cons, ← List.cons_append]
    have hlz : (d == 48) = ((d :: s').head? == some 0x30) := by simp
    rw [hlz, digitLoop_ok hD e5]
    simp only [Out.ok_bind, Bool.not_true, Bool.and_false, Bool.false_eq_true, if_false, hne, Bool.not_false, Bool.or_true]
    rw [this]
    cases e <;> rfl

/-! ## Soundness -/

theorem readExponent_sound {D : Type} (A : Arith D) (v : D) {t : Bytes} {v' : D} {r : Bytes}
    (h : readExponent A v t = .ok (.inr (v', r))) (x : Byte) (hx : x = 0x65 ∨ x = 0x45) :
    ∃ et e c r', x :: t = et ++ r ∧ r = c :: r' ∧ Stop c ∧ UnderExp et (some e) ∧ v' = A.mul v (power A e) := by
  unfold readExponent at h
  cases hs : expSign t with
  | ub => rw [hs] at h; exact nomatch h
  | fuel => rw [hs] at h; exact nomatch h
  | ok p =>
    obtain ⟨neg, t'⟩ := p
    rw [hs] at h
    simp only [Out.ok_bind] at h
    cases hl : digitLoop (fun e x => min (e * 10 + x) 65535) false t' (0 : Nat) false false with
    | ub => rw [hl] at h; exact nomatch h
    | fuel => rw [hl] at h; exact nomatch h
    | ok q =>
      rw [hl] at h
      simp only [Out.ok_bind] at h
      rcases q with st | ⟨n, dig, seen, t''⟩
      · exact nomatch h
      · cases dig with
        | false => exact nomatch h
        | true =>
          obtain ⟨s, ds, c, r', h1, h2, h3, h4, h5, h6, h7⟩ := digitLoop_sound _ _ _ _ _ _ _ _ hl
          have hD := h6 rfl
          have hG := grouped_iff.1 hD
          rw [feed_exp _ _ (by decide) (digs_digits hD), Nat.zero_mul, Nat.zero_add] at h4
          simp only [Bool.not_true, Bool.false_eq_true, if_false] at h
          subst h4
          subst h1
          cases neg with
          | true =>
            simp only [if_true, minus_power, Out.ok_bind, Out.ok.injEq, Sum.inr.injEq, Prod.mk.injEq] at h
            obtain ⟨rfl, rfl⟩ := h
            cases t with
            | nil => exact nomatch hs
            | cons c0 t0 =>
              rw [expSign_cons] at hs
              split at hs
              · rename_i hc0
                simp only [Out.ok.injEq, Prod.mk.injEq, true_and] at hs
                subst hs hc0
                exact ⟨x :: 45 :: s, _, c, r', rfl, h2, h3, .minus hx hG, rfl⟩
              · split at hs <;> simp at hs
          | false =>
            simp only [Bool.false_eq_true, if_false, plus_power, Out.ok_bind, Out.ok.injEq, Sum.inr.injEq, Prod.mk.injEq] at h
            obtain ⟨rfl, rfl⟩ := h
            cases t with
            | nil => exact nomatch hs
            | cons c0 t0 =>
              rw [expSign_cons] at hs
              split at hs
              · simp at hs
              · split at hs
                · rename_i hc0
                  simp only [Out.ok.injEq, Prod.mk.injEq, true_and] at hs
                  subst hs hc0
                  exact ⟨x :: 43 :: s, _, c, r', rfl, h2, h3, .plus hx hG, rfl⟩
                · simp only [Out.ok.injEq, Prod.mk.injEq, true_and] at hs
                  exact ⟨x :: s, _, c, r', by rw [hs]; rfl, h2, h3, .unsigned hx hG, rfl⟩

theorem finish_sound {D : Type} (A : Arith D) (v : D) {digits : Bool} {t : Bytes} {v' : D} {r : Bytes}
    (h : finish A v digits t = .ok (.inr (v', r))) :
    digits = true ∧ ∃ et e, t = et ++ r ∧ UnderExp et e ∧ v' = applyExp A e v := by
  cases t with
  | nil => exact nomatch h
  | cons c t =>
    rw [finish_cons] at h
    cases digits with
    | false => exact nomatch h
    | true =>
      refine ⟨rfl, ?_⟩
      simp only [Bool.not_true, Bool.false_eq_true, if_false] at h
      split at h
      · rename_i hx
        obtain ⟨et, e, c', r', h1, -, -, h2, h3⟩ := readExponent_sound A v h c hx
        exact ⟨et, some e, h1, h2, h3⟩
      · simp only [Out.ok.injEq, Sum.inr.injEq, Prod.mk.injEq] at h
        obtain ⟨rfl, rfl⟩ := h
        exact ⟨[], none, rfl, .none, rfl⟩

theorem readFraction_sound {D : Type} (A : Arith D) (v : D) {whole : Bool} {t : Bytes} {v' : D} {r : Bytes}
    (h : readFraction A v whole t = .ok (.inr (v', r))) :
    ∃ ft fp et e, t = ft ++ (et ++ r) ∧ UnderFrac ft fp ∧ UnderExp et e ∧ (whole = true ∨ fp ≠ []) ∧
      v' = applyExp A e
        (feed (fun (s : D × D) x => (A.add s.1 (A.div (A.ofNat x) s.2), A.mul s.2 (A.ofNat 10))) (v, A.ofNat 10) fp).1 := by
  cases t with
  | nil => exact nomatch h
  | cons c t =>
    rw [readFraction_cons] at h
    split at h
    · rename_i hc
      subst hc
      cases hl : digitLoop (fun (s : D × D) x => (A.add s.1 (A.div (A.ofNat x) s.2), A.mul s.2 (A.ofNat 10))) false t
          (v, A.ofNat 10) false false with
      | ub => rw [hl] at h; exact nomatch h
      | fuel => rw [hl] at h; exact nomatch h
      | ok q =>
        rw [hl] at h
        simp only [Out.ok_bind] at h
        rcases q with st | ⟨s, dig, fraction, t'⟩
        · exact nomatch h
        · simp only at h
          obtain ⟨s1, ds, c1, r1, h1, h2, h3, h4, h5, h6, h7⟩ := digitLoop_sound _ _ _ _ _ _ _ _ hl
          simp only [Bool.false_or] at h5
          split at h
          · exact nomatch h
          · rename_i hg
            obtain ⟨hd, et, e, k1, k2, k3⟩ := finish_sound A _ h
            cases dig with
            | true =>
              have hG := grouped_iff.1 (h6 rfl)
              exact ⟨46 :: s1, ds, et, e, by rw [h1, k1]; rfl, .some hG, k2, .inr (digs_ne_nil (h6 rfl)), by rw [k3, h4]⟩
            | false =>
              have hf : fraction = false := by simpa using hg
              rw [hf] at h5
              have hds : ds = [] := by simpa using h5
              have hs1 : s1 = [] := by
                rcases h7 rfl rfl with h | h
                · exact h
                · exact absurd hds h
              subst hds hs1
              refine ⟨[46], [], et, e, by rw [h1, k1]; rfl, .point, k2, .inl (by simpa [hf] using hd), by rw [k3, h4]⟩
    · obtain ⟨hd, et, e, k1, k2, k3⟩ := finish_sound A _ h
      exact ⟨[], [], et, e, k1, .none, k2, .inl hd, k3⟩

/-- Whatever is read is a literal, and the value is computed from its digits and its exponent. -/
theorem readDouble_sound {D : Type} (A : Arith D) {t : Bytes} {v : D} {r : Bytes} (h : readDouble A t = .ok (.inr (v, r))) :
    ∃ p ip fp e, t = p ++ r ∧ UnderNum p ip fp e ∧ v = valueOf A ip fp e := by
  cases t with
  | nil => exact nomatch h
  | cons c t =>
    rw [readDouble_cons] at h
    cases hl : digitLoop (fun v x => A.add (A.mul v (A.ofNat 10)) (A.ofNat x)) (c == 48) (c :: t) (A.ofNat 0) false false with
    | ub => rw [hl] at h; exact nomatch h
    | fuel => rw [hl] at h; exact nomatch h
    | ok q =>
      rw [hl] at h
      simp only [Out.ok_bind] at h
      rcases q with st | ⟨s, dig, whole, t'⟩
      · exact nomatch h
      · simp only at h
        obtain ⟨s1, ds, c1, r1, h1, h2, h3, h4, h5, h6, h7⟩ := digitLoop_sound _ _ _ _ _ _ _ _ hl
        simp only [Bool.false_or] at h5
        split at h
        · exact nomatch h
        · rename_i hg
          obtain ⟨ft, fp, et, e, k1, k2, k3, k4, k5⟩ := readFraction_sound A _ h
          cases dig with
          | true =>
            have hD := h6 rfl
            have hG := grouped_iff.1 hD
            obtain ⟨d, s', rfl, hd⟩ := grouped_head hG
            have hcd : c = d := by
              rw [List.cons_append, List.cons.injEq] at h1
              exact h1.1
            refine ⟨(d :: s') ++ (ft ++ et), ds, fp, e, by rw [h1, k1, List.append_assoc, List.append_assoc], ?_, ?_⟩
            · refine ⟨.inr ?_, k2, ?_, k3⟩
              · have hlz : ((d :: s').head? == some 0x30) = (c == 48) := by simp [hcd]
                rw [hlz]; exact hG
              · intro h0
                exact digs_ne_nil hD (List.append_eq_nil_iff.1 h0).1
            · rw [k5, h4]; cases e <;> rfl
          | false =>
            have hf : whole = false := by simpa using hg
            rw [hf] at h5
            have hds : ds = [] := by simpa using h5
            have hs1 : s1 = [] := by
              rcases h7 rfl rfl with h | h
              · exact h
              · exact absurd hds h
            subst hds hs1
            refine ⟨[] ++ (ft ++ et), [], fp, e, by rw [h1, k1]; simp, ⟨.inl ⟨rfl, rfl⟩, k2, ?_, k3⟩, ?_⟩
            · rcases k4 with h | h
              · rw [hf] at h; exact nomatch h
              · exact h
            · rw [k5, h4]; cases e <;> rfl

/-! ## Safety -/

theorem readExponent_safe {D : Type} (A : Arith D) (v : D) (t : Bytes) (h : 0 ∈ t) : ∃ r, readExponent A v t = .ok r := by
  have hs : ∃ neg t', expSign t = .ok (neg, t') ∧ 0 ∈ t' := by
    cases t with
    | nil => simp at h
    | cons c t =>
      rw [expSign_cons]
      split
      · rename_i hc; subst hc
        exact ⟨_, _, rfl, by simpa using h⟩
      · split
        · rename_i hc; subst hc
          exact ⟨_, _, rfl, by simpa using h⟩
        · exact ⟨_, _, rfl, h⟩
  obtain ⟨neg, t', hs, ht⟩ := hs
  unfold readExponent
  rw [hs]
  simp only [Out.ok_bind]
  rcases digitLoop_safe (f := fun e x => min (e * 10 + x) 65535) (lz := false) t' 0 false false ht with
    ⟨st, hl⟩ | ⟨e, d, s, r, hl, hr⟩
  · rw [hl]; exact ⟨_, rfl⟩
  · rw [hl]
    simp only [Out.ok_bind]
    cases d with
    | false => exact ⟨_, rfl⟩
    | true =>
      have hb : e = min e 65535 := by
        obtain ⟨s1, ds, c1, r1, h1, h2, h3, h4, h5, h6, h7⟩ := digitLoop_sound _ _ _ _ _ _ _ _ hl
        rw [feed_exp _ _ (by decide) (digs_digits (h6 rfl))] at h4
        omega
      rw [hb]
      cases neg with
      | true => simp [minus_power]
      | false => simp [plus_power]

theorem finish_safe {D : Type} (A : Arith D) (v : D) (digits : Bool) (t : Bytes) (h : 0 ∈ t) :
    ∃ r, finish A v digits t = .ok r := by
  cases t with
  | nil => simp at h
  | cons c t =>
    rw [finish_cons]
    split
    · exact ⟨_, rfl⟩
    · split
      · rename_i hc
        apply readExponent_safe
        rcases List.mem_cons.1 h with rfl | h
        · simp at hc
        · exact h
      · exact ⟨_, rfl⟩

theorem readFraction_safe {D : Type} (A : Arith D) (v : D) (whole : Bool) (t : Bytes) (h : 0 ∈ t) :
    ∃ r, readFraction A v whole t = .ok r := by
  cases t with
  | nil => simp at h
  | cons c t =>
    rw [readFraction_cons]
    split
    · rename_i hc
      subst hc
      rcases digitLoop_safe (f := fun (s : D × D) x => (A.add s.1 (A.div (A.ofNat x) s.2), A.mul s.2 (A.ofNat 10)))
        (lz := false) t (v, A.ofNat 10) false false (by simpa using h) with ⟨st, hl⟩ | ⟨e, d, s, r, hl, hr⟩
      · rw [hl]; exact ⟨_, rfl⟩
      · rw [hl]
        simp only [Out.ok_bind]
        split
        · exact ⟨_, rfl⟩
        · exact finish_safe _ _ _ _ hr
    · exact finish_safe _ _ _ _ h

theorem readDouble_safe {D : Type} (A : Arith D) (t : Bytes) (h : 0 ∈ t) : ∃ r, readDouble A t = .ok r := by
  cases t with
  | nil => simp at h
  | cons c t =>
    rw [readDouble_cons]
    rcases digitLoop_safe (f := fun v x => A.add (A.mul v (A.ofNat 10)) (A.ofNat x)) (lz := c == 48) (c :: t) (A.ofNat 0)
      false false h with ⟨st, hl⟩ | ⟨e, d, s, r, hl, hr⟩
    · rw [hl]; exact ⟨_, rfl⟩
    · rw [hl]
      simp only [Out.ok_bind]
      split
      · exact ⟨_, rfl⟩
      · exact readFraction_safe _ _ _ _ hr

end Verif.Builtin
