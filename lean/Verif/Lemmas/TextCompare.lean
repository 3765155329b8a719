import Verif.Lemmas.TextTools

namespace Verif.Tools

open Verif Verif.Text Verif.Str Verif.Texts

/-! ## Comparisons without regard to case -/

theorem upper_eq (c : Byte) : upper c = (capital c).toNat := by
  unfold upper capital
  have := c.toNat_lt
  by_cases h : 97 ≤ c.toNat ∧ c.toNat < 123
  · rw [if_pos h, if_pos (by omega), UInt8.toNat_ofNat']; omega
  · rw [if_neg h, if_neg (by omega)]

theorem lower_eq_iff (c d : Byte) : lower c = lower d ↔ capital c = capital d := by
  rw [← UInt8.toNat_inj, ← upper_eq, ← upper_eq]
  unfold lower upper
  split <;> split <;> split <;> split <;> omega

theorem lower_zero_iff (c : Byte) : lower c = 0 ↔ capital c = 0 := by
  rw [← UInt8.toNat_inj, ← upper_eq]
  unfold lower upper
  split <;> split <;> simp <;> omega

theorem capital_eq_zero {c : Byte} (h : capital c = 0) : c = 0 := by
  have h := congrArg UInt8.toNat h
  rw [← upper_eq] at h
  unfold upper at h
  apply UInt8.toNat_inj.mp
  split at h
  · simp at h; omega
  · exact h

theorem caseless_eq (s t : Bytes) : compareTextCaseless s t = compareText (s.map capital) (t.map capital) := by
  induction s generalizing t with
  | nil => cases t <;> simp [compareTextCaseless, compareText]
  | cons x s ih =>
    cases t with
    | nil => simp [compareTextCaseless, compareText]
    | cons y t =>
      simp only [compareTextCaseless, List.map_cons, compareText, ne_eq, lower_eq_iff, lower_zero_iff, ih]

theorem lessThanCaseless_eq (s t : Bytes) :
    compareTextLessThanCaseless s t = compareTextLessThan (s.map capital) (t.map capital) := by
  induction s generalizing t with
  | nil => cases t <;> simp [compareTextLessThanCaseless, compareTextLessThan]
  | cons x s ih =>
    cases t with
    | nil => simp [compareTextLessThanCaseless, compareTextLessThan]
    | cons y t =>
      simp only [compareTextLessThanCaseless, List.map_cons, compareTextLessThan, upper_eq, ih,
        ← UInt8.toNat_inj, ne_eq]
      rfl

theorem lessEqualCaseless_eq (s t : Bytes) :
    compareTextLessEqualCaseless s t = compareTextLessEqual (s.map capital) (t.map capital) := by
  induction s generalizing t with
  | nil => cases t <;> simp [compareTextLessEqualCaseless, compareTextLessEqual]
  | cons x s ih =>
    cases t with
    | nil => simp [compareTextLessEqualCaseless, compareTextLessEqual]
    | cons y t =>
      simp only [compareTextLessEqualCaseless, List.map_cons, compareTextLessEqual, upper_eq, ih,
        ← UInt8.toNat_inj, ne_eq]
      rfl

theorem caselessMax_eq (m : Nat) (s t : Bytes) :
    compareTextCaselessMaxLoop m s t = compareTextMaxLoop m (s.map capital) (t.map capital) := by
  induction m generalizing s t with
  | zero => simp [compareTextCaselessMaxLoop, compareTextMaxLoop]
  | succ m ih =>
    cases s with
    | nil => simp [compareTextCaselessMaxLoop, compareTextMaxLoop]
    | cons x s =>
      cases t with
      | nil => simp [compareTextCaselessMaxLoop, compareTextMaxLoop]
      | cons y t =>
        simp only [compareTextCaselessMaxLoop, List.map_cons, compareTextMaxLoop, ne_eq, lower_eq_iff,
          lower_zero_iff, ih]

theorem lessThanCaselessMax_eq (m : Nat) (s t : Bytes) :
    lessThanCaselessMaxLoop m s t = lessThanMaxLoop m (s.map capital) (t.map capital) := by
  induction m generalizing s t with
  | zero => simp [lessThanCaselessMaxLoop, lessThanMaxLoop]
  | succ m ih =>
    cases s with
    | nil => simp [lessThanCaselessMaxLoop, lessThanMaxLoop]
    | cons x s =>
      cases t with
      | nil => simp [lessThanCaselessMaxLoop, lessThanMaxLoop]
      | cons y t =>
        simp only [lessThanCaselessMaxLoop, List.map_cons, lessThanMaxLoop, upper_eq, ih,
          ← UInt8.toNat_inj, ne_eq]
        rfl

theorem lessEqualCaselessMax_eq (m : Nat) (s t : Bytes) :
    lessEqualCaselessMaxLoop m s t = lessEqualMaxLoop m (s.map capital) (t.map capital) := by
  induction m generalizing s t with
  | zero => simp [lessEqualCaselessMaxLoop, lessEqualMaxLoop]
  | succ m ih =>
    cases s with
    | nil => simp [lessEqualCaselessMaxLoop, lessEqualMaxLoop]
    | cons x s =>
      cases t with
      | nil => simp [lessEqualCaselessMaxLoop, lessEqualMaxLoop]
      | cons y t =>
        simp only [lessEqualCaselessMaxLoop, List.map_cons, lessEqualMaxLoop, upper_eq, ih,
          ← UInt8.toNat_inj, ne_eq]
        rfl

theorem zero_not_mem_capital {s : Bytes} (h : 0 ∉ s) : 0 ∉ s.map capital := by
  intro h'
  obtain ⟨c, hc, e⟩ := List.mem_map.mp h'
  exact h (capital_eq_zero e ▸ hc)

theorem holds_capital {t s : Bytes} (h : Holds t s) : Holds (t.map capital) (s.map capital) := by
  obtain ⟨h0, r, rfl⟩ := h
  exact ⟨zero_not_mem_capital h0, r.map capital, by simp [show capital 0 = 0 by decide]⟩

theorem within_capital {m : Nat} {t s : Bytes} (h : Within m t s) : Within m (t.map capital) (s.map capital) := by
  obtain ⟨h0, ⟨h, r, rfl⟩ | ⟨h, r, rfl⟩⟩ := h
  · exact ⟨zero_not_mem_capital h0, .inl ⟨by simpa using h, r.map capital, by simp⟩⟩
  · exact ⟨zero_not_mem_capital h0, .inr ⟨by simpa using h, r.map capital, by simp [show capital 0 = 0 by decide]⟩⟩

/-! ## Comparisons with a limit -/

theorem compareMax_eq : ∀ (m : Nat) (s t a b : Bytes), Within m s a → Within m t b →
    compareTextMaxLoop m s t = compareText (a ++ [0]) (b ++ [0]) := by
  intro m
  induction m with
  | zero => intro s t a b ha hb; rw [ha.zero, hb.zero]; simp [compareTextMaxLoop, compareText]
  | succ m ih =>
    intro s t a b ha hb
    cases a with
    | nil =>
      obtain ⟨r, rfl⟩ := ha.nil
      cases b with
      | nil => obtain ⟨r', rfl⟩ := hb.nil; simp [compareTextMaxLoop, compareText]
      | cons y b =>
        obtain ⟨hy, t', rfl, hw⟩ := hb.cons
        simp [compareTextMaxLoop, compareText, Ne.symm hy]
    | cons x a =>
      obtain ⟨hx, s', rfl, hw⟩ := ha.cons
      cases b with
      | nil => obtain ⟨r', rfl⟩ := hb.nil; simp [compareTextMaxLoop, compareText, hx]
      | cons y b =>
        obtain ⟨hy, t', rfl, hw'⟩ := hb.cons
        simp only [compareTextMaxLoop, List.cons_append, compareText, hx, if_false, ih _ _ _ _ hw hw']

theorem lessThanMax_eq : ∀ (m : Nat) (s t a b : Bytes), Within m s a → Within m t b →
    lessThanMaxLoop m s t = compareTextLessThan (a ++ [0]) (b ++ [0]) := by
  intro m
  induction m with
  | zero => intro s t a b ha hb; rw [ha.zero, hb.zero]; simp [lessThanMaxLoop, compareTextLessThan]
  | succ m ih =>
    intro s t a b ha hb
    cases a with
    | nil =>
      obtain ⟨r, rfl⟩ := ha.nil
      cases b with
      | nil => obtain ⟨r', rfl⟩ := hb.nil; simp [lessThanMaxLoop, compareTextLessThan]
      | cons y b =>
        obtain ⟨hy, t', rfl, hw⟩ := hb.cons
        simp [lessThanMaxLoop, compareTextLessThan]
    | cons x a =>
      obtain ⟨hx, s', rfl, hw⟩ := ha.cons
      cases b with
      | nil => obtain ⟨r', rfl⟩ := hb.nil; simp [lessThanMaxLoop, compareTextLessThan, hx]
      | cons y b =>
        obtain ⟨hy, t', rfl, hw'⟩ := hb.cons
        simp only [lessThanMaxLoop, List.cons_append, compareTextLessThan, ih _ _ _ _ hw hw']

theorem lessEqualMax_eq : ∀ (m : Nat) (s t a b : Bytes), Within m s a → Within m t b →
    lessEqualMaxLoop m s t = compareTextLessEqual (a ++ [0]) (b ++ [0]) := by
  intro m
  induction m with
  | zero => intro s t a b ha hb; rw [ha.zero, hb.zero]; simp [lessEqualMaxLoop, compareTextLessEqual]
  | succ m ih =>
    intro s t a b ha hb
    cases a with
    | nil =>
      obtain ⟨r, rfl⟩ := ha.nil
      cases b with
      | nil => obtain ⟨r', rfl⟩ := hb.nil; simp [lessEqualMaxLoop, compareTextLessEqual]
      | cons y b =>
        obtain ⟨hy, t', rfl, hw⟩ := hb.cons
        simp [lessEqualMaxLoop, compareTextLessEqual]
    | cons x a =>
      obtain ⟨hx, s', rfl, hw⟩ := ha.cons
      cases b with
      | nil => obtain ⟨r', rfl⟩ := hb.nil; simp [lessEqualMaxLoop, compareTextLessEqual, hx]
      | cons y b =>
        obtain ⟨hy, t', rfl, hw'⟩ := hb.cons
        simp only [lessEqualMaxLoop, List.cons_append, compareTextLessEqual, ih _ _ _ _ hw hw']

/-! ## The lexicographic order -/

section
variable {α : Type} {lt : α → α → Prop}

theorem lexBy_cons {x y : α} {a b : List α} :
    LexBy lt (x :: a) (y :: b) ↔ lt x y ∨ (x = y ∧ LexBy lt a b) := by
  constructor
  · rintro (⟨z, s, h⟩ | ⟨p, u, v, s, t, h1, h2, h⟩)
    · obtain ⟨rfl, rfl⟩ : y = x ∧ b = a ++ z :: s := by simpa using h
      exact .inr ⟨rfl, .inl ⟨z, s, rfl⟩⟩
    · cases p with
      | nil =>
        obtain ⟨rfl, rfl⟩ : x = u ∧ a = s := by simpa using h1
        obtain ⟨rfl, rfl⟩ : y = v ∧ b = t := by simpa using h2
        exact .inl h
      | cons z p =>
        obtain ⟨rfl, rfl⟩ : x = z ∧ a = p ++ u :: s := by simpa using h1
        obtain ⟨rfl, rfl⟩ : y = x ∧ b = p ++ v :: t := by simpa using h2
        exact .inr ⟨rfl, .inr ⟨p, u, v, s, t, rfl, rfl, h⟩⟩
  · rintro (h | ⟨rfl, ⟨z, s, rfl⟩ | ⟨p, u, v, s, t, rfl, rfl, h⟩⟩)
    · exact .inr ⟨[], x, y, a, b, rfl, rfl, h⟩
    · exact .inl ⟨z, s, rfl⟩
    · exact .inr ⟨x :: p, u, v, s, t, rfl, rfl, h⟩

theorem lexBy_nil_cons {y : α} {b : List α} : LexBy lt [] (y :: b) := .inl ⟨y, b, rfl⟩

theorem not_lexBy_nil {a : List α} : ¬ LexBy lt a [] := by
  rintro (⟨z, s, h⟩ | ⟨p, u, v, s, t, h1, h2, h⟩)
  · simp at h
  · simp at h2

theorem lexBy_irrefl (hi : ∀ x, ¬ lt x x) (a : List α) : ¬ LexBy lt a a := by
  induction a with
  | nil => exact not_lexBy_nil
  | cons x a ih => rw [lexBy_cons]; exact fun h => h.elim (hi x) fun h => ih h.2

theorem lexBy_trans (ht : ∀ x y z, lt x y → lt y z → lt x z) : ∀ (a b c : List α),
    LexBy lt a b → LexBy lt b c → LexBy lt a c := by
  intro a
  induction a with
  | nil =>
    intro b c h1 h2
    cases c with
    | nil => exact absurd h2 not_lexBy_nil
    | cons z c => exact lexBy_nil_cons
  | cons x a ih =>
    intro b c h1 h2
    cases b with
    | nil => exact absurd h1 not_lexBy_nil
    | cons y b =>
      cases c with
      | nil => exact absurd h2 not_lexBy_nil
      | cons z c =>
        rw [lexBy_cons] at *
        rcases h1 with h1 | ⟨rfl, h1⟩
        · rcases h2 with h2 | ⟨rfl, h2⟩
          · exact .inl (ht _ _ _ h1 h2)
          · exact .inl h1
        · rcases h2 with h2 | ⟨rfl, h2⟩
          · exact .inl h2
          · exact .inr ⟨rfl, ih _ _ h1 h2⟩

end

theorem part_lt_irrefl (x : Part) : ¬ x.lt x := by cases x <;> simp [Part.lt]

theorem part_lt_trans (x y z : Part) (h1 : x.lt y) (h2 : y.lt z) : x.lt z := by
  cases x <;> cases y <;> cases z <;> simp only [Part.lt] at * <;> omega

/-! ## Texts with numbers -/

theorem isDigit_iff (c : Byte) : isDigit c = true ↔ IsDigit c := by
  simp only [isDigit, IsDigit, decide_eq_true_eq]; omega

theorem readDigits_spec (c : Byte) (u : Bytes) (hc : ¬ IsDigit c) : ∀ (ds : Bytes) (n count : Nat),
    (∀ d ∈ ds, IsDigit d) →
    readDigits (UInt32.ofNat n) count (ds ++ c :: u) =
      .ok (UInt32.ofNat (ds.foldl (fun n k => 10 * n + (k.toNat - 48)) n), count + ds.length, c :: u) := by
  intro ds
  induction ds with
  | nil =>
    intro n count _
    rw [List.nil_append, readDigits, if_neg (by rw [isDigit_iff]; exact hc)]; rfl
  | cons d ds ih =>
    intro n count hd
    rw [List.cons_append, readDigits, if_pos ((isDigit_iff d).mpr (hd d (by simp)))]
    rw [show UInt32.ofNat n * 10 + UInt32.ofNat (d.toNat - 48) = UInt32.ofNat (10 * n + (d.toNat - 48)) by
      rw [UInt32.ofNat_add, UInt32.ofNat_mul, UInt32.mul_comm]; rfl]
    rw [ih _ _ (fun d h => hd d (by simp [h])), List.foldl_cons, List.length_cons]
    congr 3; omega

/-- What the comparison needs of the value of a character. -/
structure CharValue (f : Byte → Nat) : Prop where
  zero : ∀ c, f c = 0 ↔ c = 0
  digit : ∀ c, IsDigit c → f c = c.toNat
  other : ∀ c, ¬ IsDigit c → f c < 48 ∨ 57 < f c

theorem charValue_toNat : CharValue UInt8.toNat :=
  ⟨fun c => by rw [← UInt8.toNat_inj]; rfl, fun _ _ => rfl, fun c h => by unfold IsDigit at h; omega⟩

theorem charValue_upper : CharValue upper := by
  refine ⟨fun c => ?_, fun c h => ?_, fun c h => ?_⟩
  · rw [← UInt8.toNat_inj]; unfold upper; split <;> simp <;> omega
  · unfold IsDigit at h; unfold upper; split <;> omega
  · unfold IsDigit at h; unfold upper; split <;> omega

/-- Text without digits and followed by a terminator, or beginning with one. -/
theorem head_rest {t x : Bytes} (h : ∀ c, t.head? = some c → ¬ IsDigit c) :
    ∃ c u, t ++ 0 :: x = c :: u ∧ ¬ IsDigit c := by
  cases t with
  | nil => exact ⟨0, x, rfl, by unfold IsDigit; simp⟩
  | cons c t => exact ⟨c, t ++ 0 :: x, rfl, h c rfl⟩

theorem numbered_spec {f : Byte → Nat} (hf : CharValue f) {a : Bytes} {ps : List Part} (ha : Parts (2 ^ 32) f a ps) :
    ∀ (b : Bytes) (qs : List Part) (x y : Bytes) (n : Nat), Parts (2 ^ 32) f b qs → 0 ∉ a → 0 ∉ b →
      a.length < n →
      ∃ r, numberedLess f n (a ++ 0 :: x) (b ++ 0 :: y) = .ok r ∧ (r = true ↔ LexBy Part.lt ps qs) := by
  have h00 : isDigit 0 = false := by decide
  have f0 : f 0 = 0 := (hf.zero 0).mpr rfl
  have mem0 {d : Byte} {ds t : Bytes} (h : 0 ∉ d :: ds ++ t) : d ≠ 0 := fun e => h (by simp [e])
  induction ha with
  | nil =>
    intro b qs x y n hb _ h0 hn
    obtain ⟨n, rfl⟩ : ∃ k, n = k + 1 := ⟨n - 1, by simp at hn; omega⟩
    cases hb with
    | nil =>
      refine ⟨false, by simp [numberedLess, h00, f0], ?_⟩
      simp [not_lexBy_nil]
    | @chr c t qs hc ht =>
      have : c ≠ 0 := mem0 (ds := t) (t := []) (by simpa using h0)
      have : f c ≠ 0 := fun e => this ((hf.zero c).mp e)
      refine ⟨true, ?_, by simp [lexBy_nil_cons]⟩
      simp only [List.nil_append, List.cons_append, numberedLess, h00, f0]
      simp; omega
    | @num m d t qs hd hm hs ht =>
      obtain ⟨e, d, rfl⟩ : ∃ e d', d = e :: d' := by
        cases d with
        | nil => exact absurd rfl hd.1.1
        | cons e d => exact ⟨e, d, rfl⟩
      have : f e ≠ 0 := fun e' => mem0 h0 ((hf.zero e).mp e')
      refine ⟨true, ?_, by simp [lexBy_nil_cons]⟩
      simp only [List.nil_append, List.cons_append, numberedLess, h00, f0]
      simp; omega
  | @chr c t ps hc ht ih =>
    intro b qs x y n hb h0 h0' hn
    obtain ⟨n, rfl⟩ : ∃ k, n = k + 1 := ⟨n - 1, by simp at hn; omega⟩
    have hcd : isDigit c = false := by
      cases e : isDigit c with
      | false => rfl
      | true => exact absurd ((isDigit_iff c).mp e) hc
    have hfc : f c ≠ 0 := fun e => mem0 (ds := t) (t := []) (by simpa using h0) ((hf.zero c).mp e)
    cases hb with
    | nil =>
      refine ⟨false, ?_, by simp [not_lexBy_nil]⟩
      simp only [List.nil_append, List.cons_append, numberedLess, hcd, f0]
      simp [hfc]
    | @chr c' t' qs hc' ht' =>
      simp only [List.cons_append, numberedLess, hcd]
      by_cases e : f c = f c'
      · obtain ⟨r, h1, h2⟩ := ih t' qs x y n ht' (fun h => h0 (by simp [h])) (fun h => h0' (by simp [h]))
          (by simpa using hn)
        refine ⟨r, by simp [e, h1]; exact fun h => absurd (e.trans h) hfc, ?_⟩
        rw [h2, lexBy_cons]; simp [Part.lt, e]
      · refine ⟨decide (f c < f c'), by simp [e], ?_⟩
        rw [lexBy_cons]; simp [Part.lt, e]
    | @num m d t' qs hd hm hs ht' =>
      obtain ⟨e, d, rfl⟩ : ∃ e d', d = e :: d' := by
        cases d with
        | nil => exact absurd rfl hd.1.1
        | cons e d => exact ⟨e, d, rfl⟩
      have hed : IsDigit e := hd.1.2.1 e (by simp)
      have he := hf.digit e hed
      have ho := hf.other c hc
      have hne : f c ≠ f e := by unfold IsDigit at hed; omega
      refine ⟨decide (f c < f e), by simp [List.cons_append, numberedLess, hcd, hne], ?_⟩
      rw [lexBy_cons]
      unfold IsDigit at hed
      simp [Part.lt]; omega
  | @num m d t ps hd hm hs ht ih =>
    intro b qs x y n hb h0 h0' hn
    obtain ⟨n, rfl⟩ : ∃ k, n = k + 1 := ⟨n - 1, by simp at hn; omega⟩
    obtain ⟨e, d, rfl⟩ : ∃ e d', d = e :: d' := by
      cases d with
      | nil => exact absurd rfl hd.1.1
      | cons e d => exact ⟨e, d, rfl⟩
    have hed : IsDigit e := hd.1.2.1 e (by simp)
    have he := hf.digit e hed
    have hed' := (isDigit_iff e).mpr hed
    cases hb with
    | nil =>
      refine ⟨false, ?_, by simp [not_lexBy_nil]⟩
      unfold IsDigit at hed
      have : f e ≠ 0 := by omega
      simp only [List.nil_append, List.cons_append, numberedLess, h00, f0]
      simp [this]
    | @chr c' t' qs hc' ht' =>
      have hcd : isDigit c' = false := by
        cases e : isDigit c' with
        | false => rfl
        | true => exact absurd ((isDigit_iff c').mp e) hc'
      have ho := hf.other c' hc'
      have hne : f e ≠ f c' := by unfold IsDigit at hed; omega
      refine ⟨decide (f e < f c'), by simp [List.cons_append, numberedLess, hcd, hne], ?_⟩
      rw [lexBy_cons]
      unfold IsDigit at hed
      simp [Part.lt]; omega
    | @num m' d' t' qs hd' hm' hs' ht' =>
      obtain ⟨e', d', rfl⟩ : ∃ e d, d' = e :: d := by
        cases d' with
        | nil => exact absurd rfl hd'.1.1
        | cons e d => exact ⟨e, d, rfl⟩
      have hed2 := (isDigit_iff e').mpr (hd'.1.2.1 e' (by simp))
      obtain ⟨c, u, hcu, hc⟩ := head_rest (x := x) hs
      obtain ⟨c', u', hcu', hc'⟩ := head_rest (x := y) hs'
      have v1 : d.foldl (fun n k => 10 * n + (k.toNat - 48)) (e.toNat - 48) = m := by
        have := hd.2; simpa [decValue] using this
      have v2 : d'.foldl (fun n k => 10 * n + (k.toNat - 48)) (e'.toNat - 48) = m' := by
        have := hd'.2; simpa [decValue] using this
      have r1 := readDigits_spec c u hc d (e.toNat - 48) 1 (fun k hk => hd.1.2.1 k (by simp [hk]))
      have r2 := readDigits_spec c' u' hc' d' (e'.toNat - 48) 1 (fun k hk => hd'.1.2.1 k (by simp [hk]))
      rw [v1] at r1
      rw [v2] at r2
      rw [List.append_assoc, List.append_assoc, hcu, hcu']
      simp only [List.cons_append, numberedLess, hed', hed2, r1, r2, Out.ok_bind, and_self, if_true]
      have n1 : (UInt32.ofNat m).toNat = m := by rw [UInt32.toNat_ofNat']; exact Nat.mod_eq_of_lt hm
      have n2 : (UInt32.ofNat m').toNat = m' := by rw [UInt32.toNat_ofNat']; exact Nat.mod_eq_of_lt hm'
      by_cases em : m = m'
      · subst em
        have ed := natText_unique _ m _ _ (Nat.lt_succ_self m) hd hd'
        obtain ⟨rfl, rfl⟩ : e = e' ∧ d = d' := by simpa using ed
        obtain ⟨r, h1, h2⟩ := ih t' qs x y n ht' (fun h => h0 (by simp [h])) (fun h => h0' (by simp [h]))
          (by simp at hn; omega)
        rw [← hcu, ← hcu']
        refine ⟨r, by simp [h1], ?_⟩
        rw [h2, lexBy_cons]; simp [Part.lt]
      · have hne : UInt32.ofNat m ≠ UInt32.ofNat m' := fun h => em (by rw [← n1, ← n2, h])
        refine ⟨decide (UInt32.ofNat m < UInt32.ofNat m'), by rw [if_pos hne], ?_⟩
        rw [lexBy_cons, decide_eq_true_eq, UInt32.lt_iff_toNat_lt, n1, n2]
        simp [Part.lt, em]

/-- Texts with the same parts are equal if their characters have different values. -/
theorem parts_injective {B : Nat} {f : Byte → Nat} (hf : ∀ c d, f c = f d → c = d) {a : Bytes} {ps : List Part}
    (ha : Parts B f a ps) : ∀ b, Parts B f b ps → a = b := by
  induction ha with
  | nil => intro b hb; cases hb; rfl
  | @chr c t ps hc ht ih =>
    intro b hb
    generalize hq : Part.chr (f c) :: ps = qs at hb
    cases hb with
    | nil => cases hq
    | chr hc' ht' =>
      obtain ⟨e, rfl⟩ : f c = _ ∧ _ = _ := by simpa using hq
      rw [hf _ _ e, ih _ ht']
    | num => cases hq
  | @num n d t ps hd hn hs ht ih =>
    intro b hb
    generalize hq : Part.num n :: ps = qs at hb
    cases hb with
    | nil => cases hq
    | chr => cases hq
    | num hd' _ _ ht' =>
      obtain ⟨rfl, rfl⟩ : n = _ ∧ _ = _ := by simpa using hq
      rw [natText_unique _ n _ _ (Nat.lt_succ_self n) hd hd', ih _ ht']

theorem parts_total {B : Nat} {f : Byte → Nat} (hf : CharValue f) {a : Bytes} {ps : List Part}
    (ha : Parts B f a ps) : ∀ b qs, Parts B f b qs → LexBy Part.lt ps qs ∨ ps = qs ∨ LexBy Part.lt qs ps := by
  have key (p q : Part) (ps qs : List Part) (h : p.lt q ∨ p = q ∨ q.lt p)
      (ih : LexBy Part.lt ps qs ∨ ps = qs ∨ LexBy Part.lt qs ps) :
      LexBy Part.lt (p :: ps) (q :: qs) ∨ p :: ps = q :: qs ∨ LexBy Part.lt (q :: qs) (p :: ps) := by
    rcases h with h | rfl | h
    · exact .inl (lexBy_cons.mpr (.inl h))
    · rcases ih with h | rfl | h
      · exact .inl (lexBy_cons.mpr (.inr ⟨rfl, h⟩))
      · exact .inr (.inl rfl)
      · exact .inr (.inr (lexBy_cons.mpr (.inr ⟨rfl, h⟩)))
    · exact .inr (.inr (lexBy_cons.mpr (.inl h)))
  induction ha with
  | nil =>
    intro b qs hb
    cases qs with
    | nil => exact .inr (.inl rfl)
    | cons q qs => exact .inl lexBy_nil_cons
  | @chr c t ps hc ht ih =>
    intro b qs hb
    cases hb with
    | nil => exact .inr (.inr lexBy_nil_cons)
    | @chr c' t' qs hc' ht' =>
      refine key _ _ _ _ ?_ (ih _ _ ht')
      simp only [Part.lt, Part.chr.injEq]; omega
    | num _ _ _ ht' =>
      refine key _ _ _ _ ?_ (ih _ _ ht')
      have := hf.other c hc
      simp only [Part.lt]
      rcases this with h | h
      · exact .inl h
      · exact .inr (.inr h)
  | @num n d t ps hd hn hs ht ih =>
    intro b qs hb
    cases hb with
    | nil => exact .inr (.inr lexBy_nil_cons)
    | @chr c' t' qs hc' ht' =>
      refine key _ _ _ _ ?_ (ih _ _ ht')
      have := hf.other c' hc'
      simp only [Part.lt]
      rcases this with h | h
      · exact .inr (.inr h)
      · exact .inl h
    | num _ _ _ ht' =>
      refine key _ _ _ _ ?_ (ih _ _ ht')
      simp only [Part.lt, Part.num.injEq]; omega

/-! ## Searching for texts -/

theorem probe_spec (f : Byte → Nat) (r w : Bytes) : ∀ (u s : Bytes), 0 ∉ s → 0 ∉ u →
    ∃ p, probe f (s ++ 0 :: r) (u ++ 0 :: w) = .ok p ∧ (p = .found ↔ u.map f <+: s.map f) ∧
      (p = .ended → s.length < u.length) := by
  intro u
  induction u with
  | nil => intro s _ _; exact ⟨.found, by cases s <;> simp [probe], by simp, by simp⟩
  | cons x u ih =>
    intro s h0 h0'
    have hx : x ≠ 0 := fun e => h0' (by simp [e])
    cases s with
    | nil => exact ⟨.ended, by simp [probe, hx], by simp, by simp⟩
    | cons y s =>
      have hy : y ≠ 0 := fun e => h0 (by simp [e])
      simp only [List.cons_append, probe, hx, hy, if_false, List.map_cons, List.cons_prefix_cons]
      by_cases e : f x = f y
      · obtain ⟨p, h1, h2, h3⟩ := ih s (fun h => h0 (by simp [h])) (fun h => h0' (by simp [h]))
        refine ⟨p, by simp [e, h1], by simp [e, h2], fun h => by have := h3 h; simp; exact this⟩
      · exact ⟨.differs, by simp [e], by simp [e], by simp⟩

theorem findFrom_spec (f : Byte → Nat) (first : Byte) (u r w : Bytes) (hu : 0 ∉ u) : ∀ (s : Bytes) (i : Nat), 0 ∉ s →
    ∃ o : Option Nat, findFrom f first (u ++ 0 :: w) i (s ++ 0 :: r) = .ok (o.map (fun x => i + x)) ∧
      Least (fun j => ∃ v, s.drop j = first :: v ∧ u.map f <+: v.map f) s.length o := by
  intro s
  induction s with
  | nil => intro i _; exact ⟨none, by simp [findFrom], fun j hj => by simp at hj⟩
  | cons c s ih =>
    intro i h0
    have hc : c ≠ 0 := fun e => h0 (by simp [e])
    have h0' : 0 ∉ s := fun h => h0 (by simp [h])
    obtain ⟨o, h1, h2⟩ := ih (i + 1) h0'
    rw [List.cons_append, findFrom, if_neg hc]
    by_cases hk : c = first
    · subst hk
      obtain ⟨p, p1, p2, p3⟩ := probe_spec f r w u s h0' hu
      rw [if_pos rfl, p1]
      cases p with
      | found => exact ⟨some 0, by simp, Least.zero ⟨s, rfl, p2.mp rfl⟩⟩
      | ended =>
        have hl := p3 rfl
        refine ⟨none, rfl, fun j hj => ?_⟩
        rintro ⟨v, hv, hp⟩
        have e1 := congrArg List.length hv
        have e2 := hp.length_le
        simp at e1 e2; omega
      | differs =>
        refine ⟨o.map (· + 1), by simp only [h1, map_shift], Least.succ ?_ (h2.congr fun j => by simp)⟩
        rintro ⟨v, hv, hp⟩
        obtain rfl : s = v := by simpa using hv
        exact absurd (p2.mpr hp) (by simp)
    · refine ⟨o.map (· + 1), by rw [if_neg hk, h1, map_shift], Least.succ ?_ (h2.congr fun j => by simp)⟩
      rintro ⟨v, hv, hp⟩
      simp at hv; exact hk hv.1

end Verif.Tools
