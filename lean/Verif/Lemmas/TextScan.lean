import Verif.Lemmas.TextCompare
import Verif.Spec.Json

namespace Verif.Tools

open Verif Verif.Text Verif.Str Verif.Texts

/-! ## Paths -/

theorem rd_append (p q : Bytes) (c : Byte) : rd (p ++ c :: q) p.length = .ok c := by
  apply rd_drop (r := q); simp

theorem resourceLoop_skip (p r : Bytes) (len : Nat) (q : Bytes) (hq : ∀ c ∈ q, c ≠ 46 ∧ c ≠ 47) :
    resourceLoop (p ++ (q ++ r)) len (p ++ q).length = resourceLoop (p ++ (q ++ r)) len p.length := by
  generalize hn : q.length = n
  induction n generalizing q r with
  | zero => obtain rfl := List.length_eq_zero_iff.mp hn; simp
  | succ n ih =>
    obtain ⟨q', c, rfl⟩ : ∃ q' c, q = q' ++ [c] := by
      have hne : q ≠ [] := fun e => by simp [e] at hn
      exact ⟨q.dropLast, q.getLast hne, (List.dropLast_concat_getLast hne).symm⟩
    have hc := hq c (by simp)
    have e : p ++ (q' ++ [c] ++ r) = (p ++ q') ++ c :: r := by simp
    have el : (p ++ (q' ++ [c])).length = (p ++ q').length + 1 := by simp; omega
    rw [el, resourceLoop, e, rd_append, Out.ok_bind, if_neg hc.1, if_neg hc.2]
    have := ih (c :: r) q' (fun c h => hq c (by simp [h])) (by simpa using hn)
    simpa using this

theorem resource_dot (p q r : Bytes) (len : Nat) (hq : ∀ c ∈ q, c ≠ 46 ∧ c ≠ 47) :
    resourceLoop (p ++ 46 :: (q ++ r)) len (p ++ 46 :: q).length = .ok p.length := by
  have := resourceLoop_skip (p ++ [46]) r len q hq
  simp only [List.append_assoc, List.cons_append, List.nil_append] at this
  rw [this, show (p ++ [46] : Bytes).length = p.length + 1 by simp, resourceLoop, rd_append]; rfl

theorem resource_slash (p q r : Bytes) (len : Nat) (hq : ∀ c ∈ q, c ≠ 46 ∧ c ≠ 47) :
    resourceLoop (p ++ 47 :: (q ++ r)) len (p ++ 47 :: q).length = .ok len := by
  have := resourceLoop_skip (p ++ [47]) r len q hq
  simp only [List.append_assoc, List.cons_append, List.nil_append] at this
  rw [this, show (p ++ [47] : Bytes).length = p.length + 1 by simp, resourceLoop, rd_append]; rfl

theorem resource_none (q r : Bytes) (len : Nat) (hq : ∀ c ∈ q, c ≠ 46 ∧ c ≠ 47) :
    resourceLoop (q ++ r) len q.length = .ok len := by
  have := resourceLoop_skip [] r len q hq
  simp only [List.nil_append] at this
  rw [this]; rfl

theorem directoryLoop_spec (r : Bytes) : ∀ (n : Nat) (done dir name : Bytes), 0 ∉ dir ++ name →
    (dir = [] ∨ ∃ d, dir = d ++ [47]) → 47 ∉ name → dir.length < n →
    directoryLoop (done ++ (dir ++ (name ++ 0 :: r))) n done.length = .ok (done.length + dir.length) := by
  intro n
  induction n with
  | zero => intro _ _ _ _ _ _ h; omega
  | succ n ih =>
    intro done dir name h0 hd hn hl
    rw [directoryLoop, List.drop_left]
    obtain ⟨o, h1, h2⟩ := findCharFrom_spec 47 r (dir ++ name) 0 h0
    rw [findChar, ← List.append_assoc dir, h1, Out.ok_bind]
    cases o with
    | none =>
      have : dir = [] := by
        rcases hd with rfl | ⟨d, rfl⟩
        · rfl
        · exact absurd ⟨47, by simp, rfl⟩ (h2 d.length (by simp))
      subst this
      simp
    | some x =>
      obtain ⟨hx, ⟨c, hc, e⟩, hmin⟩ := h2
      obtain rfl : c = 47 := UInt8.toNat_inj.mp e
      have hxd : x < dir.length := by
        refine Nat.lt_of_not_le fun hle => ?_
        rw [List.getElem?_append_right hle] at hc
        exact hn (List.mem_of_getElem? hc)
      rw [List.getElem?_append_left hxd] at hc
      have hsplit : dir = dir.take x ++ 47 :: dir.drop (x + 1) := by
        rw [List.getElem?_eq_getElem hxd] at hc
        obtain hc := Option.some.inj hc
        rw [← hc, ← List.drop_eq_getElem_cons hxd, List.take_append_drop]
      have hdone : (done ++ (dir.take x ++ [47])).length = done.length + (x + 1) := by
        simp; omega
      have := ih (done ++ (dir.take x ++ [47])) (dir.drop (x + 1)) name
        (fun h => h0 (by
          rcases List.mem_append.mp h with h | h
          · exact List.mem_append.mpr (.inl (List.mem_of_mem_drop h))
          · exact List.mem_append.mpr (.inr h)))
        (by
          rcases hd with rfl | ⟨d, rfl⟩
          · simp at hxd
          · by_cases hx' : x + 1 ≤ d.length
            · exact .inr ⟨d.drop (x + 1), by rw [List.drop_append_of_le_length hx']⟩
            · exact .inl (List.drop_eq_nil_of_le (by simp; omega)))
        hn (by simp; omega)
      rw [hdone] at this
      have e2 : done ++ (dir.take x ++ [47]) ++ (dir.drop (x + 1) ++ (name ++ 0 :: r)) =
          done ++ (dir ++ (name ++ 0 :: r)) := by
        conv => rhs; rw [hsplit]
        simp
      rw [e2] at this
      simp only [Option.map_some, Nat.zero_add]
      rw [List.append_assoc, this]
      congr 1; simp; omega

/-! ## Scanning -/

theorem put_append {b : Bytes} {d : Nat} {l l' : Bytes} (h : d + l.length ≤ b.length) :
    put (put b d l) (d + l.length) l' = put b d (l ++ l') := by
  have e1 : (b.take d ++ l).length = d + l.length := by simp; omega
  have t1 : (put b d l).take (d + l.length) = b.take d ++ l := by
    rw [put, ← e1]; exact List.take_left
  have t2 : (put b d l).drop (d + l.length + l'.length) = b.drop (d + l.length + l'.length) := by
    rw [put, ← List.drop_drop, List.drop_left' e1, List.drop_drop]
  rw [put, t1, t2]
  simp [put, Nat.add_assoc]

theorem finish_ok {i d : Nat} {b : Bytes} (h : d < b.length) : finish i d b = .ok (put b d [0], i) := by
  rw [finish, wr_ok h]; rfl

/-- The digits at the beginning of a text, and what follows. -/
theorem split_digits (s : Bytes) : ∃ ds r, s = ds ++ r ∧ (∀ c ∈ ds, IsDigit c) ∧ (∀ c, r.head? = some c → ¬ IsDigit c) := by
  induction s with
  | nil => exact ⟨[], [], rfl, by simp, by simp⟩
  | cons c s ih =>
    by_cases h : IsDigit c
    · obtain ⟨ds, r, rfl, h1, h2⟩ := ih
      refine ⟨c :: ds, r, rfl, ?_, h2⟩
      intro k hk
      rcases List.mem_cons.mp hk with rfl | hk
      · exact h
      · exact h1 k hk
    · exact ⟨[], c :: s, rfl, by simp, by intro k hk; simp at hk; exact hk ▸ h⟩

theorem readIntLoop_spec (c : Byte) (u : Bytes) (hc : ¬ IsDigit c) : ∀ (m : Nat) (ds : Bytes) (i d : Nat) (b : Bytes),
    (∀ k ∈ ds, IsDigit k) → d + min m ds.length < b.length →
    readIntLoop m i (ds ++ c :: u) d b = .ok (put b d (ds.take m ++ [0]), i + min m ds.length) := by
  intro m
  induction m with
  | zero => intro ds i d b _ hb; rw [readIntLoop, finish_ok (by omega)]; simp
  | succ m ih =>
    intro ds i d b hd hb
    cases ds with
    | nil =>
      rw [List.nil_append, readIntLoop, if_neg (by rw [isDigit_iff]; exact hc), finish_ok (by omega)]; simp
    | cons k ds =>
      simp only [List.length_cons, Nat.succ_min_succ] at hb
      rw [List.cons_append, readIntLoop, if_pos ((isDigit_iff k).mpr (hd k (by simp))), wr_ok (by omega), Out.ok_bind,
        ih ds (i + 1) (d + 1) _ (fun k h => hd k (by simp [h])) (by rw [length_put (by simp; omega)]; omega),
        put_put (by omega)]
      simp; omega

theorem put_zero (b l : Bytes) : put b 0 l = l ++ b.drop l.length := by simp [put]

/-- `ReadFloat` copies a part of the text, whatever the text is. -/
theorem readFloatLoop_safe (r : Bytes) : ∀ (m : Nat) (s : Bytes) (dec ex en : Bool) (i d : Nat) (b : Bytes), 0 ∉ s →
    d + m < b.length →
    ∃ w v, s = w ++ v ∧ w.length ≤ m ∧
      readFloatLoop m dec ex en i (s ++ 0 :: r) d b = .ok (put b d (w ++ [0]), i + w.length) := by
  intro m
  induction m with
  | zero =>
    intro s dec ex en i d b _ hb
    exact ⟨[], s, rfl, by simp, by rw [readFloatLoop, finish_ok (by omega)]; simp⟩
  | succ m ih =>
    intro s dec ex en i d b h0 hb
    have stop : readFloatLoop (m + 1) dec ex en i (s ++ 0 :: r) d b = finish i d b →
        ∃ w v, s = w ++ v ∧ w.length ≤ m + 1 ∧
        readFloatLoop (m + 1) dec ex en i (s ++ 0 :: r) d b = .ok (put b d (w ++ [0]), i + w.length) :=
      fun h => ⟨[], s, rfl, by simp, by rw [h, finish_ok (by omega)]; simp⟩
    cases s with
    | nil =>
      refine stop ?_
      cases en <;> simp [readFloatLoop, show isDigit 0 = false by decide]
    | cons c s =>
      have go (dec' ex' en' : Bool)
          (h : readFloatLoop (m + 1) dec ex en i (c :: (s ++ 0 :: r)) d b =
            (wr b d c >>= fun b => readFloatLoop m dec' ex' en' (i + 1) (s ++ 0 :: r) (d + 1) b)) :
          ∃ w v, c :: s = w ++ v ∧ w.length ≤ m + 1 ∧
            readFloatLoop (m + 1) dec ex en i (c :: s ++ 0 :: r) d b = .ok (put b d (w ++ [0]), i + w.length) := by
        obtain ⟨w, v, rfl, hl, e⟩ := ih s dec' ex' en' (i + 1) (d + 1) (put b d [c]) (fun h => h0 (by simp [h]))
          (by rw [length_put (by simp; omega)]; omega)
        refine ⟨c :: w, v, rfl, by simpa using hl, ?_⟩
        rw [List.cons_append, h, wr_ok (by omega), Out.ok_bind, e, put_put (by omega)]
        simp; omega
      by_cases h46 : c = 46
      · cases dec with
        | true => refine stop ?_; simp [readFloatLoop, h46]
        | false => exact go true ex en (by rw [readFloatLoop, if_pos h46]; simp)
      · by_cases he : c = 101 ∨ c = 69
        · cases ex with
          | true => refine stop ?_; rw [List.cons_append, readFloatLoop, if_neg h46, if_pos he, if_pos rfl]
          | false => exact go dec true false (by rw [readFloatLoop, if_neg h46, if_pos he]; simp)
        · by_cases hm : c = 45 ∧ en = true
          · refine stop ?_; rw [List.cons_append, readFloatLoop, if_neg h46, if_neg he, if_pos hm]
          · by_cases hd : isDigit c = false
            · refine stop ?_; rw [List.cons_append, readFloatLoop, if_neg h46, if_neg he, if_neg hm, if_pos hd]
            · exact go dec ex true (by rw [readFloatLoop, if_neg h46, if_neg he, if_neg hm, if_neg hd])

theorem digit_ne {c : Byte} (h : IsDigit c) : c ≠ 46 ∧ ¬ (c = 101 ∨ c = 69) ∧ c ≠ 45 ∧ isDigit c ≠ false := by
  refine ⟨?_, ?_, ?_, ?_⟩
  · rintro rfl; revert h; unfold IsDigit; decide
  · rintro (rfl | rfl) <;> (revert h; unfold IsDigit; decide)
  · rintro rfl; revert h; unfold IsDigit; decide
  · rw [(isDigit_iff c).mpr h]; simp

/-- Reading digits. -/
theorem readFloatLoop_digits : ∀ (ds : Bytes) (m : Nat) (dec ex en : Bool) (i : Nat) (t : Bytes) (d : Nat) (b : Bytes),
    (∀ k ∈ ds, IsDigit k) → d + ds.length ≤ b.length →
    readFloatLoop (m + ds.length) dec ex en i (ds ++ t) d b =
      readFloatLoop m dec ex (en || !ds.isEmpty) (i + ds.length) t (d + ds.length) (put b d ds) := by
  intro ds
  induction ds with
  | nil => intro m dec ex en i t d b _ hb; simp [put]
  | cons c ds ih =>
    intro m dec ex en i t d b hd hb
    obtain ⟨h1, h2, h3, h4⟩ := digit_ne (hd c (by simp))
    simp only [List.length_cons] at hb ⊢
    rw [← Nat.add_assoc, List.cons_append, readFloatLoop, if_neg h1, if_neg h2, if_neg (fun h => h3 h.1), if_neg h4,
      wr_ok (by omega), Out.ok_bind, ih _ _ _ _ _ _ _ _ (fun k h => hd k (by simp [h]))
        (by rw [length_put (by simp; omega)]; omega), put_put (by omega)]
    simp only [List.isEmpty_cons, Bool.not_false, Bool.or_true, Bool.true_or]
    rw [show i + 1 + ds.length = i + (ds.length + 1) by omega, show d + 1 + ds.length = d + (ds.length + 1) by omega]

/-- Reading one character that is part of the number. -/
theorem readFloatLoop_point (m : Nat) (ex en : Bool) (i : Nat) (t : Bytes) (d : Nat) (b : Bytes) (hb : d < b.length) :
    readFloatLoop (m + 1) false ex en i (46 :: t) d b = readFloatLoop m true ex en (i + 1) t (d + 1) (put b d [46]) := by
  rw [readFloatLoop, if_pos rfl, wr_ok hb]; simp

theorem readFloatLoop_e (c : Byte) (hc : c = 101 ∨ c = 69) (m : Nat) (dec en : Bool) (i : Nat) (t : Bytes) (d : Nat)
    (b : Bytes) (hb : d < b.length) :
    readFloatLoop (m + 1) dec false en i (c :: t) d b =
      readFloatLoop m dec true false (i + 1) t (d + 1) (put b d [c]) := by
  rw [readFloatLoop, if_neg (by rcases hc with rfl | rfl <;> decide), if_pos hc, wr_ok hb]; simp

theorem readFloatLoop_stop (c : Byte) (hc : EndsNumber c) (m : Nat) (dec ex en : Bool) (i : Nat) (t : Bytes) (d : Nat)
    (b : Bytes) (hb : d < b.length) :
    readFloatLoop m dec ex en i (c :: t) d b = .ok (put b d [0], i) := by
  cases m with
  | zero => rw [readFloatLoop, finish_ok hb]
  | succ m =>
    obtain ⟨h1, h2, h3, h4⟩ := hc
    have h5 : isDigit c = false := by
      cases e : isDigit c with
      | false => rfl
      | true => exact absurd ((isDigit_iff c).mp e) h1
    rw [readFloatLoop, if_neg h2, if_neg (fun h => h.elim h4 h3)]
    split <;> simp [h5, finish_ok hb]

/-- `ReadString` after a quote: the closing quote is within the limit. -/
theorem readQuotedLoop_spec {t s : Bytes} (h : Inner 34 t s) : ∀ (m : Nat) (r : Bytes) (i d : Nat) (b : Bytes), 0 ∉ t →
    t.length < m → d + s.length < b.length →
    readQuotedLoop m false i (t ++ 34 :: r) d b = .ok (put b d (s ++ [0]), i + t.length + 1) := by
  generalize hq : (34 : Byte) = q at h
  induction h with
  | nil =>
    intro m r i d b _ hm hb
    obtain ⟨m, rfl⟩ : ∃ k, m = k + 1 := ⟨m - 1, by simp at hm; omega⟩
    subst hq
    simp at hb
    rw [List.nil_append, readQuotedLoop, if_neg (by decide), if_pos (.inl (by decide)), if_pos ⟨rfl, rfl⟩,
      finish_ok hb]; rfl
  | @plain c t s h1 h2 _ ih =>
    intro m r i d b h0 hm hb
    subst hq
    obtain ⟨m, rfl⟩ : ∃ k, m = k + 1 := ⟨m - 1, by simp at hm; omega⟩
    have hc : c ≠ 0 := fun e => h0 (by simp [e])
    simp only [List.length_cons] at hm hb
    rw [List.cons_append, readQuotedLoop, if_neg hc, if_pos (.inl h2), if_neg (fun h => h1 h.1), wr_ok (by omega),
      Out.ok_bind, ih m r (i + 1) (d + 1) _ (fun h => h0 (by simp [h])) (by omega)
        (by rw [length_put (by simp; omega)]; omega), put_put (by omega)]
    simp; omega
  | @escape c t s _ ih =>
    intro m r i d b h0 hm hb
    subst hq
    obtain ⟨m, rfl⟩ : ∃ k, m = k + 2 := ⟨m - 2, by simp at hm; omega⟩
    have hc : c ≠ 0 := fun e => h0 (by simp [e])
    simp only [List.length_cons] at hm hb
    rw [List.cons_append, readQuotedLoop, if_neg (by decide), if_neg (by simp), List.cons_append, readQuotedLoop,
      if_neg hc, if_pos (.inr rfl), if_neg (by simp), wr_ok (by omega),
      Out.ok_bind, ih m r (i + 1 + 1) (d + 1) _ (fun h => h0 (by simp [h])) (by omega)
        (by rw [length_put (by simp; omega)]; omega), put_put (by omega)]
    simp; omega

/-- `ReadString` after a quote, whatever the text is: it reads a part `v` of the text of at most `m` bytes and
stores a part of `v`. -/
theorem readQuotedLoop_safe (r : Bytes) : ∀ (m : Nat) (s : Bytes) (bs : Bool) (i d : Nat) (b : Bytes), 0 ∉ s →
    d + m < b.length →
    ∃ v s' w, s = v ++ s' ∧ v.length ≤ m ∧ w.Sublist v ∧
      readQuotedLoop m bs i (s ++ 0 :: r) d b = .ok (put b d (w ++ [0]), i + v.length) := by
  intro m
  induction m with
  | zero =>
    intro s bs i d b _ hb
    exact ⟨[], s, [], rfl, by simp, by simp, by rw [readQuotedLoop, finish_ok (by omega)]; simp⟩
  | succ m ih =>
    intro s bs i d b h0 hb
    cases s with
    | nil => exact ⟨[], [], [], rfl, by simp, by simp, by simp [readQuotedLoop, finish_ok (show d < b.length by omega)]⟩
    | cons c s =>
      have hc : c ≠ 0 := fun e => h0 (by simp [e])
      have h0' : 0 ∉ s := fun h => h0 (by simp [h])
      rw [List.cons_append, readQuotedLoop, if_neg hc]
      by_cases h1 : c ≠ 92 ∨ bs = true
      · rw [if_pos h1]
        by_cases h2 : c = 34 ∧ bs = false
        · exact ⟨[c], s, [], rfl, by simp, by simp, by rw [if_pos h2, finish_ok (by omega)]; simp⟩
        · obtain ⟨v, s', w, rfl, hl, hw, e⟩ := ih s false (i + 1) (d + 1) (put b d [c]) h0'
            (by rw [length_put (by simp; omega)]; omega)
          refine ⟨c :: v, s', c :: w, rfl, by simpa using hl, hw.cons_cons c, ?_⟩
          rw [if_neg h2, wr_ok (by omega), Out.ok_bind, e, put_put (by omega)]
          simp; omega
      · obtain ⟨v, s', w, rfl, hl, hw, e⟩ := ih s true (i + 1) d b h0' (by omega)
        refine ⟨c :: v, s', w, rfl, by simpa using hl, hw.cons c, ?_⟩
        rw [if_neg h1, e]; simp; omega

theorem readPlainLoop_spec (r : Bytes) : ∀ (m : Nat) (s : Bytes) (i d : Nat) (b : Bytes), 0 ∉ s →
    d + m < b.length →
    ∃ w, WordAt m s w ∧ readPlainLoop m i (s ++ 0 :: r) d b = .ok (put b d (w ++ [0]), i + w.length) := by
  intro m
  induction m with
  | zero =>
    intro s i d b _ hb
    exact ⟨[], ⟨s, rfl, by simp, by simp, by simp, by simp⟩, by rw [readPlainLoop, finish_ok (by omega)]; simp⟩
  | succ m ih =>
    intro s i d b h0 hb
    cases s with
    | nil =>
      exact ⟨[], ⟨[], rfl, by simp, by simp, by simp, by simp⟩,
        by simp [readPlainLoop, finish_ok (show d < b.length by omega)]⟩
    | cons c s =>
      have hc : c ≠ 0 := fun e => h0 (by simp [e])
      have h0' : 0 ∉ s := fun h => h0 (by simp [h])
      rw [List.cons_append, readPlainLoop]
      by_cases h1 : c.toNat < 33
      · refine ⟨[], ⟨c :: s, rfl, by simp, by simp, by simp, fun _ => .inl ?_⟩, ?_⟩
        · intro k hk; simp at hk; exact hk ▸ h1
        · rw [if_pos (.inr h1), finish_ok (by omega)]; simp
      · rw [if_neg (fun h => h.elim hc h1)]
        have hrd : (if c = 47 then rd (s ++ 0 :: r) 0 >>= fun k => Out.ok (decide (k = 47)) else .ok false) =
            .ok (decide ([47, 47] <+: c :: s)) := by
          by_cases h47 : c = 47
          · rw [if_pos h47, h47]
            cases s with
            | nil => simp [rd]
            | cons k s => simp [rd, eq_comm]
          · rw [if_neg h47]; simp [Ne.symm h47]
        rw [hrd, Out.ok_bind]
        by_cases hcm : [47, 47] <+: c :: s
        · refine ⟨[], ⟨c :: s, rfl, by simp, by simp, by simp, fun _ => .inr hcm⟩, ?_⟩
          rw [decide_eq_true hcm, if_pos rfl, finish_ok (by omega)]; simp
        · obtain ⟨w, ⟨v, rfl, hw, hl, hn, he⟩, e⟩ := ih s (i + 1) (d + 1) (put b d [c]) h0'
            (by rw [length_put (by simp; omega)]; omega)
          refine ⟨c :: w, ⟨v, rfl, ?_, by simpa using hl, ?_, fun h => he (by simpa using h)⟩, ?_⟩
          · intro k hk
            rcases List.mem_cons.mp hk with rfl | hk
            · omega
            · exact hw k hk
          · intro p q hpq hq
            cases p with
            | nil =>
              obtain rfl : c :: w = q := by simpa using hpq
              simpa using hcm
            | cons x p =>
              obtain ⟨rfl, rfl⟩ : c = x ∧ w = p ++ q := by simpa using hpq
              exact hn p q rfl hq
          · rw [decide_eq_false hcm, if_neg (by simp), wr_ok (by omega), Out.ok_bind, e, put_put (by omega)]
            simp; omega

/-! ## Type codes and hexadecimal digits -/

theorem shift_or (v : UInt32) (c : Byte) : (v <<< 8 ||| c.toUInt32).toNat = (256 * v.toNat + c.toNat) % 2 ^ 32 := by
  have hc := c.toNat_lt
  rw [UInt32.toNat_or, UInt32.toNat_shiftLeft, UInt8.toNat_toUInt32]
  simp only [UInt32.reduceToNat, Nat.reduceMod]
  have : v.toNat <<< 8 % 2 ^ 32 = (v.toNat % 2 ^ 24) <<< 8 := by
    simp only [Nat.shiftLeft_eq]; omega
  rw [this, ← Nat.shiftLeft_add_eq_or_of_lt (by omega), Nat.shiftLeft_eq]
  have := v.toNat_lt
  omega

theorem foldl_mod (s : Bytes) : ∀ (n : Nat),
    (s.foldl (fun n c => 256 * n + c.toNat) (n % 2 ^ 32)) % 2 ^ 32 = (s.foldl (fun n c => 256 * n + c.toNat) n) % 2 ^ 32 := by
  induction s with
  | nil => intro n; simp
  | cons c s ih =>
    intro n
    simp only [List.foldl_cons]
    rw [← ih (256 * (n % 2 ^ 32) + c.toNat), ← ih (256 * n + c.toNat)]
    congr 2; omega

theorem readTypeLoop_spec {t s : Bytes} (h : Inner 39 t s) : ∀ (v : UInt32) (i : Nat) (z : Byte) (r : Bytes), 0 ∉ t →
    z = 39 ∨ z = 0 → ∃ x : UInt32, readTypeLoop v false i (t ++ z :: r) = .ok (x, i + t.length + if z = 39 then 1 else 0) ∧
      x.toNat = (s.foldl (fun n c => 256 * n + c.toNat) v.toNat) % 2 ^ 32 := by
  generalize hq : (39 : Byte) = q at h
  induction h with
  | nil =>
    intro v i z r _ hz
    subst hq
    refine ⟨v, ?_, by have := v.toNat_lt; simp⟩
    rcases hz with rfl | rfl <;> simp [readTypeLoop]
  | @plain c t s h1 h2 _ ih =>
    intro v i z r h0 hz
    subst hq
    have hc : c ≠ 0 := fun e => h0 (by simp [e])
    obtain ⟨x, e1, e2⟩ := ih (v <<< 8 ||| c.toUInt32) (i + 1) z r (fun h => h0 (by simp [h])) hz
    refine ⟨x, ?_, ?_⟩
    · rw [List.cons_append, readTypeLoop, if_neg hc, if_pos (.inl h2), if_neg (fun h => h1 h.1), e1]
      simp; omega
    · rw [e2, shift_or, foldl_mod]; rfl
  | @escape c t s _ ih =>
    intro v i z r h0 hz
    subst hq
    have hc : c ≠ 0 := fun e => h0 (by simp [e])
    obtain ⟨x, e1, e2⟩ := ih (v <<< 8 ||| c.toUInt32) (i + 1 + 1) z r (fun h => h0 (by simp [h])) hz
    refine ⟨x, ?_, ?_⟩
    · rw [List.cons_append, readTypeLoop, if_neg (by decide), if_neg (by simp), List.cons_append, readTypeLoop,
        if_neg hc, if_pos (.inr rfl), if_neg (by simp), e1]
      simp; omega
    · rw [e2, shift_or, foldl_mod]; rfl

/-- The shifts that select the `n` lowest hexadecimal digits, highest first. -/
def shifts : Nat → List UInt64
  | 0 => []
  | n + 1 => UInt64.ofNat (4 * n) :: shifts n

theorem rd_hexDigit (n : Nat) (h : n < 16) : ∃ c, rd hexDigit n = .ok c ∧ hexDigitValue c = some n ∧ c ≠ 0 := by
  have : ∀ n : Fin 16, rd hexDigit n = .ok (hexDigit[n.val]'n.isLt) ∧ hexDigitValue (hexDigit[n.val]'n.isLt) = some n.val ∧
    (hexDigit[n.val]'n.isLt) ≠ 0 := by decide
  exact ⟨_, this ⟨n, h⟩⟩

theorem hexInto_spec (num : UInt64) : ∀ (n i a : Nat) (b : Bytes), n ≤ 16 → i + n < b.length →
    ∃ s : Bytes, hexInto num (shifts n) i b = .ok (put b i (s ++ [0])) ∧ s.length = n ∧ 0 ∉ s ∧
      s.foldl (fun n c => n.bind fun n => (hexDigitValue c).map fun d => 16 * n + d) (some a) =
        some (a * 16 ^ n + num.toNat % 16 ^ n) := by
  intro n
  induction n with
  | zero =>
    intro i a b _ hb
    exact ⟨[], by rw [shifts, hexInto, wr_ok (by omega)]; rfl, rfl, by simp, by simp [Nat.mod_one]⟩
  | succ n ih =>
    intro i a b hn hb
    have hs : (UInt64.ofNat (4 * n)).toNat = 4 * n := by rw [UInt64.toNat_ofNat']; omega
    have hv : ((num >>> UInt64.ofNat (4 * n)) &&& 15).toNat = num.toNat / 16 ^ n % 16 := by
      rw [UInt64.toNat_and, UInt64.toNat_shiftRight, hs, Nat.mod_eq_of_lt (by omega), Nat.shiftRight_eq_div_pow,
        Nat.pow_mul, show (15 : UInt64).toNat = 2 ^ 4 - 1 by decide, Nat.and_two_pow_sub_one_eq_mod]
    obtain ⟨c, hc, hcv, hc0⟩ := rd_hexDigit (num.toNat / 16 ^ n % 16) (Nat.mod_lt _ (by omega))
    obtain ⟨s, h1, h2, h3, h4⟩ := ih (i + 1) (16 * a + num.toNat / 16 ^ n % 16) (put b i [c]) (by omega)
      (by rw [length_put (by simp; omega)]; omega)
    refine ⟨c :: s, ?_, by simp [h2], by simp [h3, Ne.symm hc0], ?_⟩
    · rw [shifts, hexInto, hv, hc, Out.ok_bind, wr_ok (by omega), Out.ok_bind, h1, put_put (by omega)]; rfl
    · rw [List.foldl_cons]
      simp only [Option.bind_some, hcv, Option.map_some]
      rw [h4, Nat.pow_succ, Nat.mod_mul (x := num.toNat) (a := 16 ^ n) (b := 16)]
      congr 1
      rw [Nat.add_mul, Nat.mul_comm 16 a, Nat.mul_assoc, Nat.mul_comm 16 (16 ^ n), Nat.mul_comm (num.toNat / 16 ^ n % 16)]
      omega

theorem be4 (c0 c1 c2 c3 : Byte) :
    ((c0.toUInt32 <<< 24) ||| (c1.toUInt32 <<< 16) ||| (c2.toUInt32 <<< 8) ||| c3.toUInt32).toNat =
      c0.toNat * 2 ^ 24 + c1.toNat * 2 ^ 16 + c2.toNat * 2 ^ 8 + c3.toNat := by
  have h0 := c0.toNat_lt
  have h1 := c1.toNat_lt
  have h2 := c2.toNat_lt
  have h3 := c3.toNat_lt
  simp only [UInt32.toNat_or, UInt32.toNat_shiftLeft, UInt8.toNat_toUInt32, UInt32.reduceToNat, Nat.reduceMod]
  rw [Nat.mod_eq_of_lt (a := c0.toNat <<< 24) (by rw [Nat.shiftLeft_eq]; omega),
    Nat.mod_eq_of_lt (a := c1.toNat <<< 16) (by rw [Nat.shiftLeft_eq]; omega),
    Nat.mod_eq_of_lt (a := c2.toNat <<< 8) (by rw [Nat.shiftLeft_eq]; omega),
    ← Nat.shiftLeft_add_eq_or_of_lt (by rw [Nat.shiftLeft_eq]; omega) c0.toNat]
  rw [show c0.toNat <<< 24 + c1.toNat <<< 16 = (c0.toNat * 256 + c1.toNat) <<< 16 by
      simp only [Nat.shiftLeft_eq]; omega,
    ← Nat.shiftLeft_add_eq_or_of_lt (by rw [Nat.shiftLeft_eq]; omega) (c0.toNat * 256 + c1.toNat)]
  rw [show (c0.toNat * 256 + c1.toNat) <<< 16 + c2.toNat <<< 8 =
      ((c0.toNat * 256 + c1.toNat) * 256 + c2.toNat) <<< 8 by simp only [Nat.shiftLeft_eq]; omega,
    ← Nat.shiftLeft_add_eq_or_of_lt (by omega) ((c0.toNat * 256 + c1.toNat) * 256 + c2.toNat), Nat.shiftLeft_eq]
  omega

/-- The bytes of a type code. -/
theorem type_byte (v : UInt32) :
    (v >>> 24).toUInt8.toNat = v.toNat / 2 ^ 24 ∧ (v >>> 16).toUInt8.toNat = v.toNat / 2 ^ 16 % 256 ∧
    (v >>> 8).toUInt8.toNat = v.toNat / 2 ^ 8 % 256 ∧ v.toUInt8.toNat = v.toNat % 256 := by
  have := v.toNat_lt
  simp only [UInt32.toNat_toUInt8, UInt32.toNat_shiftRight, UInt32.reduceToNat, Nat.reduceMod, Nat.shiftRight_eq_div_pow]
  exact ⟨by omega, trivial, trivial, trivial⟩

end Verif.Tools
