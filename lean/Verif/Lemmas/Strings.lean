import Verif.Model.Strings
import Verif.Spec.Texts

namespace Verif.Str

open Verif Verif.Texts

/-- `l` stored in the block `b` from position `d`. -/
def put (b : Bytes) (d : Nat) (l : Bytes) : Bytes := b.take d ++ l ++ b.drop (d + l.length)

theorem length_put {b : Bytes} {d : Nat} {l : Bytes} (h : d + l.length ≤ b.length) :
    (put b d l).length = b.length := by
  simp only [put, List.length_append, List.length_take, List.length_drop]; omega

theorem set_eq_put {b : Bytes} {d : Nat} {k : Byte} (h : d < b.length) : b.set d k = put b d [k] := by
  rw [put, List.set_eq_take_append_cons_drop, if_pos h]; simp

theorem put_put {b : Bytes} {d : Nat} {k : Byte} {l : Bytes} (h : d < b.length) :
    put (put b d [k]) (d + 1) l = put b d (k :: l) := by
  have e : put b d [k] = (b.take d ++ [k]) ++ b.drop (d + 1) := by simp [put]
  have e1 : (b.take d ++ [k]).length = d + 1 := by simp; omega
  have t1 : (put b d [k]).take (d + 1) = b.take d ++ [k] := by
    rw [e, ← e1]; exact List.take_left
  have t2 : (put b d [k]).drop (d + 1 + l.length) = b.drop (d + 1 + l.length) := by
    rw [e, ← List.drop_drop, List.drop_left' e1, List.drop_drop]
  rw [put, t1, t2]
  simp only [put, List.append_assoc, List.cons_append, List.nil_append, List.length_cons]
  rw [show d + 1 + l.length = d + (l.length + 1) by omega]

theorem wr_ok {b : Bytes} {d : Nat} {k : Byte} (h : d < b.length) : wr b d k = .ok (put b d [k]) := by
  rw [wr, if_pos h, set_eq_put h]

theorem wr_ub {b : Bytes} {d : Nat} {k : Byte} (h : ¬ d < b.length) : wr b d k = .ub := by
  rw [wr, if_neg h]

theorem rd_drop {t : Bytes} {i : Nat} {k : Byte} {r : Bytes} (h : t.drop i = k :: r) : Text.rd t i = .ok k := by
  have : t[i]? = some k := by
    have := congrArg List.head? h
    simpa [List.head?_drop] using this
  simp [Text.rd, this]

theorem drop_succ {t : Bytes} {i : Nat} {k : Byte} {r : Bytes} (h : t.drop i = k :: r) : t.drop (i + 1) = r := by
  rw [← List.drop_drop, h]; rfl

/-- Copying a terminated text with a limit. -/
theorem copyTextMax_ext (t rest : Bytes) (m : Nat) : ∀ (s : Bytes) (i d : Nat) (b : Bytes), 0 ∉ s →
    t.drop i = s ++ 0 :: rest → d + min m s.length < b.length →
    copyTextMax (.ext t) m i d b = .ok (put b d (s.take m ++ [0]), i + min m s.length) := by
  induction m with
  | zero => intro s i d b h0 ht hb; simp only [copyTextMax]; rw [wr_ok (by omega)]; simp
  | succ m ih =>
    intro s i d b h0 ht hb
    cases s with
    | nil =>
      simp only [copyTextMax, rdSrc]
      rw [rd_drop ht, Out.ok_bind, if_pos rfl, wr_ok (by simpa using hb)]; simp
    | cons k s =>
      simp only [copyTextMax, rdSrc]
      have hk : k ≠ 0 := fun e => h0 (by simp [e])
      have hm : min (m + 1) (s.length + 1) = min m s.length + 1 := by omega
      simp only [List.length_cons, hm] at hb ⊢
      rw [rd_drop ht, Out.ok_bind, if_neg hk, wr_ok (by omega), Out.ok_bind,
        ih s (i + 1) (d + 1) _ (fun h => h0 (by simp [h])) (drop_succ ht)
          (by rw [length_put (by simp; omega)]; omega),
        put_put (by omega)]
      simp; omega

/-- Copying from a text that has at least `m` bytes before any NUL. -/
theorem copyTextMax_long (t rest : Bytes) (m : Nat) : ∀ (s : Bytes) (i d : Nat) (b : Bytes), 0 ∉ s →
    t.drop i = s ++ rest → s.length = m → d + m < b.length →
    copyTextMax (.ext t) m i d b = .ok (put b d (s ++ [0]), i + m) := by
  induction m with
  | zero =>
    intro s i d b h0 ht hs hb
    obtain rfl := List.length_eq_zero_iff.mp hs
    simp only [copyTextMax]; rw [wr_ok (by omega)]; simp
  | succ m ih =>
    intro s i d b h0 ht hs hb
    cases s with
    | nil => simp at hs
    | cons k s =>
      simp only [copyTextMax, rdSrc]
      have hk : k ≠ 0 := fun e => h0 (by simp [e])
      rw [rd_drop ht, Out.ok_bind, if_neg hk, wr_ok (by omega), Out.ok_bind,
        ih s (i + 1) (d + 1) _ (fun h => h0 (by simp [h])) (drop_succ ht) (by simpa using hs)
          (by rw [length_put (by simp; omega)]; omega),
        put_put (by omega)]
      simp; omega

/-- Copying a whole terminated text. -/
theorem copyText_ext (t rest : Bytes) : ∀ (s : Bytes) (n i d : Nat) (b : Bytes), 0 ∉ s →
    t.drop i = s ++ 0 :: rest → d + s.length < b.length → s.length < n →
    copyText (.ext t) n i d b = .ok (put b d (s ++ [0]), i + s.length) := by
  intro s
  induction s with
  | nil =>
    intro n i d b h0 ht hb hn
    obtain ⟨n, rfl⟩ : ∃ k, n = k + 1 := ⟨n - 1, by simp at hn; omega⟩
    simp only [copyText, rdSrc]
    rw [rd_drop ht, Out.ok_bind, wr_ok (by simpa using hb), Out.ok_bind, if_pos rfl]; simp
  | cons k s ih =>
    intro n i d b h0 ht hb hn
    obtain ⟨n, rfl⟩ : ∃ j, n = j + 1 := ⟨n - 1, by simp at hn; omega⟩
    have hk : k ≠ 0 := fun e => h0 (by simp [e])
    simp only [List.length_cons] at hb hn ⊢
    simp only [copyText, rdSrc]
    rw [rd_drop ht, Out.ok_bind, wr_ok (by omega), Out.ok_bind, if_neg hk,
      ih n (i + 1) (d + 1) _ (fun h => h0 (by simp [h])) (drop_succ ht)
        (by rw [length_put (by simp; omega)]; omega) (by omega), put_put (by omega)]
    simp; omega

theorem getTextLength_holds {c s : Bytes} (h : Holds c s) : getTextLength c = .ok s.length := by
  obtain ⟨h0, rest, rfl⟩ := h
  induction s with
  | nil => simp [getTextLength]
  | cons k s ih =>
    have hk : k ≠ 0 := fun e => h0 (by simp [e])
    simp only [List.cons_append, getTextLength, if_neg hk]
    rw [ih (fun h => h0 (by simp [h]))]; simp

/-- A block that has no NUL has no text length. -/
theorem getTextLength_ub {c : Bytes} (h : 0 ∉ c) : getTextLength c = .ub := by
  induction c with
  | nil => rfl
  | cons k s ih =>
    have hk : k ≠ 0 := fun e => h (by simp [e])
    simp only [getTextLength, if_neg hk]
    rw [ih (fun h' => h (by simp [h']))]; rfl

theorem holds_put {c s u : Bytes} (h : Holds c s) (hu : 0 ∉ u) :
    Holds (put c s.length (u ++ [0])) (s ++ u) := by
  obtain ⟨h0, rest, rfl⟩ := h
  refine ⟨by simp [h0, hu], ((s ++ 0 :: rest).drop (s.length + (u ++ [0]).length)), ?_⟩
  simp only [put, List.take_left']
  simp

theorem holds_put_zero {c u : Bytes} (hu : 0 ∉ u) : Holds (put c 0 (u ++ [0])) u :=
  ⟨hu, c.drop (u ++ [0]).length, by simp [put]⟩

theorem holds_unique {c s s' : Bytes} (h : Holds c s) (h' : Holds c s') : s = s' := by
  obtain ⟨h0, r, rfl⟩ := h
  obtain ⟨h0', r', e⟩ := h'
  induction s generalizing s' with
  | nil =>
    cases s' with
    | nil => rfl
    | cons k s' => simp only [List.nil_append, List.cons_append, List.cons.injEq] at e; exact absurd (by simp [e.1]) h0'
  | cons k s ih =>
    cases s' with
    | nil => simp only [List.nil_append, List.cons_append, List.cons.injEq] at e; exact absurd (by simp [e.1]) h0
    | cons k' s' =>
      simp only [List.cons_append, List.cons.injEq] at e
      rw [e.1, ih (fun h => h0 (by simp [h])) (fun h => h0' (by simp [h])) e.2]

theorem holds_length {c s : Bytes} (h : Holds c s) : s.length < c.length := by
  obtain ⟨-, r, rfl⟩ := h; simp

theorem not_mem_take {s : Bytes} (h : 0 ∉ s) (n : Nat) : 0 ∉ s.take n := fun h' => h (List.mem_of_mem_take h')

/-! ## Decimal numerals -/

theorem decValue_append (a : Bytes) (k : Byte) : decValue (a ++ [k]) = 10 * decValue a + (k.toNat - 48) := by
  simp [decValue, List.foldl_append]

theorem foldl_dec (c : Bytes) (n : Nat) :
    c.foldl (fun n k => 10 * n + (k.toNat - 48)) n = n * 10 ^ c.length + decValue c := by
  induction c generalizing n with
  | nil => simp [decValue]
  | cons k c ih =>
    simp only [List.foldl_cons, decValue, List.length_cons]
    rw [ih, ih (10 * 0 + _)]
    rw [Nat.pow_succ]; grind

theorem digitLoop_spec (cap : Nat) (f : Nat) : ∀ (num : Nat) (c : Bytes), num < f →
    (∀ k ∈ c, 48 ≤ k.toNat ∧ k.toNat ≤ 57) → num < 10 ^ (cap - c.length) → c.length < cap →
    ∃ t, digitLoop cap f num c = .ok (t ++ c) ∧ NatText num t := by
  induction f with
  | zero => intro num c h; omega
  | succ f ih =>
    intro num c hf hc hcap hlt
    simp only [digitLoop, if_pos hlt]
    have hd : (UInt8.ofNat (num % 10 + 48)).toNat = num % 10 + 48 := by
      rw [UInt8.toNat_ofNat']; exact Nat.mod_eq_of_lt (by omega)
    by_cases hz : num / 10 = 0
    · refine ⟨[UInt8.ofNat (num % 10 + 48)], by simp [hz], ⟨by simp, by simp [hd]; omega, by simp⟩, ?_⟩
      simp [decValue, hd]; omega
    · rw [if_pos hz]
      have hcl : c.length + 1 < cap := by
        apply Classical.byContradiction; intro h
        have : cap - c.length = 1 := by omega
        rw [this] at hcap; omega
      obtain ⟨t, e, ht, hv⟩ := ih (num / 10) (UInt8.ofNat (num % 10 + 48) :: c) (by omega)
        (by intro k hk; rcases List.mem_cons.mp hk with rfl | hk
            · rw [hd]; omega
            · exact hc k hk)
        (by
          rw [List.length_cons]
          have : cap - c.length = (cap - (c.length + 1)) + 1 := by omega
          rw [this, Nat.pow_succ] at hcap
          omega) (by simpa using hcl)
      refine ⟨t ++ [UInt8.ofNat (num % 10 + 48)], by rw [e]; simp, ⟨by simp, ?_, ?_⟩, ?_⟩
      · intro k hk
        rcases List.mem_append.mp hk with hk | hk
        · exact ht.2.1 k hk
        · rw [List.mem_singleton.mp hk, hd]; omega
      · intro h
        obtain ⟨x, u, rfl⟩ := List.exists_cons_of_ne_nil ht.1
        simp only [List.cons_append, List.head?_cons, Option.some.injEq] at h
        have := ht.2.2 (by simp [h])
        rw [this] at hv
        simp [decValue] at hv
        omega
      · rw [decValue_append, hv, hd]; omega

theorem putDigits_spec (max : Int) (d : Nat) : ∀ (c : Bytes) (a : Nat) (b : Bytes), c ≠ [] →
    d + a + min (max.toNat - a) c.length < b.length →
    putDigits max d c a b = .ok (put b (d + a) (c.take (max.toNat - a) ++ [0]), a + min (max.toNat - a) c.length) := by
  intro c
  induction c with
  | nil => intro a b h; exact absurd rfl h
  | cons k c ih =>
    intro a b _ hb
    simp only [putDigits]
    simp only [List.length_cons] at hb ⊢
    by_cases hm : (a : Int) < max
    · obtain ⟨q, hq⟩ : ∃ q, max.toNat - a = q + 1 := ⟨max.toNat - a - 1, by omega⟩
      have hq' : max.toNat - (a + 1) = q := by omega
      rw [hq] at hb ⊢
      rw [if_pos hm, wr_ok (by omega), Out.ok_bind]
      by_cases hc : c = []
      · subst hc
        rw [if_pos rfl, wr_ok (by rw [length_put (by simp; omega)]; simp at hb; omega), Out.ok_bind,
          show d + (a + 1) = d + a + 1 from rfl, put_put (by omega)]
        simp
      · rw [if_neg hc, ih (a + 1) _ hc (by rw [length_put (by simp; omega), hq']; omega), hq',
          show d + (a + 1) = d + a + 1 from rfl, put_put (by omega)]
        simp; omega
    · have hq : max.toNat - a = 0 := by omega
      rw [hq] at hb ⊢
      rw [if_neg hm, wr_ok (by omega)]; simp

/-- What the two printing functions do, away from the smallest integer. -/
theorem printInt_spec (wrapv : Bool) (bits cap : Nat) (num : Int) (d : Nat) (max : Int) (b : Bytes)
    (hmin : -(2 ^ (bits - 1)) < num) (hmax : num < 2 ^ (bits - 1)) (hcap : 2 ^ (bits - 1) ≤ 10 ^ cap) (h1 : 0 < cap)
    (hb : d + max.toNat < b.length) :
    ∃ t, IntText num t ∧
      printInt wrapv bits cap num d max b = .ok (put b d (t.take max.toNat ++ [0]), min max.toNat t.length) := by
  have habs : absMasked wrapv bits num = .ok num.natAbs := by
    rw [absMasked, if_neg (by omega)]
  have hlt : num.natAbs < 2 ^ (bits - 1) := by
    have : ((2 ^ (bits - 1) : Nat) : Int) = 2 ^ (bits - 1) := by simp
    omega
  obtain ⟨t, e, ht⟩ := digitLoop_spec cap (num.natAbs + 1) num.natAbs [] (by omega) (by simp)
    (by simp only [List.length_nil, Nat.sub_zero]; omega) (by simpa using h1)
  rw [List.append_nil] at e
  simp only [printInt]
  rw [habs, Out.ok_bind, e, Out.ok_bind]
  by_cases hn : num < 0
  · refine ⟨45 :: t, Or.inr ⟨hn, t, rfl, ht⟩, ?_⟩
    rw [if_pos hn]
    by_cases hm : (0 : Int) < max
    · obtain ⟨q, hq⟩ : ∃ q, max.toNat = q + 1 := ⟨max.toNat - 1, by omega⟩
      rw [if_pos hm, wr_ok (by omega), Out.ok_bind,
        putDigits_spec max d t 1 _ ht.1.1 (by rw [length_put (by simp; omega)]; omega),
        put_put (by omega), hq]
      simp
      try omega
    · have hq : max.toNat = 0 := by omega
      rw [if_neg hm, wr_ok (by omega), hq]; simp
  · refine ⟨t, Or.inl ⟨by omega, ?_⟩, ?_⟩
    · rwa [show num.toNat = num.natAbs by omega]
    · rw [if_neg hn, putDigits_spec max d t 0 b ht.1.1 (by omega)]
      simp

theorem natText_snoc {n : Nat} {a : Bytes} {k : Byte} (ha : a ≠ []) (h : NatText n (a ++ [k])) :
    NatText (n / 10) a ∧ k.toNat = n % 10 + 48 := by
  obtain ⟨⟨-, hd, hz⟩, hv⟩ := h
  rw [decValue_append] at hv
  have hk := hd k (by simp)
  refine ⟨⟨⟨ha, fun x hx => hd x (by simp [hx]), fun h => ?_⟩, by omega⟩, by omega⟩
  have : (a ++ [k]).head? = some 48 := by rw [List.head?_append, h]; rfl
  have := congrArg List.length (hz this)
  simp only [List.length_append, List.length_cons, List.length_nil] at this
  exact absurd (List.length_eq_zero_iff.mp (by omega)) ha

theorem natText_pos {n : Nat} {a : Bytes} {k : Byte} (ha : a ≠ []) (h : NatText n (a ++ [k])) : 10 ≤ n := by
  have h1 := (natText_snoc ha h).1
  by_cases hn : n < 10
  · exfalso
    rw [Nat.div_eq_of_lt hn] at h1
    obtain ⟨x, u, rfl⟩ := List.exists_cons_of_ne_nil ha
    have hx := h1.1.2.1 x (by simp)
    have hv := h1.2
    simp only [decValue, List.foldl_cons] at hv
    rw [foldl_dec] at hv
    have hx0 : x.toNat - 48 = 0 := by
      apply Classical.byContradiction; intro hne
      have : 0 < (10 * 0 + (x.toNat - 48)) * 10 ^ u.length := Nat.mul_pos (by omega) (Nat.pow_pos (by omega))
      omega
    have hx1 : x = 48 := by apply UInt8.toNat_inj.mp; simp; omega
    have := congrArg List.length (h.1.2.2 (by simp [hx1]))
    simp at this
  · omega

/-- The decimal representation of a number is unique. -/
theorem natText_unique : ∀ (m n : Nat) (t u : Bytes), n < m → NatText n t → NatText n u → t = u := by
  intro m
  induction m with
  | zero => intro n t u h; omega
  | succ m ih =>
    intro n t u hn ht hu
    rcases List.eq_nil_or_concat t with rfl | ⟨a, k, rfl⟩
    · exact absurd rfl ht.1.1
    rcases List.eq_nil_or_concat u with rfl | ⟨b, l, rfl⟩
    · exact absurd rfl hu.1.1
    simp only [List.concat_eq_append] at ht hu ⊢
    have single : ∀ {k : Byte}, NatText n ([] ++ [k]) → n < 10 ∧ k.toNat = n % 10 + 48 := by
      intro k h
      have := h.1.2.1 k (by simp)
      have h2 := h.2
      rw [decValue_append] at h2
      simp only [decValue, List.foldl_nil] at h2
      omega
    by_cases ha : a = []
    · subst ha
      obtain ⟨h1, h2⟩ := single ht
      by_cases hb : b = []
      · subst hb
        obtain ⟨-, h4⟩ := single hu
        rw [UInt8.toNat_inj.mp (h2.trans h4.symm)]
      · have := natText_pos hb hu; omega
    · have h1 := natText_pos ha ht
      obtain ⟨h3, h4⟩ := natText_snoc ha ht
      by_cases hb : b = []
      · subst hb; have := (single hu).1; omega
      · obtain ⟨h5, h6⟩ := natText_snoc hb hu
        rw [UInt8.toNat_inj.mp (h4.trans h6.symm), ih (n / 10) a b (by omega) h3 h5]

theorem intText_unique {n : Int} {t u : Bytes} (ht : IntText n t) (hu : IntText n u) : t = u := by
  rcases ht with ⟨h1, h2⟩ | ⟨h1, a, rfl, h2⟩ <;> rcases hu with ⟨h3, h4⟩ | ⟨h3, b, rfl, h4⟩
  · exact natText_unique _ _ _ _ (Nat.lt_succ_self _) h2 h4
  · omega
  · omega
  · rw [natText_unique _ _ _ _ (Nat.lt_succ_self _) h2 h4]

theorem intText_no_nul {n : Int} {t : Bytes} (h : IntText n t) : 0 ∉ t := by
  rcases h with ⟨-, h⟩ | ⟨-, u, rfl, h⟩
  · intro h0; have := h.1.2.1 0 h0; simp at this
  · intro h0
    rcases List.mem_cons.mp h0 with h0 | h0
    · exact absurd h0 (by decide)
    · have := h.1.2.1 0 h0; simp at this

/-! ## Fixed-capacity strings -/

section
variable {len : Nat} {c a t s : Bytes} (hc : c.length = len + 1)
include hc

theorem fixedSet_holds (ht : Holds t s) :
    ∃ c', fixedSet len (.ext t) c = .ok c' ∧ c'.length = len + 1 ∧ Holds c' (s.take len) := by
  obtain ⟨h0, r, rfl⟩ := ht
  refine ⟨put c 0 (s.take len ++ [0]), ?_, ?_, holds_put_zero (not_mem_take h0 _)⟩
  · rw [fixedSet, copyTextMax_ext _ r len s 0 0 c h0 rfl (by omega)]; rfl
  · rw [length_put (by simp; omega), hc]

theorem fixedSetN_holds (n : Int) (ht : Holds t s) :
    ∃ c', fixedSetN len (.ext t) n c = .ok c' ∧ c'.length = len + 1 ∧
      Holds c' ((s.take n.toNat).take len) := by
  obtain ⟨h0, r, rfl⟩ := ht
  refine ⟨put c 0 (s.take (min n len).toNat ++ [0]), ?_, ?_, ?_⟩
  · rw [fixedSetN, copyTextMax_ext _ r _ s 0 0 c h0 rfl (by omega)]; rfl
  · rw [length_put (by simp; omega), hc]
  · rw [List.take_take, show min len n.toNat = (min n len).toNat by omega]
    exact holds_put_zero (not_mem_take h0 _)

theorem fixedAppend_holds (ha : Holds c a) (ht : Holds t s) :
    ∃ c', fixedAppend len (.ext t) c = .ok c' ∧ c'.length = len + 1 ∧ Holds c' ((a ++ s).take len) := by
  have hl := holds_length ha
  obtain ⟨h0, r, rfl⟩ := ht
  refine ⟨put c a.length (s.take (len - a.length) ++ [0]), ?_, ?_, ?_⟩
  · rw [fixedAppend, fixedLength, getTextLength_holds ha, Out.ok_bind,
      copyTextMax_ext _ r _ s 0 a.length c h0 rfl (by omega)]; rfl
  · rw [length_put (by simp; omega), hc]
  · rw [List.take_append, List.take_of_length_le (l := a) (by omega)]
    exact holds_put ha (not_mem_take h0 _)

theorem fixedAppendString_holds (n : Int) (ha : Holds c a) (ht : Holds t s) :
    ∃ c', fixedAppendString len (.ext t) n c = .ok c' ∧ c'.length = len + 1 ∧
      Holds c' ((a ++ s.take n.toNat).take len) := by
  have hl := holds_length ha
  obtain ⟨h0, r, rfl⟩ := ht
  refine ⟨put c a.length (s.take (min ((len : Int) - a.length) n).toNat ++ [0]), ?_, ?_, ?_⟩
  · rw [fixedAppendString, fixedLength, getTextLength_holds ha, Out.ok_bind,
      copyTextMax_ext _ r _ s 0 a.length c h0 rfl (by omega)]; rfl
  · rw [length_put (by simp; omega), hc]
  · rw [List.take_append, List.take_of_length_le (l := a) (by omega), List.take_take,
      show min (len - a.length) n.toNat = (min ((len : Int) - a.length) n).toNat by omega]
    exact holds_put ha (not_mem_take h0 _)

theorem fixedAppendChar_holds {k : Byte} (hk : k ≠ 0) (ha : Holds c a) :
    ∃ c', fixedAppendChar len k c = .ok c' ∧ c'.length = len + 1 ∧ Holds c' ((a ++ [k]).take len) := by
  have hl := holds_length ha
  rw [fixedAppendChar, fixedLength, getTextLength_holds ha, Out.ok_bind]
  by_cases h : a.length < len
  · refine ⟨put c a.length [k, 0], ?_, ?_, ?_⟩
    · rw [if_pos h, wr_ok (by omega), Out.ok_bind, wr_ok (by rw [length_put (by simp; omega)]; omega),
        put_put (by omega)]
    · rw [length_put (by simp; omega), hc]
    · rw [List.take_of_length_le (by simp; omega)]
      exact holds_put ha (u := [k]) (by simpa using hk.symm)
  · refine ⟨c, by rw [if_neg h], hc, ?_⟩
    rw [List.take_append, List.take_of_length_le (l := a) (by omega), show len - a.length = 0 by omega]
    simpa using ha

theorem fixedSetInt_holds (wrapv : Bool) (n : Int) (h1 : -(2 ^ 31) < n) (h2 : n < 2 ^ 31) :
    ∃ c' u, fixedSetInt wrapv len n c = .ok c' ∧ c'.length = len + 1 ∧ IntText n u ∧ Holds c' (u.take len) := by
  obtain ⟨u, hu, e⟩ := printInt_spec wrapv 32 16 n 0 len c (by simpa using h1) (by simpa using h2) (by decide)
    (by omega) (by omega)
  refine ⟨put c 0 (u.take len ++ [0]), u, ?_, ?_, hu, holds_put_zero (not_mem_take (intText_no_nul hu) _)⟩
  · rw [fixedSetInt, integerToString, e]; rfl
  · rw [length_put (by simp; omega), hc]

theorem fixedAppendInt_holds (wrapv : Bool) (n : Int) (h1 : -(2 ^ 31) < n) (h2 : n < 2 ^ 31) (ha : Holds c a) :
    ∃ c' u, fixedAppendInt wrapv len n c = .ok c' ∧ c'.length = len + 1 ∧ IntText n u ∧
      Holds c' ((a ++ u).take len) := by
  have hl := holds_length ha
  obtain ⟨u, hu, e⟩ := printInt_spec wrapv 32 16 n a.length ((len : Int) - a.length) c (by simpa using h1)
    (by simpa using h2) (by decide) (by omega) (by omega)
  refine ⟨put c a.length (u.take (len - a.length) ++ [0]), u, ?_, ?_, hu, ?_⟩
  · rw [fixedAppendInt, fixedLength, getTextLength_holds ha, Out.ok_bind, integerToString, e,
      show ((len : Int) - a.length).toNat = len - a.length by omega]; rfl
  · rw [length_put (by simp; omega), hc]
  · rw [List.take_append, List.take_of_length_le (l := a) (by omega)]
    exact holds_put ha (not_mem_take (intText_no_nul hu) _)

theorem fixedSetInt64_holds (wrapv : Bool) (n : Int) (h1 : -(2 ^ 63) < n) (h2 : n < 2 ^ 63) :
    ∃ c' u, fixedSetInt64 wrapv len n c = .ok c' ∧ c'.length = len + 1 ∧ IntText n u ∧ Holds c' (u.take len) := by
  obtain ⟨u, hu, e⟩ := printInt_spec wrapv 64 32 n 0 len c (by simpa using h1) (by simpa using h2) (by decide)
    (by omega) (by omega)
  refine ⟨put c 0 (u.take len ++ [0]), u, ?_, ?_, hu, holds_put_zero (not_mem_take (intText_no_nul hu) _)⟩
  · rw [fixedSetInt64, integer64ToString, e]; rfl
  · rw [length_put (by simp; omega), hc]

theorem fixedAppendInt64_holds (wrapv : Bool) (n : Int) (h1 : -(2 ^ 63) < n) (h2 : n < 2 ^ 63) (ha : Holds c a) :
    ∃ c' u, fixedAppendInt64 wrapv len n c = .ok c' ∧ c'.length = len + 1 ∧ IntText n u ∧
      Holds c' ((a ++ u).take len) := by
  have hl := holds_length ha
  obtain ⟨u, hu, e⟩ := printInt_spec wrapv 64 32 n a.length ((len : Int) - a.length) c (by simpa using h1)
    (by simpa using h2) (by decide) (by omega) (by omega)
  refine ⟨put c a.length (u.take (len - a.length) ++ [0]), u, ?_, ?_, hu, ?_⟩
  · rw [fixedAppendInt64, fixedLength, getTextLength_holds ha, Out.ok_bind, integer64ToString, e,
      show ((len : Int) - a.length).toNat = len - a.length by omega]; rfl
  · rw [length_put (by simp; omega), hc]
  · rw [List.take_append, List.take_of_length_le (l := a) (by omega)]
    exact holds_put ha (not_mem_take (intText_no_nul hu) _)

theorem fixedSet4_holds {c1 c2 c3 c4 : Byte} (hl : 4 ≤ len) :
    ∃ c', fixedSet4 c1 c2 c3 c4 c = .ok c' ∧ c'.length = len + 1 ∧ c'.take 5 = [c1, c2, c3, c4, 0] := by
  match c, hc with
  | x1 :: x2 :: x3 :: x4 :: x5 :: r, hc => exact ⟨c1 :: c2 :: c3 :: c4 :: 0 :: r, by simp [fixedSet4, wr], by simpa using hc, rfl⟩
  | [], hc => simp at hc
  | [_], hc => simp at hc; omega
  | [_, _], hc => simp at hc; omega
  | [_, _, _], hc => simp at hc; omega
  | [_, _, _, _], hc => simp at hc; omega

end

theorem take_take_append (n : Nat) (a b : Bytes) : (a.take n ++ b).take n = (a ++ b).take n := by
  rw [List.take_append, List.take_append, List.take_take, Nat.min_self]
  by_cases h : a.length ≤ n
  · rw [List.length_take, Nat.min_eq_right h]
  · rw [List.length_take, Nat.min_eq_left (by omega), show n - a.length = 0 by omega, Nat.sub_self]

theorem fixedPlus_holds {len : Nat} {g a t u s : Bytes} (hg : g.length = len + 1) (ha : Holds a u) (ht : Holds t s) :
    ∃ c', fixedPlus len a (.ext t) g = .ok c' ∧ c'.length = len + 1 ∧ Holds c' ((u ++ s).take len) := by
  obtain ⟨c1, e1, l1, h1⟩ := fixedSet_holds hg ha
  obtain ⟨c2, e2, l2, h2⟩ := fixedAppend_holds l1 h1 ht
  refine ⟨c2, ?_, l2, by rwa [take_take_append] at h2⟩
  rw [fixedPlus, e1, Out.ok_bind, e2]

end Verif.Str
