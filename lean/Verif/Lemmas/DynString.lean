import Verif.Model.DynString
import Verif.Lemmas.Strings

namespace Verif.Dyn

open Verif Verif.Texts Verif.Str

/-- The object is in order and its text is `a`: the reported length is the length of the text, the text is in
the current block, and `physicalSize` is the size of this block. -/
structure WF (s : Dyn) (a : Bytes) : Prop where
  logical : s.logical = a.length + 1
  holds : Holds s.data a
  block : s.data.length = s.physical
  loc : s.loc.length = 16

theorem length_fresh (g : Nat → Byte) (n : Nat) : (fresh g n).length = n := by simp [fresh]

theorem physSize_ge (n : Nat) : n + 4 ≤ physSize n := by unfold physSize; omega

theorem data_store (s : Dyn) (b : Bytes) : (s.store b).data = b := by
  unfold Dyn.store Dyn.data; cases s.heap <;> rfl

theorem physical_store (s : Dyn) (b : Bytes) : (s.store b).physical = s.physical := by
  unfold Dyn.store; cases s.heap <;> rfl

theorem logical_store (s : Dyn) (b : Bytes) : (s.store b).logical = s.logical := by
  unfold Dyn.store; cases s.heap <;> rfl

theorem loc_store {s : Dyn} {b : Bytes} (h : s.loc.length = 16) (hb : b.length = s.data.length) :
    (s.store b).loc.length = 16 := by
  unfold Dyn.store
  cases e : s.heap with
  | none => simp only [Dyn.data, e, Option.getD_none] at hb; simpa [hb] using h
  | some _ => exact h

theorem wf_store {s : Dyn} {a b : Bytes} {l : Nat} (hl : l = a.length + 1) (hs : s.data.length = s.physical)
    (hloc : s.loc.length = 16) (hb : b.length = s.data.length) (hh : Holds b a) :
    WF { s.store b with logical := l } a := by
  have hd : Dyn.data { s.store b with logical := l } = b := data_store s b
  exact ⟨hl, by rw [hd]; exact hh, by rw [hd, hb, hs]; exact (physical_store s b).symm, loc_store hloc hb⟩

theorem wf_store' {s : Dyn} {a b : Bytes} (hl : s.logical = a.length + 1) (hs : s.data.length = s.physical)
    (hloc : s.loc.length = 16) (hb : b.length = s.data.length) (hh : Holds b a) : WF (s.store b) a := by
  have := wf_store hl hs hloc hb hh
  rwa [show ({ s.store b with logical := s.logical } : Dyn) = s.store b by
    rw [← logical_store s b]] at this

theorem copyInto_ext {t u b : Bytes} {d : Nat} (ht : Holds t u) (hb : d + u.length < b.length) :
    copyInto (.ext t) d b = .ok (put b d (u ++ [0])) := by
  obtain ⟨h0, r, rfl⟩ := ht
  rw [copyInto, copyText_ext _ r u (b.length + 1) 0 d b h0 rfl hb (by omega)]; rfl

theorem copyIntoMax_ext {t u b : Bytes} {m d : Nat} (ht : Holds t u) (hb : d + min m u.length < b.length) :
    copyIntoMax (.ext t) m d b = .ok (put b d (u.take m ++ [0])) := by
  obtain ⟨h0, r, rfl⟩ := ht
  rw [copyIntoMax, copyTextMax_ext _ r m u 0 d b h0 rfl hb]; rfl

theorem copyN_spec (t : Bytes) (n : Nat) : ∀ (a : Nat) (b : Bytes), a + n ≤ t.length → a + n ≤ b.length →
    copyN t n a b = .ok (put b a ((t.drop a).take n)) := by
  induction n with
  | zero => intro a b _ _; simp [copyN, put]
  | succ n ih =>
    intro a b ht hb
    have e : t.drop a = t[a] :: t.drop (a + 1) := List.drop_eq_getElem_cons (by omega)
    rw [copyN, rd_drop e, Out.ok_bind, wr_ok (by omega), Out.ok_bind,
      ih (a + 1) _ (by omega) (by rw [length_put (by simp; omega)]; omega), put_put (by omega), e, List.take_succ_cons]

theorem wf_empty : WF newEmpty [] := ⟨rfl, ⟨by simp, _, rfl⟩, rfl, rfl⟩

theorem alloc_props (g : Nat → Byte) (n : Nat) :
    (alloc g n).logical = n ∧ (alloc g n).data.length = (alloc g n).physical ∧ (alloc g n).loc.length = 16 ∧
      n ≤ (alloc g n).data.length := by
  unfold alloc
  split
  · refine ⟨rfl, ?_, rfl, ?_⟩
    · simp [Dyn.data, length_fresh]
    · simp only [Dyn.data, Option.getD_some, length_fresh]; have := physSize_ge n; omega
  · exact ⟨rfl, rfl, rfl, by simp [Dyn.data, loc0]; omega⟩

theorem newText_wf (g : Nat → Byte) {t a : Bytes} (ht : Holds t a) : ∃ s, newText g t = .ok s ∧ WF s a := by
  obtain ⟨e1, e2, e3, e4⟩ := alloc_props g (a.length + 1)
  have hl := holds_length ht
  refine ⟨(alloc g (a.length + 1)).store (put (alloc g (a.length + 1)).data 0 (t.take (a.length + 1))), ?_, ?_⟩
  · simp only [newText]
    rw [getTextLength_holds ht, Out.ok_bind, copyN_spec t _ 0 _ (by omega) (by omega), Out.ok_bind, List.drop_zero]
  · have ht' : t.take (a.length + 1) = a ++ [0] := by
      obtain ⟨-, r, rfl⟩ := ht
      rw [List.take_append, List.take_of_length_le (by omega)]; simp
    refine wf_store' e1 e2 e3 (by rw [length_put (by simp; omega)]) ?_
    rw [ht']; exact holds_put_zero ht.1

theorem boundedLength_spec (t r : Bytes) (n : Nat) : ∀ (a : Bytes) (i : Nat), 0 ∉ a → t.drop i = a ++ 0 :: r →
    boundedLength t n i = .ok (i + min n a.length) := by
  induction n with
  | zero => intro a i _ _; simp [boundedLength]
  | succ n ih =>
    intro a i h0 h
    cases a with
    | nil => rw [boundedLength, rd_drop h, Out.ok_bind, if_pos rfl]; simp
    | cons k a =>
      have hk : k ≠ 0 := fun e => h0 (by simp [e])
      rw [boundedLength, rd_drop h, Out.ok_bind, if_neg hk, ih a (i + 1) (fun h => h0 (by simp [h])) (drop_succ h)]
      simp; omega

theorem newTextN_wf (g : Nat → Byte) (n : Nat) {t a : Bytes} (ht : Holds t a) :
    ∃ s, newTextN g t n = .ok s ∧ WF s (a.take n) := by
  obtain ⟨e1, e2, e3, e4⟩ := alloc_props g (min n a.length + 1)
  have hl := holds_length ht
  have hb : boundedLength t n 0 = .ok (min n a.length) := by
    obtain ⟨h0, r, rfl⟩ := ht; simpa using boundedLength_spec _ r n a 0 h0 rfl
  have l1 : (put (alloc g (min n a.length + 1)).data (min n a.length) [0]).length =
      (alloc g (min n a.length + 1)).data.length := length_put (by simp; omega)
  refine ⟨(alloc g (min n a.length + 1)).store
    (put (put (alloc g (min n a.length + 1)).data (min n a.length) [0]) 0 (t.take (min n a.length))), ?_, ?_⟩
  · simp only [newTextN]
    rw [hb, Out.ok_bind, wr_ok (by omega), Out.ok_bind, copyN_spec t _ 0 _ (by omega) (by rw [l1]; omega), Out.ok_bind,
      List.drop_zero]
  · have ht' : t.take (min n a.length) = a.take n := by
      obtain ⟨-, r, rfl⟩ := ht
      rw [List.take_append_of_le_length (by omega), ← List.take_take, List.take_length]
    refine wf_store' (by simp [e1]) e2 e3 (by rw [length_put (by rw [l1]; simp; omega), l1]) ?_
    rw [ht']
    refine ⟨not_mem_take ht.1 _, (alloc g (min n a.length + 1)).data.drop (min n a.length + 1), ?_⟩
    have hlen : (a.take n).length = min n a.length := by simp
    simp only [put, List.take_zero, List.nil_append, hlen, Nat.zero_add, List.length_cons, List.length_nil]
    rw [List.append_assoc (List.take _ _), List.drop_left' (by simp; omega)]
    simp

theorem newCopy_wf (g : Nat → Byte) {t : Dyn} {a : Bytes} (h : WF t a) : ∃ s, newCopy g t = .ok s ∧ WF s a := by
  unfold newCopy
  have hl := h.logical
  by_cases hc : t.logical > 1
  · have hp := physSize_ge t.logical
    rw [if_pos hc, copyInto_ext h.holds (by rw [length_fresh]; omega), Out.ok_bind]
    refine ⟨_, rfl, ⟨hl, holds_put_zero h.holds.1, ?_, rfl⟩⟩
    simp only [Dyn.data, Option.getD_some]
    rw [length_put (by rw [length_fresh]; simp; omega), length_fresh]
  · rw [if_neg hc]
    have : a = [] := List.length_eq_zero_iff.mp (by omega)
    subst this
    exact ⟨_, rfl, ⟨hl, ⟨by simp, _, rfl⟩, rfl, rfl⟩⟩

theorem purge_wf {s : Dyn} (h : s.loc.length = 16) : ∃ s', purge s = .ok s' ∧ WF s' [] := by
  rw [purge, wr_ok (by omega)]
  refine ⟨_, rfl, ⟨rfl, holds_put_zero (by simp), ?_, ?_⟩⟩
  · simp only [Dyn.data, Option.getD_none]; rw [length_put (by simp; omega), h]
  · simp only; rw [length_put (by simp; omega), h]

theorem movedFrom_wf {t : Dyn} {a : Bytes} (h : WF t a) :
    ∃ t', movedFrom t = .ok t' ∧ ∃ a', WF t' a' := by
  unfold movedFrom
  cases e : t.heap with
  | none => exact ⟨t, rfl, a, h⟩
  | some b =>
    obtain ⟨t', h1, h2⟩ := purge_wf h.loc
    exact ⟨t', h1, [], h2⟩

theorem takeOver_wf {t : Dyn} {a l : Bytes} (h : WF t a) (hl : l.length = 16) : WF (takeOver t l) a := by
  obtain ⟨h1, h2, h3, h4⟩ := h
  unfold takeOver
  cases e : t.heap with
  | none => simp only [Dyn.data, e] at h2 h3; exact ⟨h1, h2, h3, h4⟩
  | some b => simp only [Dyn.data, e] at h2 h3; exact ⟨h1, h2, h3, hl⟩

theorem newMove_wf {t : Dyn} {a : Bytes} (h : WF t a) :
    ∃ s t', newMove t = .ok (s, t') ∧ WF s a ∧ ∃ a', WF t' a' := by
  obtain ⟨t', e, a', h'⟩ := movedFrom_wf h
  exact ⟨_, t', by rw [newMove, e]; rfl, takeOver_wf h rfl, a', h'⟩

theorem moveAssign_wf {s t : Dyn} {a b : Bytes} (hs : WF s b) (h : WF t a) :
    ∃ s' t', moveAssign s t = .ok (s', t') ∧ WF s' a ∧ ∃ a', WF t' a' := by
  obtain ⟨t', e, a', h'⟩ := movedFrom_wf h
  exact ⟨_, t', by rw [moveAssign, e]; rfl, takeOver_wf h hs.loc, a', h'⟩

theorem resize_props (g : Nat → Byte) (n : Nat) {s : Dyn} (hb : s.data.length = s.physical) (hl : s.loc.length = 16) :
    (resize g n s).1.logical = n ∧ (resize g n s).1.data.length = (resize g n s).1.physical ∧
      (resize g n s).1.loc.length = 16 ∧ n ≤ (resize g n s).1.data.length := by
  unfold resize
  split
  · split
    · have := physSize_ge n
      refine ⟨rfl, ?_, hl, ?_⟩
      · simp [Dyn.data, length_fresh]
      · simp only [Dyn.data, Option.getD_some, length_fresh]; omega
    · refine ⟨rfl, hb, hl, ?_⟩
      have e : Dyn.data { s with logical := n } = s.data := rfl
      simp only [e]; omega
  · refine ⟨rfl, hl, hl, ?_⟩
    simp only [Dyn.data, Option.getD_none]; omega

theorem setText_wf (g : Nat → Byte) {s : Dyn} {a t u : Bytes} (hs : WF s a) (ht : Holds t u) :
    ∃ s', setText g (.ext t) s = .ok s' ∧ WF s' u := by
  simp only [setText, srcText]
  rw [getTextLength_holds ht, Out.ok_bind]
  by_cases hu : u.length > 0
  · obtain ⟨e1, e2, e3, e4⟩ := resize_props g (u.length + 1) hs.block hs.loc
    rw [if_pos hu]
    simp only [srcAfter, Out.ok_bind]
    rw [copyInto_ext ht (by omega), Out.ok_bind]
    exact ⟨_, rfl, wf_store' e1 e2 e3 (length_put (by simp; omega)) (holds_put_zero ht.1)⟩
  · rw [if_neg hu]
    obtain rfl : u = [] := List.length_eq_zero_iff.mp (by omega)
    exact purge_wf hs.loc

theorem setN_wf (g : Nat → Byte) (n : Nat) {s : Dyn} {a t u : Bytes} (hs : WF s a) (ht : Holds t u) :
    ∃ s', setN g (.ext t) n s = .ok s' ∧ WF s' (u.take n) := by
  have hb : boundedLength t n 0 = .ok (min n u.length) := by
    obtain ⟨h0, r, rfl⟩ := ht; simpa using boundedLength_spec _ r n u 0 h0 rfl
  simp only [setN, srcText]
  rw [hb, Out.ok_bind]
  by_cases hu : min n u.length > 0
  · obtain ⟨e1, e2, e3, e4⟩ := resize_props g (min n u.length + 1) hs.block hs.loc
    rw [if_pos hu]
    simp only [srcAfter, Out.ok_bind]
    rw [copyIntoMax_ext ht (by omega), Out.ok_bind]
    have ht' : u.take (min n u.length) = u.take n := by rw [← List.take_take, List.take_length]
    rw [ht']
    exact ⟨_, rfl, wf_store' (by simp [e1]) e2 e3 (length_put (by simp; omega)) (holds_put_zero (not_mem_take ht.1 _))⟩
  · rw [if_neg hu]
    have : u.take n = [] := List.length_eq_zero_iff.mp (by rw [List.length_take]; omega)
    rw [this]
    exact purge_wf hs.loc

theorem assign_wf (g : Nat → Byte) {s t : Dyn} {a u : Bytes} (hs : WF s a) (ht : WF t u) :
    ∃ s', assign g s t = .ok s' ∧ WF s' u := by
  have hl := ht.logical
  simp only [assign]
  by_cases hu : t.logical > 1
  · obtain ⟨e1, e2, e3, e4⟩ := resize_props g t.logical hs.block hs.loc
    rw [if_pos hu, copyInto_ext ht.holds (by omega), Out.ok_bind]
    exact ⟨_, rfl, wf_store' (by rw [e1, hl]) e2 e3 (length_put (by simp; omega)) (holds_put_zero ht.holds.1)⟩
  · rw [if_neg hu]
    obtain rfl : u = [] := List.length_eq_zero_iff.mp (by omega)
    exact purge_wf hs.loc

theorem numeral_le_of_lt (n : Nat) : ∀ (t : Bytes) (k : Nat), NatText n t → n < 10 ^ k → 0 < k → t.length ≤ k := by
  induction n using Nat.strongRecOn with
  | ind n ih =>
    intro t k ht hk hk0
    rcases List.eq_nil_or_concat t with rfl | ⟨a, x, rfl⟩
    · simp
    · rw [List.concat_eq_append] at ht ⊢
      by_cases ha : a = []
      · subst ha; simp; omega
      · have h10 := natText_pos ha ht
        obtain ⟨h1, -⟩ := natText_snoc ha ht
        obtain ⟨k, rfl⟩ : ∃ j, k = j + 1 := ⟨k - 1, by omega⟩
        by_cases hj : k = 0
        · subst hj; simp at hk; omega
        · have := ih (n / 10) (by omega) a k h1 (by rw [Nat.pow_succ] at hk; omega) (by omega)
          simp; omega

theorem intText_length {n : Int} {t : Bytes} (h1 : -(2 ^ 31) < n) (h2 : n < 2 ^ 31) (h : IntText n t) : t.length ≤ 11 := by
  rcases h with ⟨-, h⟩ | ⟨-, u, rfl, h⟩
  · have := numeral_le_of_lt _ t 10 h (by omega) (by omega); omega
  · have := numeral_le_of_lt _ u 10 h (by omega) (by omega); simp; omega

theorem integerToString_room (wrapv : Bool) {n : Int} (h1 : -(2 ^ 31) < n) (h2 : n < 2 ^ 31) {d m : Nat} {b : Bytes}
    (hm : 11 ≤ m) (hb : d + m < b.length) :
    ∃ t, IntText n t ∧ t.length ≤ 11 ∧ integerToString wrapv n d m b = .ok (put b d (t ++ [0]), t.length) := by
  obtain ⟨t, ht, e⟩ := printInt_spec wrapv 32 16 n d m b (by simpa using h1) (by simpa using h2) (by decide) (by omega)
    (by simpa using hb)
  have hl := intText_length h1 h2 ht
  refine ⟨t, ht, hl, ?_⟩
  rw [integerToString, e, Int.toNat_natCast, List.take_of_length_le (by omega), Nat.min_eq_right (by omega)]

theorem newInt_wf (wrapv : Bool) {n : Int} {t : Bytes} (h1 : -(2 ^ 31) < n) (h2 : n < 2 ^ 31) (ht : IntText n t) :
    ∃ s, newInt wrapv n = .ok s ∧ WF s t := by
  obtain ⟨u, hu, hl, e⟩ := integerToString_room wrapv h1 h2 (d := 0) (m := 15) (b := loc0) (by omega) (by decide)
  obtain rfl := intText_unique ht hu
  rw [newInt, show ((15 : Int)) = ((15 : Nat) : Int) from rfl, e, Out.ok_bind]
  have hp : (put loc0 0 (t ++ [0])).length = 16 := by rw [length_put (by simp [loc0]; omega)]; rfl
  exact ⟨_, rfl, ⟨rfl, holds_put_zero (intText_no_nul ht), hp, hp⟩⟩

theorem setInt_wf (wrapv : Bool) (g : Nat → Byte) {n : Int} {s : Dyn} {a t : Bytes} (hs : WF s a) (h1 : -(2 ^ 31) < n)
    (h2 : n < 2 ^ 31) (ht : IntText n t) : ∃ s', setInt wrapv g n s = .ok s' ∧ WF s' t := by
  obtain ⟨e1, e2, e3, e4⟩ := resize_props g 64 hs.block hs.loc
  obtain ⟨u, hu, hl, e⟩ := integerToString_room wrapv h1 h2 (d := 0) (m := 63) (b := (resize g 64 s).1.data) (by omega)
    (by omega)
  obtain rfl := intText_unique ht hu
  simp only [setInt]
  rw [show ((63 : Int)) = ((63 : Nat) : Int) from rfl, e, Out.ok_bind]
  exact ⟨_, rfl, wf_store rfl e2 e3 (length_put (by simp; omega)) (holds_put_zero (intText_no_nul ht))⟩

/-- After the growth step the text is the same and there is room for `size` bytes. -/
theorem grow_props (g : Nat → Byte) (size : Nat) {s : Dyn} {a : Bytes} (hs : WF s a) :
    ∃ s' m, grow g size s = .ok (s', m) ∧ WF s' a ∧ size ≤ s'.data.length := by
  unfold grow
  have hl := holds_length hs.holds
  have hb := hs.block
  by_cases h : size > s.physical
  · have hp := physSize_ge size
    simp only [if_pos h]
    rw [copyInto_ext hs.holds (by rw [length_fresh]; omega), Out.ok_bind]
    refine ⟨_, _, rfl, ⟨hs.logical, holds_put_zero hs.holds.1, ?_, hs.loc⟩, ?_⟩
    · simp only [Dyn.data, Option.getD_some]
      rw [length_put (by rw [length_fresh]; simp; omega), length_fresh]
    · simp only [Dyn.data, Option.getD_some]
      rw [length_put (by rw [length_fresh]; simp; omega), length_fresh]; omega
  · rw [if_neg h]
    exact ⟨s, false, rfl, hs, by omega⟩

theorem append_wf (g : Nat → Byte) {s t : Dyn} {a u : Bytes} (hs : WF s a) (ht : WF t u) :
    ∃ s', append g s t = .ok s' ∧ WF s' (a ++ u) := by
  have hl := ht.logical
  have hl' := hs.logical
  simp only [append]
  by_cases hu : t.logical > 1
  · obtain ⟨s', m, e, hw, hsz⟩ := grow_props g (s.logical + (t.logical - 1)) hs
    have hl2 := hw.logical
    rw [if_pos hu, e, Out.ok_bind]
    simp only [hl2, Nat.add_sub_cancel]
    rw [copyInto_ext ht.holds (by omega), Out.ok_bind]
    exact ⟨_, rfl, wf_store (by simp; omega) hw.block hw.loc (length_put (by simp; omega)) (holds_put hw.holds ht.holds.1)⟩
  · rw [if_neg hu]
    obtain rfl : u = [] := List.length_eq_zero_iff.mp (by omega)
    exact ⟨s, rfl, by simpa using hs⟩

theorem appendText_wf (g : Nat → Byte) {s : Dyn} {a t u : Bytes} (hs : WF s a) (ht : Holds t u) :
    ∃ s', appendText g (.ext t) s = .ok s' ∧ WF s' (a ++ u) := by
  have hl' := hs.logical
  simp only [appendText, srcText]
  rw [getTextLength_holds ht, Out.ok_bind]
  by_cases hu : u.length > 0
  · obtain ⟨s', m, e, hw, hsz⟩ := grow_props g (s.logical + u.length) hs
    have hl2 := hw.logical
    rw [if_pos hu, e, Out.ok_bind]
    simp only [srcAfter, Out.ok_bind, hl2, Nat.add_sub_cancel]
    rw [copyInto_ext ht (by omega), Out.ok_bind]
    exact ⟨_, rfl, wf_store (by simp; omega) hw.block hw.loc (length_put (by simp; omega)) (holds_put hw.holds ht.1)⟩
  · rw [if_neg hu]
    obtain rfl : u = [] := List.length_eq_zero_iff.mp (by omega)
    exact ⟨s, rfl, by simpa using hs⟩

theorem appendN_wf (g : Nat → Byte) (n : Nat) {s : Dyn} {a t u : Bytes} (hs : WF s a) (ht : Holds t u) (hn : n ≤ u.length) :
    ∃ s', appendN g (.ext t) n s = .ok s' ∧ WF s' (a ++ u.take n) := by
  have hl' := hs.logical
  simp only [appendN]
  by_cases hu : n > 0
  · obtain ⟨s', m, e, hw, hsz⟩ := grow_props g (s.logical + n) hs
    have hl2 := hw.logical
    rw [if_pos hu, e, Out.ok_bind]
    simp only [srcAfter, Out.ok_bind, hl2, Nat.add_sub_cancel]
    rw [copyIntoMax_ext ht (by omega), Out.ok_bind]
    exact ⟨_, rfl, wf_store (by simp; omega) hw.block hw.loc (length_put (by simp; omega))
      (holds_put hw.holds (not_mem_take ht.1 _))⟩
  · rw [if_neg hu]
    obtain rfl : n = 0 := by omega
    exact ⟨s, rfl, by simpa using hs⟩

theorem appendChar_wf (g : Nat → Byte) {k : Byte} {s : Dyn} {a : Bytes} (hs : WF s a) (hk : k ≠ 0) :
    ∃ s', appendChar g k s = .ok s' ∧ WF s' (a ++ [k]) := by
  have hl' := hs.logical
  obtain ⟨s', m, e, hw, hsz⟩ := grow_props g (s.logical + 1) hs
  have hl2 := hw.logical
  simp only [appendChar]
  rw [e, Out.ok_bind]
  simp only [hl2, Nat.add_sub_cancel]
  rw [wr_ok (by omega), Out.ok_bind, wr_ok (by rw [length_put (by simp; omega)]; omega), Out.ok_bind, put_put (by omega)]
  exact ⟨_, rfl, wf_store (by simp; omega) hw.block hw.loc (length_put (by simp; omega))
    (holds_put (u := [k]) hw.holds (by simpa using hk.symm))⟩

theorem appendInt_wf (wrapv : Bool) (g : Nat → Byte) {n : Int} {s : Dyn} {a t : Bytes} (hs : WF s a) (h1 : -(2 ^ 31) < n)
    (h2 : n < 2 ^ 31) (ht : IntText n t) : ∃ s', appendInt wrapv g n s = .ok s' ∧ WF s' (a ++ t) := by
  have hl' := hs.logical
  obtain ⟨s', m, e, hw, hsz⟩ := grow_props g (s.logical + 64) hs
  have hl2 := hw.logical
  obtain ⟨u, hu, hl, ei⟩ := integerToString_room wrapv h1 h2 (d := a.length) (m := 63) (b := s'.data) (by omega) (by omega)
  obtain rfl := intText_unique ht hu
  rw [appendInt, e, Out.ok_bind]
  simp only [hl2, Nat.add_sub_cancel]
  rw [show ((63 : Int)) = ((63 : Nat) : Int) from rfl, ei, Out.ok_bind]
  exact ⟨_, rfl, wf_store (by simp; omega) hw.block hw.loc (length_put (by simp; omega))
    (holds_put hw.holds (intText_no_nul ht))⟩

theorem newPlus_wf (g : Nat → Byte) {t1 t2 u1 u2 : Bytes} (h1 : Holds t1 u1) (h2 : Holds t2 u2) :
    ∃ s, newPlus g t1 t2 = .ok s ∧ WF s (u1 ++ u2) := by
  simp only [newPlus]
  rw [getTextLength_holds h1, Out.ok_bind, getTextLength_holds h2, Out.ok_bind]
  by_cases hc : u1.length + u2.length + 1 > 1
  · obtain ⟨e1, e2, e3, e4⟩ := alloc_props g (u1.length + u2.length + 1)
    have l1 : (put (alloc g (u1.length + u2.length + 1)).data 0 (u1 ++ [0])).length =
        (alloc g (u1.length + u2.length + 1)).data.length := length_put (by simp; omega)
    rw [if_pos hc, copyInto_ext h1 (by omega), Out.ok_bind, copyInto_ext h2 (by omega), Out.ok_bind]
    exact ⟨_, rfl, wf_store' (by simp [e1]) e2 e3 (by rw [length_put (by simp; omega), l1])
      (holds_put (holds_put_zero h1.1) h2.1)⟩
  · rw [if_neg hc]
    obtain rfl : u1 = [] := List.length_eq_zero_iff.mp (by omega)
    obtain rfl : u2 = [] := List.length_eq_zero_iff.mp (by omega)
    exact ⟨_, rfl, ⟨rfl, ⟨by simp, _, rfl⟩, rfl, rfl⟩⟩

theorem newPlusInt_wf (wrapv : Bool) (g : Nat → Byte) {t1 u1 t : Bytes} {n : Int} (h : Holds t1 u1) (h1 : -(2 ^ 31) < n)
    (h2 : n < 2 ^ 31) (ht : IntText n t) : ∃ s, newPlusInt wrapv g t1 n = .ok s ∧ WF s (u1 ++ t) := by
  simp only [newPlusInt]
  have hp := physSize_ge (u1.length + 64)
  have l1 : (put (fresh g (physSize (u1.length + 64))) 0 (u1 ++ [0])).length = physSize (u1.length + 64) := by
    rw [length_put (by rw [length_fresh]; simp; omega), length_fresh]
  obtain ⟨u, hu, hl, ei⟩ := integerToString_room wrapv h1 h2 (d := u1.length) (m := 63)
    (b := put (fresh g (physSize (u1.length + 64))) 0 (u1 ++ [0])) (by omega) (by omega)
  obtain rfl := intText_unique ht hu
  rw [getTextLength_holds h, Out.ok_bind, copyInto_ext h (by rw [length_fresh]; omega), Out.ok_bind,
    show ((63 : Int)) = ((63 : Nat) : Int) from rfl, ei, Out.ok_bind]
  refine ⟨_, rfl, ⟨by simp, holds_put (holds_put_zero h.1) (intText_no_nul ht), ?_, rfl⟩⟩
  simp only [Dyn.data, Option.getD_some]
  rw [length_put (by rw [l1]; simp; omega), l1]

/-! ## `SetStringLength` -/

theorem holds_cut {b a : Bytes} {n : Nat} (h : Holds b a) (hn : n ≤ a.length) : Holds (put b n [0]) (a.take n) := by
  obtain ⟨h0, r, rfl⟩ := h
  refine ⟨not_mem_take h0 _, ?_⟩
  simp only [put]
  rw [List.take_append_of_le_length hn]
  exact ⟨_, by simp; rfl⟩

/-- Cutting a text: the cases in which the object stays in order. -/
theorem setLength_cut_wf (g : Nat → Byte) {n : Nat} {s : Dyn} {a : Bytes} (hs : WF s a) (hn : n ≤ a.length)
    (hc : n = 0 ∨ 16 ≤ n ∨ s.heap = none) : ∃ s', setLength g n s = .ok s' ∧ WF s' (a.take n) := by
  have hl := hs.logical
  have hb := hs.block
  have hlen := holds_length hs.holds
  unfold setLength
  by_cases hz : n = 0
  · subst hz
    rw [if_neg (by omega)]
    exact purge_wf hs.loc
  have h0 : n > 0 := by omega
  rw [if_pos h0]
  by_cases he' : n + 1 = s.logical
  · have he : ¬ (n + 1 ≠ s.logical) := fun h => h he'
    simp only [if_neg he]
    rw [List.take_of_length_le (by omega)]
    exact ⟨s, rfl, hs⟩
  have he : n + 1 ≠ s.logical := he'
  simp only [if_pos he]
  have hmin : min n (s.logical - 1) = n := by omega
  by_cases h16 : n + 1 > 16
  · rw [if_pos h16]
    by_cases hr : n + 1 > s.physical ∨ n + 1 < s.physical / 2
    · have hp := physSize_ge (n + 1)
      have l1 : (put (fresh g (physSize (n + 1))) 0 (a.take n ++ [0])).length = physSize (n + 1) := by
        rw [length_put (by rw [length_fresh]; simp; omega), length_fresh]
      rw [if_pos hr, hmin, copyIntoMax_ext hs.holds (by rw [length_fresh]; omega), Out.ok_bind, Out.ok_bind]
      simp only [Dyn.data, Option.getD_some]
      rw [wr_ok (by omega), Out.ok_bind]
      refine ⟨_, rfl, ?_⟩
      refine wf_store' (by simp; omega) (by simpa [Dyn.data] using l1) hs.loc ?_ ?_
      · simp only [Dyn.data, Option.getD_some]; rw [length_put (by rw [l1]; simp; omega)]
      · have := holds_cut (holds_put_zero (c := fresh g (physSize (n + 1))) (not_mem_take hs.holds.1 n)) (n := n) (by simp; omega)
        rwa [List.take_take, Nat.min_self] at this
    · rw [if_neg hr, Out.ok_bind]
      have hd : Dyn.data { s with logical := n + 1 } = s.data := rfl
      rw [hd, wr_ok (by omega), Out.ok_bind]
      refine ⟨_, rfl, wf_store' (by simp; omega) hb hs.loc (length_put (by simp; omega)) (holds_cut hs.holds hn)⟩
  · rw [if_neg h16]
    have hh : s.heap = none := by rcases hc with h | h | h <;> first | omega | exact h
    simp only [hh]
    rw [Out.ok_bind]
    have hd : Dyn.data { s with logical := n + 1 } = s.data := rfl
    rw [show ({ logical := n + 1, physical := s.physical, heap := none, loc := s.loc } : Dyn) = { s with logical := n + 1 }
      by rw [← hh], hd, wr_ok (by omega), Out.ok_bind]
    refine ⟨_, rfl, wf_store' (by simp; omega) hb hs.loc (length_put (by simp; omega)) (holds_cut hs.holds hn)⟩

/-! ## Changes in place -/

theorem mapText_spec (f : Byte → Byte) (r : Bytes) : ∀ a : Bytes, 0 ∉ a →
    mapText f (a ++ 0 :: r) = .ok (a.map f ++ 0 :: r) := by
  intro a
  induction a with
  | nil => intro _; simp [mapText]
  | cons k a ih =>
    intro h
    have hk : k ≠ 0 := fun e => h (by simp [e])
    simp only [List.cons_append, mapText, if_neg hk]
    rw [ih (fun h' => h (by simp [h']))]; rfl

theorem mapStore_wf {s : Dyn} {a : Bytes} (f : Byte → Byte) (hs : WF s a) (hf : ∀ c, c ≠ 0 → f c ≠ 0) :
    ∃ s', (mapText f s.data >>= fun b => Out.ok (s.store b)) = .ok s' ∧ WF s' (a.map f) := by
  obtain ⟨h0, r, e⟩ := hs.holds
  rw [e, mapText_spec f r a h0, Out.ok_bind]
  have h0' : 0 ∉ a.map f := by
    intro h
    obtain ⟨c, hc, e⟩ := List.mem_map.mp h
    exact hf c (fun e => h0 (e ▸ hc)) e
  refine ⟨_, rfl, wf_store' (by simpa using hs.logical) hs.block hs.loc (by rw [e]; simp) ⟨h0', r, rfl⟩⟩

/-! ## Escapes -/

theorem measure_spec (r : Bytes) : ∀ (a : Bytes) (n m : Nat), 0 ∉ a →
    measure (a ++ 0 :: r) n m = .ok (n + (a.map encodedSize).sum, a.foldl (fun m c => max m (encodedSize c)) m) := by
  intro a
  induction a with
  | nil => intro n m _; simp [measure]
  | cons k a ih =>
    intro n m h
    have hk : k ≠ 0 := fun e => h (by simp [e])
    simp only [List.cons_append, measure, if_neg hk]
    rw [ih _ _ (fun h' => h (by simp [h']))]; simp [Nat.add_assoc]

theorem encodedSize_cases (c : Byte) : encodedSize c = 1 ∨ encodedSize c = 2 ∨ encodedSize c = 4 := by
  have : ∀ n : Fin 256, encodedSize (UInt8.ofNat n) = 1 ∨ encodedSize (UInt8.ofNat n) = 2 ∨
      encodedSize (UInt8.ofNat n) = 4 := by decide +kernel
  simpa using this ⟨c.toNat, c.toNat_lt⟩

theorem length_encodedBytes (c : Byte) : (encodedBytes c).length = encodedSize c := by
  have h := encodedSize_cases c
  unfold encodedBytes
  rcases h with h | h | h
  · rw [h]; rfl
  · rw [h]; simp; split <;> rfl
  · rw [h]; rfl

theorem wrAll_spec : ∀ (l : Bytes) (d : Nat) (b : Bytes), d + l.length ≤ b.length → wrAll l d b = .ok (put b d l) := by
  intro l
  induction l with
  | nil => intro d b _; simp [wrAll, put]
  | cons k l ih =>
    intro d b h
    simp only [List.length_cons] at h
    rw [wrAll, wr_ok (by omega), Out.ok_bind, ih (d + 1) _ (by rw [length_put (by simp; omega)]; omega), put_put (by omega)]

theorem put_append {b l m : Bytes} {d : Nat} (h : d + l.length ≤ b.length) :
    put (put b d l) (d + l.length) m = put b d (l ++ m) := by
  have e1 : (b.take d ++ l).length = d + l.length := by simp; omega
  have t1 : (put b d l).take (d + l.length) = b.take d ++ l := by rw [put, List.take_left' e1]
  have t2 : (put b d l).drop (d + l.length + m.length) = b.drop (d + l.length + m.length) := by
    rw [put, ← List.drop_drop, List.drop_left' e1, List.drop_drop]
  rw [put, t1, t2]
  simp [put, Nat.add_assoc]

theorem encodeLoop_spec (r : Bytes) : ∀ (a : Bytes) (d : Nat) (b : Bytes), 0 ∉ a →
    d + (a.map encodedSize).sum < b.length →
    encodeLoop (a ++ 0 :: r) d b = .ok (put b d (a.flatMap encodedBytes ++ [0])) := by
  intro a
  induction a with
  | nil => intro d b _ hb; simp only [List.map_nil, List.sum_nil] at hb; simp [encodeLoop, wr_ok (show d < b.length by omega)]
  | cons k a ih =>
    intro d b h hb
    have hk : k ≠ 0 := fun e => h (by simp [e])
    simp only [List.map_cons, List.sum_cons] at hb
    have hlk := length_encodedBytes k
    simp only [List.cons_append, encodeLoop, if_neg hk]
    rw [wrAll_spec _ _ _ (by omega), Out.ok_bind,
      ih _ _ (fun h' => h (by simp [h'])) (by rw [length_put (by omega)]; omega), put_append (by omega)]
    simp

theorem length_flatMap_encoded (a : Bytes) : (a.flatMap encodedBytes).length = (a.map encodedSize).sum := by
  induction a with
  | nil => rfl
  | cons k a ih => simp [ih, length_encodedBytes]

theorem hexDigit_ne (n : Nat) (h : n < 16) : hexDigit n ≠ 0 := by
  have : ∀ n : Fin 16, hexDigit n ≠ 0 := by decide +kernel
  exact this ⟨n, h⟩

theorem encodedBytes_ne : ∀ c : Byte, c ≠ 0 → 0 ∉ encodedBytes c := by
  have : ∀ n : Fin 256, UInt8.ofNat n ≠ 0 → 0 ∉ encodedBytes (UInt8.ofNat n) := by decide +kernel
  intro c
  have h := this ⟨c.toNat, c.toNat_lt⟩
  simpa using h

theorem flatMap_encoded_ne {a : Bytes} (h : 0 ∉ a) : 0 ∉ a.flatMap encodedBytes := by
  intro h'
  obtain ⟨c, hc, h'⟩ := List.mem_flatMap.mp h'
  exact encodedBytes_ne c (fun e => h (e ▸ hc)) h'

theorem foldl_max_le (a : Bytes) : ∀ m, a.foldl (fun m c => max m (encodedSize c)) m ≤ 1 ↔ m ≤ 1 ∧ ∀ c ∈ a, encodedSize c ≤ 1 := by
  induction a with
  | nil => intro m; simp
  | cons k a ih => intro m; simp only [List.foldl_cons, ih, List.mem_cons, forall_eq_or_imp, Nat.max_le, and_assoc]

/-- What `EncodeEscapeSequences` leaves behind. -/
theorem encodeEscapes_spec (g : Nat → Byte) {s : Dyn} {a : Bytes} (hs : WF s a) :
    ∃ s', encodeEscapes g s = .ok s' ∧ Holds s'.data (a.flatMap encodedBytes) ∧ s'.data.length = s'.physical ∧
      s'.loc.length = 16 ∧
      (s'.logical = if (∀ c ∈ a, encodedSize c ≤ 1) then a.length + 1 else (a.flatMap encodedBytes).length) := by
  obtain ⟨h0, r, e⟩ := hs.holds
  unfold encodeEscapes
  rw [e, measure_spec r a 0 1 h0, Out.ok_bind]
  simp only [Nat.zero_add]
  have hiff := foldl_max_le a 1
  by_cases hc : a.foldl (fun m c => max m (encodedSize c)) 1 > 1
  · have hall : ¬ ∀ c ∈ a, encodedSize c ≤ 1 := fun h => by have := hiff.mpr ⟨by omega, h⟩; omega
    have hp := physSize_ge (a.map encodedSize).sum
    have hfl := length_flatMap_encoded a
    rw [if_pos hc, encodeLoop_spec r a 0 _ h0 (by rw [length_fresh]; omega), Out.ok_bind]
    refine ⟨_, rfl, holds_put_zero (flatMap_encoded_ne h0), ?_, hs.loc, ?_⟩
    · simp only [Dyn.data, Option.getD_some]; rw [length_put (by rw [length_fresh, List.length_append, hfl, List.length_singleton]; omega), length_fresh]
    · rw [if_neg hall, hfl]
  · have hall : ∀ c ∈ a, encodedSize c ≤ 1 := (hiff.mp (by omega)).2
    rw [if_neg hc]
    have hid : a.flatMap encodedBytes = a := by
      clear hc hiff e hs h0
      induction a with
      | nil => rfl
      | cons k a ih =>
        have h1 : encodedSize k = 1 := by
          have := hall k (by simp)
          rcases encodedSize_cases k with h | h | h <;> omega
        rw [List.flatMap_cons, ih (fun c hc => hall c (by simp [hc])), encodedBytes, if_pos h1]; rfl
    refine ⟨s, rfl, by rw [hid]; exact hs.holds, hs.block, hs.loc, by rw [if_pos hall]; exact hs.logical⟩

end Verif.Dyn
