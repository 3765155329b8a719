import Verif.Model.Array

/-!
# Lemmas about the `Array` model
-/

namespace Verif.Arr

open Verif

variable {α : Type}

theorem get_mid {l r : Block α} {s : Option α} {i : Nat} (h : l.length = i) : (l ++ s :: r)[i]? = some s := by
  subst h; simp

theorem set_mid {l r : Block α} {s v : Option α} {i : Nat} (h : l.length = i) : (l ++ s :: r).set i v = l ++ v :: r := by
  subst h; simp

theorem construct_mid {l r : Block α} {i : Nat} (h : l.length = i) (x : α) :
    construct (l ++ none :: r) i x = .ok (l ++ some x :: r) := by
  unfold construct; rw [get_mid h, set_mid h]

theorem destroy_mid {l r : Block α} {i : Nat} (h : l.length = i) (x : α) :
    destroy (l ++ some x :: r) i = .ok (l ++ none :: r) := by
  unfold destroy; rw [get_mid h, set_mid h]

theorem load_mid {l r : Block α} {i : Nat} (h : l.length = i) (x : α) : load (l ++ some x :: r) i = .ok x := by
  unfold load; rw [get_mid h]

@[simp] theorem raw_succ (n : Nat) : (raw (n + 1) : Block α) = none :: raw n := rfl
@[simp] theorem raw_zero : (raw 0 : Block α) = [] := rfl
@[simp] theorem raw_length (n : Nat) : (raw n : Block α).length = n := by simp [raw]

theorem raw_add (m n : Nat) : (raw (m + n) : Block α) = raw m ++ raw n := by
  simp [raw, List.replicate_append_replicate]

theorem raw_snoc (n : Nat) (r : Block α) : raw n ++ none :: r = raw (n + 1) ++ r := by
  rw [raw_add n 1]; simp

/-- The slots of a block with contents `xs` and `k` free slots. -/
def slots (xs : List α) (k : Nat) : Block α := xs.map some ++ raw k

@[simp] theorem slots_length (xs : List α) (k : Nat) : (slots xs k).length = xs.length + k := by simp [slots]

theorem slots_nil (k : Nat) : slots ([] : List α) k = raw k := rfl

theorem load_slots {xs : List α} {k i : Nat} {x : α} (h : xs[i]? = some x) : load (slots xs k) i = .ok x := by
  obtain ⟨hi, rfl⟩ := List.getElem?_eq_some_iff.1 h
  simp [load, slots, List.getElem?_append_left, hi]

theorem load_slots_ub {xs : List α} {k i : Nat} (h : xs.length ≤ i) : load (slots xs k) i = .ub := by
  unfold load slots raw
  rw [List.getElem?_append_right (by simpa using h)]
  rw [List.getElem?_replicate]
  split <;> rename_i e
  · split at e <;> simp at e
  · rfl

theorem constructUp_list (f : Nat → Out α) (ys : List α) :
    ∀ (xs : List α) (k : Nat), (∀ j y, ys[j]? = some y → f (xs.length + j) = .ok y) →
      constructUp f ys.length xs.length (slots xs (ys.length + k)) = .ok (slots (xs ++ ys) k) := by
  induction ys with
  | nil => intro xs k _; simp [constructUp]
  | cons y ys ih =>
    intro xs k hf
    have h0 := hf 0 y rfl
    simp only [Nat.add_zero] at h0
    have e : slots xs ((y :: ys).length + k) = xs.map some ++ none :: raw (ys.length + k) := by
      rw [List.length_cons, show ys.length + 1 + k = (ys.length + k) + 1 by omega]; rfl
    have e2 : xs.map some ++ some y :: raw (ys.length + k) = slots (xs ++ [y]) (ys.length + k) := by simp [slots]
    simp only [List.length_cons, constructUp, h0, Out.ok_bind]
    rw [← List.length_cons (a := y), e, construct_mid (by simp)]
    simp only [Out.ok_bind]
    rw [e2]
    have := ih (xs ++ [y]) k (by
      intro j z hj
      have := hf (j + 1) z (by simpa using hj)
      rw [show (xs ++ [y]).length + j = xs.length + (j + 1) by simp; omega]
      exact this)
    rw [show (xs ++ [y]).length = xs.length + 1 by simp] at this
    rw [this]
    simp

theorem constructUp_spec (f : Nat → Out α) (v : Nat → α) (n : Nat) (xs : List α) (k : Nat)
    (hf : ∀ j < n, f (xs.length + j) = .ok (v (xs.length + j))) :
    constructUp f n xs.length (slots xs (n + k)) =
      .ok (slots (xs ++ (List.range n).map (fun j => v (xs.length + j))) k) := by
  have := constructUp_list f ((List.range n).map (fun j => v (xs.length + j))) xs k (by
    intro j y hj
    simp only [List.getElem?_map, Option.map_eq_some_iff] at hj
    obtain ⟨i, hi, rfl⟩ := hj
    obtain ⟨hlt, rfl⟩ := List.getElem?_eq_some_iff.1 hi
    simp only [List.length_range] at hlt
    simpa using hf j hlt)
  simpa using this

theorem constructUp_ub (f : Nat → Out α) (n i : Nat) (b : Block α) (h : f i = .ub) :
    constructUp f (n + 1) i b = .ub := by
  simp [constructUp, h]

theorem destroyDown_spec (lo n : Nat) : ∀ (xs : List α) (k : Nat), xs.length = lo + n →
    destroyDown lo n (slots xs k) = .ok (slots (xs.take lo) (n + k)) := by
  induction n with
  | zero =>
    intro xs k h
    rw [List.take_of_length_le (by omega)]
    simp [destroyDown]
  | succ n ih =>
    intro xs k h
    obtain ⟨ys, y, rfl⟩ : ∃ ys y, xs = ys ++ [y] := by
      rcases List.eq_nil_or_concat xs with rfl | ⟨ys, y, rfl⟩
      · simp at h
      · exact ⟨ys, y, by simp⟩
    have hl : ys.length = lo + n := by simp at h; omega
    have e : slots (ys ++ [y]) k = ys.map some ++ some y :: raw k := by simp [slots]
    simp only [destroyDown]
    rw [e, destroy_mid (by simpa using hl)]
    simp only [Out.ok_bind]
    have := ih ys (k + 1) hl
    simp only [slots, raw_succ] at this
    rw [this, List.take_append_of_le_length (by omega)]
    simp only [slots]
    rw [show n + 1 + k = n + (k + 1) by omega]

theorem moveUp_spec (n : Nat) : ∀ (ys pre : List α) (k k' : Nat), ys.length = n →
    moveUp n pre.length (raw pre.length ++ slots ys k) (slots pre (n + k')) =
      .ok (raw (pre.length + n + k), slots (pre ++ ys) k') := by
  induction n with
  | zero =>
    intro ys pre k k' h
    simp only [List.length_eq_zero_iff] at h
    subst h
    simp [moveUp, slots, raw_add]
  | succ n ih =>
    intro ys pre k k' h
    cases ys with
    | nil => simp at h
    | cons y ys =>
      simp only [List.length_cons, Nat.add_right_cancel_iff] at h
      have e1 : raw pre.length ++ slots (y :: ys) k = raw pre.length ++ some y :: slots ys k := rfl
      have e2 : slots pre (n + 1 + k') = pre.map some ++ none :: raw (n + k') := by
        rw [show n + 1 + k' = (n + k') + 1 by omega]; rfl
      simp only [moveUp]
      rw [e1, load_mid (by simp)]
      simp only [Out.ok_bind]
      rw [e2, construct_mid (by simp), Out.ok_bind, destroy_mid (by simp), Out.ok_bind]
      have := ih ys (pre ++ [y]) k k' h
      have e3 : pre.map some ++ some y :: raw (n + k') = slots (pre ++ [y]) (n + k') := by simp [slots]
      rw [raw_snoc, e3]
      simp only [List.length_append, List.length_cons, List.length_nil, Nat.zero_add] at this
      rw [this]
      simp only [List.append_assoc, List.cons_append, List.nil_append]
      rw [show pre.length + 1 + n + k = pre.length + (n + 1) + k by omega]

theorem shiftUp_spec (n : Nat) : ∀ (l : Block α) (ys : List α) (r : Block α), ys.length = n →
    shiftUp l.length n (l ++ (ys.map some ++ none :: r)) = .ok (l ++ (none :: (ys.map some ++ r))) := by
  induction n with
  | zero =>
    intro l ys r h
    simp only [List.length_eq_zero_iff] at h
    subst h; rfl
  | succ n ih =>
    intro l ys r h
    obtain ⟨zs, y, rfl⟩ : ∃ zs y, ys = zs ++ [y] := by
      rcases List.eq_nil_or_concat ys with rfl | ⟨ys, y, rfl⟩
      · simp at h
      · exact ⟨ys, y, by simp⟩
    have hz : zs.length = n := by simpa using h
    have e1 : l ++ ((zs ++ [y]).map some ++ none :: r) = (l ++ zs.map some) ++ some y :: none :: r := by simp
    have e2 : (l ++ zs.map some) ++ some y :: none :: r = (l ++ zs.map some ++ [some y]) ++ none :: r := by simp
    have e3 : (l ++ zs.map some ++ [some y]) ++ some y :: r = (l ++ zs.map some) ++ some y :: some y :: r := by simp
    simp only [shiftUp]
    rw [e1, load_mid (by simp [hz]), Out.ok_bind, e2, construct_mid (by simp [hz]; omega), Out.ok_bind, e3,
      destroy_mid (by simp [hz]), Out.ok_bind]
    have := ih l zs (some y :: r) hz
    rw [List.append_assoc, this]
    simp

theorem shiftDown_spec (n : Nat) : ∀ (l : Block α) (ys : List α) (r : Block α), ys.length = n →
    shiftDown n l.length (l ++ (none :: (ys.map some ++ r))) = .ok (l ++ (ys.map some ++ none :: r)) := by
  induction n with
  | zero =>
    intro l ys r h
    simp only [List.length_eq_zero_iff] at h
    subst h; rfl
  | succ n ih =>
    intro l ys r h
    cases ys with
    | nil => simp at h
    | cons y ys =>
      simp only [List.length_cons, Nat.add_right_cancel_iff] at h
      have e1 : l ++ (none :: ((y :: ys).map some ++ r)) = (l ++ [none]) ++ some y :: (ys.map some ++ r) := by simp
      have e2 : (l ++ [none]) ++ some y :: (ys.map some ++ r) = l ++ none :: some y :: (ys.map some ++ r) := by simp
      have e3 : l ++ some y :: some y :: (ys.map some ++ r) = (l ++ [some y]) ++ some y :: (ys.map some ++ r) := by simp
      simp only [shiftDown]
      rw [e1, load_mid (by simp), Out.ok_bind, e2, construct_mid rfl, Out.ok_bind, e3, destroy_mid (by simp), Out.ok_bind]
      have := ih (l ++ [some y]) ys r h
      rw [show (l ++ [some y]).length = l.length + 1 by simp] at this
      rw [this]
      simp

/-! ## The invariant -/

/-- The array consists of the elements `xs`: they are in the first slots of the current block, no other slot holds an
object, and the block has `reserved` slots. -/
structure Contains (a : Arr α) (xs : List α) : Prop where
  count : a.count = xs.length
  data : ∃ k, a.data = slots xs k ∧ a.reserved = xs.length + k
  idle : a.heap.isSome → a.loc = raw a.loc.length

theorem Contains.store {a : Arr α} {xs ys : List α} (h : Contains a xs) {k : Nat} (c : Nat) (hc : c = ys.length)
    (hr : a.reserved = ys.length + k) : Contains { a.store (slots ys k) with count := c } ys := by
  refine ⟨hc, ⟨k, ?_, ?_⟩, ?_⟩
  · unfold Arr.store Arr.data; cases a.heap <;> rfl
  · unfold Arr.store; cases a.heap <;> exact hr
  · have := h.idle
    unfold Arr.store
    cases e : a.heap with
    | none => intro h'; simp [e] at h'
    | some b => intro _; simpa [e] using this

/-- Storing does not change the reserved count nor the number of local slots. -/
theorem store_base {a : Arr α} {b : Block α} (h : b.length = a.data.length) : (a.store b).loc.length = a.loc.length := by
  unfold Arr.store Arr.data at *
  cases e : a.heap with
  | none => simpa [e] using h
  | some c => rfl

theorem Contains.unique {a : Arr α} {xs ys : List α} (h : Contains a xs) (h' : Contains a ys) : xs = ys := by
  obtain ⟨k, hk, -⟩ := h.data
  obtain ⟨k', hk', -⟩ := h'.data
  have hl : xs.length = ys.length := by rw [← h.count, h'.count]
  rw [hk] at hk'
  unfold slots at hk'
  have := (List.append_inj hk' (by simpa using hl)).1
  exact (List.map_inj_right (by simp)).1 this

theorem contains_newBase (base : Nat) : Contains (newBase base : Arr α) [] :=
  ⟨rfl, ⟨base, rfl, by simp [newBase]⟩, by simp [newBase]⟩

theorem setReserved_ok {a : Arr α} {xs : List α} (h : Contains a xs) (n : Nat) :
    ∃ a', setReserved true n a = .ok (a', false) ∧ Contains a' xs ∧ n ≤ a'.reserved ∧ a.reserved < a'.reserved ∧
      a'.loc = raw a.loc.length ∧ a'.heap.isSome := by
  obtain ⟨k, hk, hr⟩ := h.data
  have hn1 : n ≤ newReservedCount a.loc.length a.reserved n := by unfold newReservedCount; omega
  have hn2 : a.reserved < newReservedCount a.loc.length a.reserved n := by
    unfold newReservedCount
    split <;> omega
  obtain ⟨k', hk'⟩ : ∃ k', newReservedCount a.loc.length a.reserved n = xs.length + k' :=
    ⟨newReservedCount a.loc.length a.reserved n - xs.length, by omega⟩
  have := moveUp_spec xs.length xs [] k k' rfl
  simp only [List.length_nil, raw_zero, List.nil_append, slots_nil, Nat.zero_add] at this
  unfold setReserved
  simp only [if_true]
  rw [h.count, hk, hk', this]
  have hloc : (a.store (raw (xs.length + k))).loc = raw a.loc.length := by
    unfold Arr.store
    cases e : a.heap with
    | none =>
      simp only
      have hd := congrArg List.length hk
      simp only [Arr.data, e, Option.getD_none, slots_length] at hd
      rw [hd]
    | some b => exact h.idle (by simp [e])
  refine ⟨_, rfl, ⟨rfl, ⟨k', rfl, rfl⟩, fun _ => ?_⟩, by simp only; omega, by simp only; omega, hloc, rfl⟩
  simp only [hloc, raw_length]

theorem ensure_ok {a : Arr α} {xs : List α} (h : Contains a xs) (n : Nat) :
    ∃ a' moved, ensure true n a = .ok (a', false, moved) ∧ Contains a' xs ∧ n ≤ a'.reserved ∧
      a'.loc.length = a.loc.length ∧ (moved = true → a.reserved < n ∧ a'.loc = raw a.loc.length) ∧
      (moved = false → a' = a ∧ n ≤ a.reserved) := by
  unfold ensure
  split
  · next hn =>
    obtain ⟨a', h1, h2, h3, -, h4, -⟩ := setReserved_ok h n
    rw [h1]
    exact ⟨a', true, rfl, h2, h3, by rw [h4, raw_length], fun _ => ⟨hn, h4⟩, by simp⟩
  · next hn => exact ⟨a, false, rfl, h, by omega, rfl, by simp, fun _ => ⟨rfl, by omega⟩⟩

theorem ensure_fail {a : Arr α} (n : Nat) :
    (a.reserved < n ∧ ensure false n a = .ok ({ a with reserved := newReservedCount a.loc.length a.reserved n }, true, false)) ∨
    (n ≤ a.reserved ∧ ensure false n a = .ok (a, false, false)) := by
  unfold ensure
  split
  · next h => exact .inl ⟨h, rfl⟩
  · next h => exact .inr ⟨by omega, rfl⟩

theorem ensure_room {a : Arr α} {mem : Bool} {n : Nat} (h : n ≤ a.reserved) : ensure mem n a = .ok (a, false, false) := by
  unfold ensure
  rw [if_neg (by omega)]

theorem clear_ok {a : Arr α} {xs : List α} (h : Contains a xs) : ∃ a', clear a = .ok a' ∧ Contains a' [] ∧
    a'.loc.length = a.loc.length := by
  obtain ⟨k, hk, hr⟩ := h.data
  have := destroyDown_spec 0 xs.length xs k (by simp)
  unfold clear
  rw [h.count, hk, this]
  refine ⟨_, rfl, ?_, store_base (by rw [hk]; simp)⟩
  exact h.store (ys := []) 0 rfl (by simpa using hr)

theorem purge_ok {a : Arr α} {xs : List α} (h : Contains a xs) : ∃ a', purge a = .ok a' ∧ Contains a' [] ∧
    a'.loc.length = a.loc.length := by
  obtain ⟨k, hk, hr⟩ := h.data
  have hd := destroyDown_spec 0 xs.length xs k (by simp)
  unfold purge
  rw [h.count, hk, hd]
  have hloc : (a.store (slots (xs.take 0) (xs.length + k))).loc = raw a.loc.length := by
    unfold Arr.store
    cases e : a.heap with
    | none =>
      simp only
      have hd := congrArg List.length hk
      simp only [Arr.data, e, Option.getD_none, slots_length] at hd
      rw [hd]; rfl
    | some b => exact h.idle (by simp [e])
  refine ⟨_, rfl, ⟨rfl, ⟨a.loc.length, ?_, by simp⟩, by simp⟩, by simp only [hloc, raw_length]⟩
  simp only [Arr.data, Option.getD_none, hloc]; rfl

theorem setCountWith_ok {a : Arr α} {xs : List α} (h : Contains a xs) (n : Nat) (f : Arr α → Bool → Nat → Block α → Out α)
    (v : Nat → α)
    (hf : ∀ a' moved, ensure true n a = .ok (a', false, moved) → Contains a' xs → ∀ j, xs.length ≤ j → j < n →
      f a' moved j a'.data = .ok (v j)) :
    ∃ a', setCountWith true n f a = .ok (a', false) ∧
      Contains a' (xs.take n ++ (List.range (n - xs.length)).map fun j => v (xs.length + j)) := by
  obtain ⟨a', moved, he, hc, hn, hb, h1, h2⟩ := ensure_ok h n
  have hf' := hf a' moved he hc
  unfold setCountWith
  simp only [he, Out.ok_bind, Bool.false_eq_true, if_false]
  obtain ⟨k, hk, hr⟩ := hc.data
  rw [hc.count]
  split
  · next hlt =>
    have hcu := constructUp_spec (fun i => f a' moved i a'.data) v (n - xs.length) xs (a'.reserved - n)
      (fun j hj => hf' _ (by omega) (by omega))
    have e : a'.data = slots xs (n - xs.length + (a'.reserved - n)) := by
      rw [hk]; congr 1; omega
    rw [← e] at hcu
    rw [hcu]
    refine ⟨_, rfl, ?_⟩
    rw [List.take_of_length_le (by omega)]
    exact hc.store n (by simp; omega) (by simp; omega)
  · next hlt =>
    have hd := destroyDown_spec n (xs.length - n) xs k (by omega)
    rw [← hk] at hd
    rw [hd]
    refine ⟨_, rfl, ?_⟩
    rw [show n - xs.length = 0 by omega]
    simp only [List.range_zero, List.map_nil, List.append_nil]
    exact hc.store n (by simp; omega) (by simp; omega)

theorem appendWith_ok {a : Arr α} {xs : List α} (h : Contains a xs) (f : Arr α → Bool → Out α) (x : α)
    (hf : ∀ a' moved, ensure true (xs.length + 1) a = .ok (a', false, moved) → Contains a' xs → f a' moved = .ok x) :
    ∃ a', appendWith true f a = .ok (a', false) ∧ Contains a' (xs ++ [x]) := by
  obtain ⟨a', moved, he, hc, hn, hb, h1, h2⟩ := ensure_ok h (xs.length + 1)
  have hf' := hf a' moved he hc
  unfold appendWith
  rw [h.count]
  simp only [he, Out.ok_bind, Bool.false_eq_true, if_false, hf']
  obtain ⟨k, hk, hr⟩ := hc.data
  rw [hc.count]
  cases k with
  | zero => omega
  | succ k =>
    have : construct a'.data xs.length x = .ok (slots (xs ++ [x]) k) := by
      rw [hk]
      have := construct_mid (l := xs.map some) (r := raw k) (i := xs.length) (by simp) x
      simp only [slots, raw_succ, List.map_append, List.map_cons, List.map_nil, List.append_assoc, List.cons_append,
        List.nil_append] at this ⊢
      exact this
    rw [this]
    exact ⟨_, rfl, hc.store _ (by simp) (by simp; omega)⟩

theorem store_store (a : Arr α) (b c : Block α) : (a.store b).store c = a.store c := by
  unfold Arr.store; cases a.heap <;> rfl

theorem store_data (a : Arr α) (b : Block α) : (a.store b).data = b := by
  unfold Arr.store Arr.data; cases a.heap <;> rfl

theorem insert_ok {a : Arr α} {xs : List α} (h : Contains a xs) (dflt : Nat → α) (index : Nat) (x : Arg α) (v : α)
    (hx : ∀ a' moved b, ensure true (max index xs.length + 1) a = .ok (a', false, moved) → Contains a' xs →
      (xs.length ≤ index → ∃ ys k, b = slots (xs ++ ys) k) →
      (index < xs.length → ∃ k, b = (xs.take index).map some ++ (none :: ((xs.drop index).map some ++ raw k))) →
      x.get a (a'.store b) moved = .ok v) :
    ∃ a', insert true dflt index x a = .ok (a', false) ∧
      Contains a' (if xs.length ≤ index then xs ++ (List.range (index - xs.length)).map (fun j => dflt (xs.length + j)) ++ [v]
        else xs.take index ++ v :: xs.drop index) := by
  unfold insert
  rw [h.count]
  by_cases hi : xs.length ≤ index
  · rw [if_pos hi, if_pos hi]
    obtain ⟨a', moved, he, hc, hn, hb, h1, h2⟩ := ensure_ok h (index + 1)
    have hm : max index xs.length = index := by omega
    have hx' := fun b hb => hx a' moved b (by rw [hm]; exact he) hc (fun _ => hb) (fun h => by omega)
    obtain ⟨k, hk, hr⟩ := hc.data
    simp only [he, Out.ok_bind, Bool.false_eq_true, if_false]
    rw [hc.count]
    have hcu := constructUp_spec (fun i => .ok (dflt i)) dflt (index - xs.length) xs (a'.reserved - index)
      (fun j hj => rfl)
    have e : a'.data = slots xs (index - xs.length + (a'.reserved - index)) := by
      rw [hk]; congr 1; omega
    rw [← e] at hcu
    rw [hcu]
    simp only [Out.ok_bind]
    rw [hx' _ ⟨_, _, rfl⟩]
    simp only [Out.ok_bind]
    simp only [store_data, store_store]
    obtain ⟨k', hk'⟩ : ∃ k', a'.reserved - index = k' + 1 := ⟨a'.reserved - index - 1, by omega⟩
    rw [hk']
    generalize hys : (List.range (index - xs.length)).map (fun j => dflt (xs.length + j)) = ys
    have hl : ys.length = index - xs.length := by rw [← hys]; simp
    have : construct (slots (xs ++ ys) (k' + 1)) index v = .ok (slots (xs ++ ys ++ [v]) k') := by
      have := construct_mid (l := (xs ++ ys).map some) (r := raw k') (i := index) (by simp; omega) v
      simp only [slots, raw_succ, List.map_append, List.map_cons, List.map_nil, List.append_assoc, List.cons_append,
        List.nil_append] at this ⊢
      exact this
    rw [this]
    exact ⟨_, rfl, hc.store _ (by simp; omega) (by simp; omega)⟩
  · rw [if_neg hi, if_neg hi]
    obtain ⟨a', moved, he, hc, hn, hb, h1, h2⟩ := ensure_ok h (xs.length + 1)
    have hm : max index xs.length = xs.length := by omega
    have hx' := fun b hb => hx a' moved b (by rw [hm]; exact he) hc (fun h => absurd h hi) (fun _ => hb)
    obtain ⟨k, hk, hr⟩ := hc.data
    simp only [he, Out.ok_bind, Bool.false_eq_true, if_false]
    rw [hc.count]
    obtain ⟨k', hk'⟩ : ∃ k', k = k' + 1 := ⟨k - 1, by omega⟩
    subst hk'
    have hsu := shiftUp_spec (xs.length - index) ((xs.take index).map some) (xs.drop index) (raw k') (by simp)
    have hl : ((xs.take index).map some).length = index := by simp; omega
    rw [hl] at hsu
    have e : a'.data = (xs.take index).map some ++ ((xs.drop index).map some ++ none :: raw k') := by
      rw [hk]; unfold slots
      rw [← List.append_assoc, ← List.map_append, List.take_append_drop]; rfl
    rw [e, hsu]
    simp only [Out.ok_bind]
    rw [hx' _ ⟨_, rfl⟩]
    simp only [Out.ok_bind]
    simp only [store_data, store_store]
    rw [construct_mid hl]
    have e2 : (xs.take index).map some ++ some v :: ((xs.drop index).map some ++ raw k') =
        slots (xs.take index ++ v :: xs.drop index) k' := by simp [slots]
    simp only [Out.ok_bind]
    rw [e2]
    exact ⟨_, rfl, hc.store _ (by simp; omega) (by simp; omega)⟩

theorem remove_ok {a : Arr α} {xs : List α} (h : Contains a xs) (index : Nat) :
    ∃ a', remove index a = .ok a' ∧ Contains a' (xs.eraseIdx index) := by
  unfold remove
  rw [h.count]
  split
  · next hi =>
    obtain ⟨k, hk, hr⟩ := h.data
    have hl : ((xs.take index).map some).length = index := by simp; omega
    have e : a.data = (xs.take index).map some ++ some xs[index] :: ((xs.drop (index + 1)).map some ++ raw k) := by
      have hx : xs.take index ++ xs[index] :: xs.drop (index + 1) = xs := by
        rw [← List.drop_eq_getElem_cons hi, List.take_append_drop]
      have := congrArg (fun l => l.map some ++ raw k) hx
      simp only [List.map_append, List.map_cons, List.append_assoc, List.cons_append] at this
      rw [hk, this]; rfl
    rw [e, destroy_mid hl]
    simp only [Out.ok_bind]
    have hsd := shiftDown_spec (xs.length - (index + 1)) ((xs.take index).map some) (xs.drop (index + 1)) (raw k) (by simp)
    rw [hl] at hsd
    rw [hsd]
    have e2 : (xs.take index).map some ++ ((xs.drop (index + 1)).map some ++ none :: raw k) =
        slots (xs.eraseIdx index) (k + 1) := by
      rw [List.eraseIdx_eq_take_drop_succ]; simp [slots]
    simp only [Out.ok_bind]
    rw [e2]
    have hlen : (xs.eraseIdx index).length = xs.length - 1 := by rw [List.length_eraseIdx, if_pos hi]
    exact ⟨_, rfl, h.store _ (by rw [hlen]) (by rw [hlen]; omega)⟩
  · next hi =>
    rw [List.eraseIdx_of_length_le (by omega)]
    exact ⟨a, rfl, h⟩

theorem removeLast_ok {a : Arr α} {xs : List α} (h : Contains a xs) :
    ∃ a', removeLast a = .ok a' ∧ Contains a' xs.dropLast := by
  unfold removeLast
  rw [h.count]
  split
  · next hi =>
    obtain ⟨k, hk, hr⟩ := h.data
    obtain ⟨ys, y, rfl⟩ : ∃ ys y, xs = ys ++ [y] := by
      rcases List.eq_nil_or_concat xs with rfl | ⟨ys, y, rfl⟩
      · simp at hi
      · exact ⟨ys, y, by simp⟩
    have e : a.data = ys.map some ++ some y :: raw k := by rw [hk]; simp [slots]
    rw [e, destroy_mid (by simp)]
    simp only [Out.ok_bind]
    have e2 : ys.map some ++ none :: raw k = slots ys (k + 1) := rfl
    rw [e2]
    simp only [List.dropLast_concat]
    exact ⟨_, rfl, h.store _ (by simp) (by simp at hr; omega)⟩
  · next hi =>
    have : xs = [] := by rw [← List.length_eq_zero_iff]; omega
    subst this
    exact ⟨a, rfl, h⟩

theorem index_ok {a : Arr α} {xs : List α} (h : Contains a xs) {i : Nat} {x : α} (hx : xs[i]? = some x) :
    index a i = .ok x := by
  obtain ⟨k, hk, -⟩ := h.data
  unfold index; rw [hk]; exact load_slots hx

theorem delete_ok {a : Arr α} {xs : List α} (h : Contains a xs) : delete a = .ok (raw a.data.length) := by
  obtain ⟨k, hk, hr⟩ := h.data
  unfold delete
  rw [h.count, hk, destroyDown_spec 0 xs.length xs k (by simp)]
  simp [slots]

theorem findFrom_spec [DecidableEq α] (x : α) (k : Nat) : ∀ (n : Nat) (pre ys : List α), ys.length = n →
    findFrom (slots (pre ++ ys) k) x n pre.length = .ok ((ys.idxOf? x).map (· + pre.length)) := by
  intro n
  induction n with
  | zero =>
    intro pre ys h
    simp only [List.length_eq_zero_iff] at h
    subst h; simp [findFrom]
  | succ n ih =>
    intro pre ys h
    cases ys with
    | nil => simp at h
    | cons y ys =>
      simp only [List.length_cons, Nat.add_right_cancel_iff] at h
      simp only [findFrom]
      rw [load_slots (x := y) (by simp), Out.ok_bind]
      by_cases hy : y = x
      · subst hy; simp [List.idxOf?_cons]
      · rw [if_neg hy]
        have := ih (pre ++ [y]) ys h
        simp only [List.append_assoc, List.cons_append, List.nil_append, List.length_append, List.length_cons,
          List.length_nil, Nat.zero_add] at this
        rw [this, List.idxOf?_cons, if_neg (by simpa using hy)]
        cases ys.idxOf? x with
        | none => rfl
        | some j => simp; omega

theorem find_ok [DecidableEq α] {a : Arr α} {xs : List α} (h : Contains a xs) (x : α) :
    find x a = .ok (xs.idxOf? x) := by
  obtain ⟨k, hk, -⟩ := h.data
  unfold find
  have := findFrom_spec x k xs.length [] xs rfl
  simp only [List.nil_append, List.length_nil] at this
  rw [hk, h.count, this]
  simp

theorem eqFrom_spec [DecidableEq α] (k k' : Nat) : ∀ (n : Nat) (pre pre' ys zs : List α), ys.length = n → zs.length = n →
    pre'.length = pre.length →
    eqFrom (slots (pre ++ ys) k) (slots (pre' ++ zs) k') n pre.length = .ok (decide (ys = zs)) := by
  intro n
  induction n with
  | zero =>
    intro pre pre' ys zs h h' _
    simp only [List.length_eq_zero_iff] at h h'
    subst h; subst h'; simp [eqFrom]
  | succ n ih =>
    intro pre pre' ys zs h h' hp
    cases ys with
    | nil => simp at h
    | cons y ys =>
      cases zs with
      | nil => simp at h'
      | cons z zs =>
        simp only [List.length_cons, Nat.add_right_cancel_iff] at h h'
        simp only [eqFrom]
        rw [load_slots (x := y) (by simp), Out.ok_bind, ← hp, load_slots (x := z) (by simp), Out.ok_bind]
        by_cases hy : y = z
        · subst hy
          rw [if_neg (by simp)]
          have := ih (pre ++ [y]) (pre' ++ [y]) ys zs h h' (by simp [hp])
          simp only [List.append_assoc, List.cons_append, List.nil_append, List.length_append, List.length_cons,
            List.length_nil, Nat.zero_add] at this
          rw [hp, this]; simp
        · rw [if_pos hy]; simp [hy]

theorem equal_ok [DecidableEq α] {a c : Arr α} {xs ys : List α} (h : Contains a xs) (h' : Contains c ys) :
    equal a c = .ok (decide (xs = ys)) := by
  obtain ⟨k, hk, -⟩ := h.data
  obtain ⟨k', hk', -⟩ := h'.data
  unfold equal
  rw [h.count, h'.count]
  split
  · next hl =>
    have : xs ≠ ys := fun e => hl (by rw [e])
    simp [this]
  · next hl =>
    simp only [ne_eq, Decidable.not_not] at hl
    rw [hk, hk']
    have := eqFrom_spec k k' xs.length [] [] xs ys rfl hl.symm rfl
    simpa using this

theorem newCopy_ok {a : Arr α} {xs : List α} (h : Contains a xs) :
    ∃ a', newCopy true a = .ok (some a') ∧ Contains a' xs ∧ a'.loc.length = a.loc.length := by
  obtain ⟨k, hk, hr⟩ := h.data
  have key : ∀ k', constructUp (load a.data) a.count 0 (raw (xs.length + k')) = .ok (slots xs k') := by
    intro k'
    have := constructUp_list (load a.data) xs [] k' (by
      intro j y hj
      rw [hk]
      simpa using load_slots hj)
    simpa [h.count, slots_nil] using this
  unfold newCopy
  split
  · next hc =>
    rw [if_pos rfl, hr, key]
    exact ⟨_, rfl, ⟨h.count, ⟨k, rfl, rfl⟩, fun _ => by simp⟩, by simp⟩
  · next hc =>
    simp only [not_or, not_and, Nat.not_lt] at hc
    obtain ⟨k', hk'⟩ : ∃ k', a.loc.length = xs.length + k' := ⟨a.loc.length - xs.length, by have := h.count; omega⟩
    rw [hk', key]
    exact ⟨_, rfl, ⟨h.count, ⟨k', rfl, rfl⟩, by simp⟩, by simp [slots]⟩

theorem newMove_ok {a : Arr α} {xs : List α} (h : Contains a xs) :
    ∃ a' a'' left, newMove a = .ok (a', a'', left) ∧ Contains a' xs ∧ Contains a'' [] ∧
      a'.loc.length = a.loc.length ∧ a''.loc.length = a.loc.length ∧
      (left.isSome ↔ a.heap.isSome ∧ xs.length ≤ a.loc.length ∧ 0 < a.loc.length) := by
  obtain ⟨k, hk, hr⟩ := h.data
  unfold newMove
  split
  · next hc =>
    have hloc : a.loc = raw a.loc.length := by
      cases e : a.heap with
      | some b => exact h.idle (by simp [e])
      | none =>
        rcases hc with hc | hc
        · have := congrArg List.length hk
          simp only [Arr.data, e, Option.getD_none, slots_length] at this
          have := h.count
          omega
        · rw [hc]
          exact List.length_eq_zero_iff.1 hc
    refine ⟨_, _, _, rfl, ⟨h.count, ⟨k, ?_, hr⟩, fun _ => by simp⟩, ⟨rfl, ⟨a.loc.length, ?_, by simp⟩, by simp⟩, by simp, rfl, ?_⟩
    · rw [← hk, ← hloc]
    · simp only [Arr.data, Option.getD_none, slots_nil]
      exact hloc
    · have := h.count
      simp only [Option.isSome_none, Bool.false_eq_true, false_iff, not_and]
      omega
  · next hc =>
    simp only [not_or, Nat.not_lt] at hc
    obtain ⟨k', hk'⟩ : ∃ k', a.loc.length = xs.length + k' := ⟨a.loc.length - xs.length, by have := h.count; omega⟩
    have hm := moveUp_spec xs.length xs [] k k' rfl
    simp only [List.length_nil, raw_zero, List.nil_append, slots_nil, Nat.zero_add] at hm
    have hloc : (a.store (raw (xs.length + k))).loc = raw a.loc.length := by
      unfold Arr.store
      cases e : a.heap with
      | none =>
        simp only
        have hd := congrArg List.length hk
        simp only [Arr.data, e, Option.getD_none, slots_length] at hd
        rw [hd]
      | some b => exact h.idle (by simp [e])
    rw [hk, h.count, hk', hm]
    refine ⟨_, _, _, rfl, ⟨rfl, ⟨k', rfl, rfl⟩, by simp⟩, ⟨rfl, ⟨xs.length + k', ?_, by simp⟩, by simp⟩, by simp, ?_, ?_⟩
    · simp only [Arr.data, Option.getD_none, hloc, hk']; rfl
    · simp [hloc, hk']
    · have h1 : (a.store (raw (xs.length + k))).heap.isSome = a.heap.isSome := by
        unfold Arr.store; cases a.heap <;> rfl
      simp only [h1]
      have := h.count
      constructor
      · intro h'; exact ⟨h', by omega, by omega⟩
      · exact fun h' => h'.1

end Verif.Arr
