import Verif.Lemmas.Array

/-!
# Properties of `Array` (C41)
-/

namespace Verif.Props

open Verif Verif.Arr

variable {α : Type}

/-- Operations on an array. -/
inductive ArrOp (α : Type) where
  | reserve (n : Nat)
  | setCount (n : Nat)
  | setCountInit (n : Nat) (init : Arg α)
  | appendDefault
  | append (x : Arg α)
  | insert (index : Nat) (x : Arg α)
  | remove (index : Nat)
  | removeLast
  | clear
  | purge
  deriving DecidableEq, Repr

/-- A call: the operation, whether an allocation in it succeeds, and the values of default-constructed elements (which are
indeterminate for built-in types) by index. -/
structure Call (α : Type) where
  op : ArrOp α
  mem : Bool
  dflt : Nat → α

/-- A call in the model. The flag says whether it threw an exception. -/
def Call.run (c : Call α) (a : Arr α) : Out (Arr α × Bool) :=
  match c.op with
  | .reserve n => reserve c.mem n a
  | .setCount n => setCount c.mem c.dflt n a
  | .setCountInit n x => setCountInit c.mem n x a
  | .appendDefault => appendDefault c.mem (c.dflt a.count) a
  | .append x => append c.mem x a
  | .insert i x => Arr.insert c.mem c.dflt i x a
  | .remove i => remove i a >>= fun a => .ok (a, false)
  | .removeLast => removeLast a >>= fun a => .ok (a, false)
  | .clear => clear a >>= fun a => .ok (a, false)
  | .purge => purge a >>= fun a => .ok (a, false)

/-! ## Specification -/

/-- The value of an argument: an object elsewhere, or an existing element of the array. -/
def argValue (xs : List α) : Arg α → Option α
  | .ext x => some x
  | .own i => xs[i]?

/-- `xs` extended to length `n` with the values `f`. -/
def extendTo (xs : List α) (n : Nat) (f : Nat → α) : List α :=
  xs ++ (List.range (n - xs.length)).map fun j => f (xs.length + j)

/-- What a call that returns normally does to the sequence of elements; `none` if the argument does not exist. -/
def Call.spec (c : Call α) (xs : List α) : Option (List α) :=
  match c.op with
  | .reserve _ => some xs
  | .setCount n => some (extendTo (xs.take n) n (fun j => c.dflt j))
  | .setCountInit n x => (argValue xs x).map fun v => xs.take n ++ List.replicate (n - xs.length) v
  | .appendDefault => some (xs ++ [c.dflt xs.length])
  | .append x => (argValue xs x).map fun v => xs ++ [v]
  | .insert i x => (argValue xs x).map fun v =>
      if i < xs.length then xs.take i ++ v :: xs.drop i else extendTo xs i c.dflt ++ [v]
  | .remove i => some (xs.eraseIdx i)
  | .removeLast => some xs.dropLast
  | .clear => some []
  | .purge => some []

/-- What a client sees: the number of elements, the elements, and that the destructor destroys everything. -/
def ShowsArray (a : Arr α) (xs : List α) : Prop :=
  a.count = xs.length ∧ (∀ i x, xs[i]? = some x → index a i = .ok x) ∧ ∃ n, delete a = .ok (List.replicate n none)

/-- Along a history there is no undefined behaviour, calls throw only if an allocation fails and then leave the elements as
they were, and at every point the array shows the elements that the calls describe. -/
def Follows : List (Call α) → Arr α → List α → Prop
  | [], a, xs => ShowsArray a xs
  | c :: cs, a, xs => ShowsArray a xs ∧ ∀ ys, c.spec xs = some ys →
      ∃ a' threw, c.run a = .ok (a', threw) ∧ (threw = true → c.mem = false) ∧ Follows cs a' (if threw then xs else ys)

/-- C41: every history on an initially empty array, with any number of slots inside the object. -/
def C41_statement (α : Type) : Prop :=
  ∀ (base : Nat) (cs : List (Call α)), Follows cs (newBase base) []

/-! ## Violations -/

/-- **C41 is violated** by `array.AppendArrayElement(array[0])` when the storage is full: the argument refers to storage
that has been released. Any full array with elements on the heap is a witness. -/
theorem C41_violated_own_argument (a : Arr α) (xs : List α) (h : Contains a xs) (hf : a.reserved = xs.length)
    (hh : a.heap.isSome) (i : Nat) : append true (.own i) a = .ub := by
  obtain ⟨a', h1, h2, h3, h4, h5, h6⟩ := setReserved_ok h (a.count + 1)
  unfold append appendWith ensure
  rw [if_pos (by have := h.count; omega), h1]
  cases e : a.heap with
  | none => simp [e] at hh
  | some b => simp [Arg.get, e]

/-- **C41 is violated**: inserting an element of the array in front of itself reads a destroyed object, even if there is room.
This happens for every array with room for the element. -/
theorem C41_violated_insert_own (a : Arr α) (xs : List α) (h : Contains a xs) (hr : xs.length < a.reserved) (index : Nat)
    (hi : index < xs.length) (dflt : Nat → α) (mem : Bool) : Arr.insert mem dflt index (.own index) a = .ub := by
  obtain ⟨k, hk, hkr⟩ := h.data
  obtain ⟨k', rfl⟩ : ∃ k', k = k' + 1 := ⟨k - 1, by omega⟩
  unfold Arr.insert
  rw [h.count, if_neg (by omega), ensure_room (by omega)]
  simp only [Out.ok_bind, Bool.false_eq_true, if_false]
  rw [h.count]
  have hsu := shiftUp_spec (xs.length - index) ((xs.take index).map some) (xs.drop index) (raw k') (by simp)
  have hl : ((xs.take index).map some).length = index := by simp; omega
  rw [hl] at hsu
  have e : a.data = (xs.take index).map some ++ ((xs.drop index).map some ++ none :: raw k') := by
    rw [hk]; unfold slots
    rw [← List.append_assoc, ← List.map_append, List.take_append_drop]; rfl
  rw [e, hsu]
  simp only [Out.ok_bind, Arg.get, Bool.false_eq_true, if_false, store_data]
  have : load ((xs.take index).map some ++ (none :: ((xs.drop index).map some ++ raw k'))) index = .ub := by
    unfold load; rw [get_mid hl]
  rw [this]; rfl

/-- **C41 is violated** after a failed allocation: the array believes to have the room it did not get, and the next append
writes outside the storage. This happens for every full array. -/
theorem C41_violated_after_failure (a : Arr α) (xs : List α) (h : Contains a xs) (hf : a.reserved = xs.length) (x : α) :
    ∃ a', append false (.ext x) a = .ok (a', true) ∧ ∀ mem y, append mem (.ext y) a' = .ub := by
  obtain ⟨k, hk, hkr⟩ := h.data
  have hk0 : k = 0 := by omega
  subst hk0
  have hr : a.reserved < newReservedCount a.loc.length a.reserved (xs.length + 1) := by
    unfold newReservedCount; omega
  refine ⟨{ a with reserved := newReservedCount a.loc.length a.reserved (a.count + 1) }, ?_, ?_⟩
  · unfold append appendWith ensure setReserved
    rw [if_pos (by have := h.count; omega)]
    rfl
  · intro mem y
    unfold append appendWith
    rw [ensure_room (by simp only [h.count]; omega)]
    simp only [Out.ok_bind, Bool.false_eq_true, if_false, Arg.get]
    have : construct a.data a.count y = .ub := by
      unfold construct
      rw [hk, h.count, List.getElem?_eq_none (by simp)]
    have e : ({ a with reserved := newReservedCount a.loc.length a.reserved (a.count + 1) } : Arr α).data = a.data := rfl
    rw [e, this]; rfl

/-- C41 is violated. -/
theorem C41_violated (z : α) : ¬ C41_statement α := by
  intro H
  have := H 2 [⟨.append (.ext z), true, fun _ => z⟩, ⟨.insert 0 (.own 0), true, fun _ => z⟩]
  obtain ⟨-, this⟩ := this
  obtain ⟨a, t, h1, -, this⟩ := this [z] rfl
  have e : Call.run ⟨.append (.ext z), true, fun _ => z⟩ (newBase 2) = .ok (⟨1, 2, none, [some z, none]⟩, false) := rfl
  rw [e] at h1
  simp only [Out.ok.injEq, Prod.mk.injEq] at h1
  obtain ⟨rfl, rfl⟩ := h1
  obtain ⟨-, this⟩ := this
  obtain ⟨a, t, h1, -⟩ := this [z, z] rfl
  have e2 : Call.run ⟨.insert 0 (.own 0), true, fun _ => z⟩ (⟨1, 2, none, [some z, none]⟩ : Arr α) = .ub :=
    C41_violated_insert_own _ [z] ⟨rfl, ⟨1, rfl, rfl⟩, by simp⟩ (by simp) 0 (by simp) _ _
  rw [e2] at h1
  exact nomatch h1

/-- Moving from an `Array` with slots inside the object that has shrunk loses its heap block: nothing points to it. -/
theorem C41_move_leaks : ∃ (a : Arr Bool) (n m : Arr Bool) (b : Block Bool),
    (append true (.ext true) (newBase 1) >>= fun r => append true (.ext false) r.1 >>= fun r => removeLast r.1) = .ok a ∧
    newMove a = .ok (n, m, some b) := ⟨_, _, _, _, rfl, rfl⟩

/-! ## The part that holds -/

/-- Calls whose allocations succeed and whose arguments are objects outside the array. -/
def Call.Tame (c : Call α) : Prop :=
  c.mem = true ∧
  match c.op with
  | .setCountInit _ x | .append x | .insert _ x => ∃ v, x = .ext v
  | _ => True

theorem contains_shows {a : Arr α} {xs : List α} (h : Contains a xs) : ShowsArray a xs :=
  ⟨h.count, fun _ _ hx => index_ok h hx, _, delete_ok h⟩

theorem take_extend (xs : List α) (n : Nat) (v : Nat → α) :
    xs.take n ++ (List.range (n - xs.length)).map (fun j => v (xs.length + j)) = extendTo (xs.take n) n v := by
  unfold extendTo
  by_cases h : n ≤ xs.length
  · rw [show n - xs.length = 0 by omega, show n - (xs.take n).length = 0 by rw [List.length_take]; omega]
    rfl
  · rw [List.take_of_length_le (by omega)]

/-- One call. -/
theorem run_tame (c : Call α) (ht : c.Tame) {a : Arr α} {xs : List α} (h : Contains a xs) :
    ∃ a' ys, c.spec xs = some ys ∧ c.run a = .ok (a', false) ∧ Contains a' ys := by
  obtain ⟨op, mem, dflt⟩ := c
  obtain ⟨hm, ht⟩ := ht
  simp only at hm
  subst hm
  cases op with
  | reserve n =>
    obtain ⟨a', moved, he, hc, -⟩ := ensure_ok h n
    refine ⟨a', xs, rfl, ?_, hc⟩
    simp [Call.run, reserve, he]
  | setCount n =>
    obtain ⟨a', h1, h2⟩ := setCountWith_ok h n (fun _ _ i _ => .ok (dflt i)) dflt (fun _ _ _ _ _ _ _ => rfl)
    exact ⟨a', _, rfl, h1, by rw [← take_extend]; exact h2⟩
  | setCountInit n x =>
    obtain ⟨v, rfl⟩ := ht
    obtain ⟨a', h1, h2⟩ := setCountWith_ok h n (fun a' moved _ _ => (Arg.ext v).get a a' moved) (fun _ => v)
      (fun _ _ _ _ _ _ _ => rfl)
    refine ⟨a', _, rfl, h1, ?_⟩
    rw [List.map_const'] at h2
    simpa using h2
  | appendDefault =>
    obtain ⟨a', h1, h2⟩ := appendWith_ok h (fun _ _ => .ok (dflt xs.length)) (dflt xs.length) (fun _ _ _ _ => rfl)
    refine ⟨a', _, rfl, ?_, h2⟩
    simp only [Call.run, appendDefault, h.count]
    exact h1
  | append x =>
    obtain ⟨v, rfl⟩ := ht
    obtain ⟨a', h1, h2⟩ := appendWith_ok h (fun a' moved => (Arg.ext v).get a a' moved) v (fun _ _ _ _ => rfl)
    exact ⟨a', _, rfl, h1, h2⟩
  | insert i x =>
    obtain ⟨v, rfl⟩ := ht
    obtain ⟨a', h1, h2⟩ := insert_ok h dflt i (.ext v) v (fun _ _ _ _ _ _ _ => rfl)
    refine ⟨a', _, rfl, h1, ?_⟩
    simp only [← Nat.not_le, ite_not]
    exact h2
  | remove i =>
    obtain ⟨a', h1, h2⟩ := remove_ok h i
    exact ⟨a', _, rfl, by simp [Call.run, h1], h2⟩
  | removeLast =>
    obtain ⟨a', h1, h2⟩ := removeLast_ok h
    exact ⟨a', _, rfl, by simp [Call.run, h1], h2⟩
  | clear =>
    obtain ⟨a', h1, h2, -⟩ := clear_ok h
    exact ⟨a', _, rfl, by simp [Call.run, h1], h2⟩
  | purge =>
    obtain ⟨a', h1, h2, -⟩ := purge_ok h
    exact ⟨a', _, rfl, by simp [Call.run, h1], h2⟩

theorem follows_tame (cs : List (Call α)) : ∀ (a : Arr α) (xs : List α), Contains a xs → (∀ c ∈ cs, c.Tame) → Follows cs a xs := by
  induction cs with
  | nil => intro a xs h _; exact contains_shows h
  | cons c cs ih =>
    intro a xs h ht
    refine ⟨contains_shows h, fun ys hy => ?_⟩
    obtain ⟨a', ys', h1, h2, h3⟩ := run_tame c (ht c (by simp)) h
    rw [hy, Option.some.injEq] at h1
    subst h1
    exact ⟨a', false, h2, by simp, ih a' ys h3 (fun c hc => ht c (by simp [hc]))⟩

/-- **C41, the part that holds**: every history of calls whose allocations succeed and whose arguments are not elements of the
array itself. The array may have any number of slots inside the object, or begin with reserved storage.
Missing: arguments inside the array and failing allocations. -/
theorem C41_histories_partial (cs : List (Call α)) (ht : ∀ c ∈ cs, c.Tame) :
    (∀ base, Follows cs (newBase base) []) ∧
    (∀ n, ∃ a, newReserved true n = some a ∧ Follows cs a []) := by
  refine ⟨fun base => follows_tame cs _ _ (contains_newBase base) ht, fun n => ?_⟩
  unfold newReserved
  split
  · exact ⟨_, rfl, follows_tame cs _ _ ⟨rfl, ⟨n, rfl, by simp⟩, fun _ => rfl⟩ ht⟩
  · next hn =>
    have : n = 0 := by omega
    subst this
    exact ⟨_, rfl, follows_tame cs _ _ ⟨rfl, ⟨0, rfl, rfl⟩, by simp⟩ ht⟩

/-- Every such history ends in an array that contains the sequence it describes; the theorems about arrays that contain a
sequence apply to it. -/
theorem C41_reachable_partial (base : Nat) (cs : List (Call α)) (ht : ∀ c ∈ cs, c.Tame) :
    ∃ a xs, cs.foldlM (fun a c => c.run a >>= fun r => .ok r.1) (newBase base) = Out.ok a ∧
      cs.foldlM (fun xs c => c.spec xs) [] = some xs ∧ Contains a xs := by
  suffices H : ∀ (cs : List (Call α)) (a : Arr α) (xs : List α), Contains a xs → (∀ c ∈ cs, c.Tame) →
      ∃ a' ys, cs.foldlM (fun a c => c.run a >>= fun r => .ok r.1) a = Out.ok a' ∧
        cs.foldlM (fun xs c => c.spec xs) xs = some ys ∧ Contains a' ys by
    obtain ⟨a, xs, h1, h2, h3⟩ := H cs (newBase base) [] (contains_newBase base) ht
    exact ⟨a, xs, h1, h2, h3⟩
  intro cs
  induction cs with
  | nil => intro a xs h _; exact ⟨a, xs, rfl, rfl, h⟩
  | cons c cs ih =>
    intro a xs h ht
    obtain ⟨a', ys, h1, h2, h3⟩ := run_tame c (ht c (by simp)) h
    obtain ⟨a'', zs, h4, h5, h6⟩ := ih a' ys h3 (fun c hc => ht c (by simp [hc]))
    refine ⟨a'', zs, ?_, ?_, h6⟩
    · rw [List.foldlM_cons, h2]; exact h4
    · rw [List.foldlM_cons, h1]; exact h5

/-- Copies hold the same elements; a moved-from array is empty. Both go on behaving as sequences. -/
theorem C41_copy_and_move_partial (cs ds : List (Call α)) (ht : ∀ c ∈ cs, c.Tame) (hd : ∀ c ∈ ds, c.Tame) (base : Nat)
    (a : Arr α) (xs : List α) (h : Contains a xs) (hb : a.loc.length = base) :
    (∃ b, newCopy true a = .ok (some b) ∧ Follows cs b xs ∧ Follows ds a xs) ∧
    (∃ b m left, newMove a = .ok (b, m, left) ∧ Follows cs b xs ∧ Follows ds m [] ∧
      (left.isSome → 0 < base)) := by
  obtain ⟨b, h1, h2, -⟩ := newCopy_ok h
  obtain ⟨b', m, left, h3, h4, h5, -, -, h6⟩ := newMove_ok h
  exact ⟨⟨b, h1, follows_tame cs _ _ h2 ht, follows_tame ds _ _ h hd⟩,
    ⟨b', m, left, h3, follows_tame cs _ _ h4 ht, follows_tame ds _ _ h5 hd, fun hl => by have := h6.1 hl; omega⟩⟩

/-- References into the array are harmless while no new storage is needed: as the value for new elements, and for an insertion
behind the element. -/
theorem C41_own_argument_partial (a : Arr α) (xs : List α) (h : Contains a xs) (i : Nat) (x : α) (hx : xs[i]? = some x) :
    (xs.length < a.reserved → ∃ a', append true (.own i) a = .ok (a', false) ∧ ShowsArray a' (xs ++ [x])) ∧
    (∀ n, n ≤ a.reserved → ∃ a', setCountInit true n (.own i) a = .ok (a', false) ∧
      ShowsArray a' (xs.take n ++ List.replicate (n - xs.length) x)) ∧
    (∀ n dflt, i < n → n < xs.length → xs.length < a.reserved →
      ∃ a', Arr.insert true dflt n (.own i) a = .ok (a', false) ∧ ShowsArray a' (xs.take n ++ x :: xs.drop n)) := by
  have hi : i < xs.length := (List.getElem?_eq_some_iff.1 hx).1
  refine ⟨fun hr => ?_, fun n hn => ?_, fun n dflt hin hn hr => ?_⟩
  · obtain ⟨a', h1, h2⟩ := appendWith_ok h (fun a' moved => (Arg.own i).get a a' moved) x (by
      intro a' moved he hc
      rw [ensure_room (by omega)] at he
      simp only [Out.ok.injEq, Prod.mk.injEq, true_and] at he
      obtain ⟨rfl, rfl⟩ := he
      have := index_ok h hx
      unfold index at this
      simpa [Arg.get] using this)
    exact ⟨a', h1, contains_shows h2⟩
  · obtain ⟨a', h1, h2⟩ := setCountWith_ok h n (fun a' moved _ _ => (Arg.own i).get a a' moved) (fun _ => x) (by
      intro a' moved he hc j _ _
      rw [ensure_room hn] at he
      simp only [Out.ok.injEq, Prod.mk.injEq, true_and] at he
      obtain ⟨rfl, rfl⟩ := he
      have := index_ok h hx
      unfold index at this
      simpa [Arg.get] using this)
    rw [List.map_const'] at h2
    exact ⟨a', h1, contains_shows (by simpa using h2)⟩
  · obtain ⟨a', h1, h2⟩ := insert_ok h dflt n (.own i) x (by
      intro a' moved b he hc _ hb
      rw [ensure_room (by omega)] at he
      simp only [Out.ok.injEq, Prod.mk.injEq, true_and] at he
      obtain ⟨rfl, rfl⟩ := he
      obtain ⟨k, rfl⟩ := hb hn
      simp only [Arg.get, Bool.false_eq_true, if_false, store_data]
      unfold load
      rw [List.getElem?_append_left (by simp; omega), List.getElem?_map, List.getElem?_take_of_lt hin, hx]
      rfl)
    rw [if_neg (by omega)] at h2
    exact ⟨a', h1, contains_shows h2⟩

/-- Searching and comparing. -/
theorem C41_find_equal_partial [DecidableEq α] (a b : Arr α) (xs ys : List α) (h : Contains a xs) (h' : Contains b ys) (x : α) :
    (∃ r, find x a = .ok r ∧
      (r = none ↔ x ∉ xs) ∧ ∀ i, r = some i ↔ xs[i]? = some x ∧ ∀ j < i, xs[j]? ≠ some x) ∧
    (∃ e, equal a b = .ok e ∧ (e = true ↔ xs = ys)) := by
  refine ⟨⟨_, find_ok h x, ?_, ?_⟩, ⟨_, equal_ok h h', by simp⟩⟩
  · simp [List.idxOf?_eq_none_iff]
  · intro i
    unfold List.idxOf?
    rw [List.findIdx?_eq_some_iff_getElem]
    constructor
    · rintro ⟨h1, h2, h3⟩
      refine ⟨by simpa [h1] using h2, fun j hj => ?_⟩
      have := h3 j hj
      rw [List.getElem?_eq_getElem (by omega)]
      simpa using this
    · rintro ⟨h1, h2⟩
      obtain ⟨hlt, h1⟩ := List.getElem?_eq_some_iff.1 h1
      refine ⟨hlt, by simpa using h1, fun j hj => ?_⟩
      have := h2 j hj
      rw [List.getElem?_eq_getElem (by omega)] at this
      simpa using this

/-! ## Examples -/

/-- Five appends, an insertion in front, a removal: the storage is replaced twice. -/
def sampleCalls : List (Call Nat) :=
  [1, 2, 3, 4, 5].map (fun n => ⟨.append (.ext n), true, fun _ => 0⟩) ++
  [⟨.insert 0 (.ext 9), true, fun _ => 0⟩, ⟨.remove 2, true, fun _ => 0⟩, ⟨.insert 7 (.ext 8), true, fun i => i⟩]

example : ∀ c ∈ sampleCalls, c.Tame := by
  intro c hc
  simp only [sampleCalls, List.map_cons, List.map_nil, List.cons_append, List.nil_append, List.mem_cons, List.not_mem_nil,
    or_false] at hc
  rcases hc with rfl | rfl | rfl | rfl | rfl | rfl | rfl | rfl <;> exact ⟨rfl, by simp⟩

example : (sampleCalls.foldlM (fun a c => c.run a >>= fun r => .ok r.1) (newBase 0 : Arr Nat)) =
    .ok ⟨8, 8, some ([9, 1, 3, 4, 5, 5, 6, 8].map some), []⟩ := by decide

/-- A full array on the heap. -/
example : ∃ a : Arr Nat, (Call.run ⟨.setCount 5, true, id⟩ (newBase 0)) = .ok (a, false) ∧
    Contains a [0, 1, 2, 3, 4] ∧ a.reserved = 5 ∧ a.heap.isSome :=
  ⟨_, rfl, ⟨rfl, ⟨0, rfl, rfl⟩, fun _ => rfl⟩, rfl, rfl⟩

end Verif.Props
