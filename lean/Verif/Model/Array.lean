import Verif.Base

/-!
# Model of `Array` (Code/Terathon/TSArray.h)

A block of storage for elements is a list of slots. A slot is `none` while no object lives in it and `some x` while
an object with value `x` does. Constructing an object in a slot outside the block or in an occupied slot, destroying
an object that does not exist, and reading one, are undefined behaviour (`ub`).

The class template has a general version with `baseCount` slots inside the object and a specialisation for
`baseCount == 0`. Both have the same members; they are modelled together: `loc` is the member `arrayStorage`
(empty for the specialisation, whose null pointer is the pointer to no slot).

Simplifications: counts and indices are natural numbers (negative arguments are not modelled: most operations are undefined for them,
`ReserveArrayElementCount` ignores them, and the constructor stores them as the reserved count; overflow of
`int32` is not modelled either); constructors of elements do not throw; moving an element is copying
its value and destroying the original. `new` may fail: every operation that may allocate has an argument `mem` saying
whether the allocation succeeds.
-/

namespace Verif.Arr

open Verif

variable {α : Type}

/-- Slots. -/
abbrev Block (α : Type) := List (Option α)

/-- `new(&b[i]) type(x)`. -/
def construct (b : Block α) (i : Nat) (x : α) : Out (Block α) :=
  match b[i]? with
  | some none => .ok (b.set i (some x))
  | _ => .ub

/-- `b[i].~type()`. -/
def destroy (b : Block α) (i : Nat) : Out (Block α) :=
  match b[i]? with
  | some (some _) => .ok (b.set i none)
  | _ => .ub

/-- The value of `b[i]`. -/
def load (b : Block α) (i : Nat) : Out α :=
  match b[i]? with
  | some (some x) => .ok x
  | _ => .ub

/-- The members of `ImmutableArray`, TSArray.h:251-254, and `arrayStorage`, 341. `heap = none` means that `arrayPointer`
is `arrayStorage` (or null if there is none). -/
structure Arr (α : Type) where
  count : Nat
  reserved : Nat
  heap : Option (Block α)
  loc : Block α
  deriving DecidableEq, Repr

/-- The block `arrayPointer` points to. -/
def Arr.data (a : Arr α) : Block α := a.heap.getD a.loc

/-- The object after its current block was changed to `b`. -/
def Arr.store (a : Arr α) (b : Block α) : Arr α :=
  match a.heap with
  | some _ => { a with heap := some b }
  | none => { a with loc := b }

/-- `new char[sizeof(type) * n]`. -/
def raw (n : Nat) : Block α := List.replicate n none

/-- An argument `const type&` / `T&&`: an object elsewhere, or the element at index `i` of the array itself. -/
inductive Arg (α : Type) where
  | ext (x : α)
  | own (i : Nat)
  deriving DecidableEq, Repr

/-- The value of an argument when the array is `a`; `moved` says whether the storage was replaced since the call
began, `a0` is the array at that time. A reference into a deleted block is no longer usable; one into `arrayStorage`
refers to a destroyed object. -/
def Arg.get (a0 a : Arr α) (moved : Bool) : Arg α → Out α
  | .ext x => .ok x
  | .own i =>
    if moved then
      match a0.heap with
      | some _ => .ub
      | none => load a.loc i
    else load a.data i

/-! ## Loops -/

/-- Construct `f i, f (i + 1), ...` in `n` slots from `i`, e.g. TSArray.h:829-832, 857-860. -/
def constructUp (f : Nat → Out α) : Nat → Nat → Block α → Out (Block α)
  | 0, _, b => .ok b
  | n + 1, i, b => f i >>= fun x => construct b i x >>= fun b => constructUp f n (i + 1) b

/-- Destroy the `n` slots from `lo`, the last first, e.g. TSArray.h:762-766, 836-840. -/
def destroyDown (lo : Nat) : Nat → Block α → Out (Block α)
  | 0, b => .ok b
  | n + 1, b => destroy b (lo + n) >>= fun b => destroyDown lo n b

/-- Move `n` elements from `i` on to the same places of another block, TSArray.h:796-801; result: (old, new). -/
def moveUp : Nat → Nat → Block α → Block α → Out (Block α × Block α)
  | 0, _, b, b' => .ok (b, b')
  | n + 1, i, b, b' =>
    load b i >>= fun x => construct b' i x >>= fun b' => destroy b i >>= fun b => moveUp n (i + 1) b b'

/-- The loop of `InsertArrayElement` that makes room, TSArray.h:935-939: the `n` elements from `index` move up by one. -/
def shiftUp (index : Nat) : Nat → Block α → Out (Block α)
  | 0, b => .ok b
  | n + 1, b =>
    load b (index + n) >>= fun x => construct b (index + n + 1) x >>= fun b =>
    destroy b (index + n) >>= fun b => shiftUp index n b

/-- The loop of `RemoveArrayElement`, TSArray.h:954-958: `n` elements from `i + 1` move down by one. -/
def shiftDown : Nat → Nat → Block α → Out (Block α)
  | 0, _, b => .ok b
  | n + 1, i, b =>
    load b (i + 1) >>= fun x => construct b i x >>= fun b => destroy b (i + 1) >>= fun b => shiftDown n (i + 1) b

/-! ## Constructors and destructor -/

/-- `Array()`, TSArray.h:371-377. -/
def newBase (base : Nat) : Arr α := { count := 0, reserved := base, heap := none, loc := raw base }

/-- `Array(int32 count)` of the specialisation, TSArray.h:706-713. The result is `none` if the constructor throws. -/
def newReserved (mem : Bool) (count : Nat) : Option (Arr α) :=
  if count > 0 then
    if mem then some { count := 0, reserved := count, heap := some (raw count), loc := [] } else none
  else some { count := 0, reserved := count, heap := none, loc := [] }

/-- `Array(const Array& array)`, TSArray.h:379-399 and, for the specialisation, 715-733. `none`: the constructor throws. -/
def newCopy (mem : Bool) (a : Arr α) : Out (Option (Arr α)) :=
  if a.count > a.loc.length ∨ (a.loc.length = 0 ∧ a.reserved > 0) then
    if mem then
      constructUp (load a.data) a.count 0 (raw a.reserved) >>= fun b =>
      .ok (some { count := a.count, reserved := a.reserved, heap := some b, loc := raw a.loc.length })
    else .ok none
  else
    constructUp (load a.data) a.count 0 (raw a.loc.length) >>= fun b =>
    .ok (some { count := a.count, reserved := a.loc.length, heap := none, loc := b })

/-- `Array(Array&& array)`, TSArray.h:401-427 and, for the specialisation, 735-745: the new array, the moved-from
array, and the heap block (if any) to which nothing points afterwards. -/
def newMove (a : Arr α) : Out (Arr α × Arr α × Option (Block α)) :=
  if a.count > a.loc.length ∨ a.loc.length = 0 then
    .ok ({ count := a.count, reserved := a.reserved, heap := a.heap, loc := raw a.loc.length },
      { count := 0, reserved := a.loc.length, heap := none, loc := a.loc }, none)
  else
    moveUp a.count 0 a.data (raw a.loc.length) >>= fun r =>
    let a' := a.store r.1
    .ok ({ count := a.count, reserved := a.loc.length, heap := none, loc := r.2 },
      { count := 0, reserved := a.loc.length, heap := none, loc := a'.loc }, a'.heap)

/-- `~Array()`, TSArray.h:429-443, 747-757: the block (heap or local) left behind; a heap block is then deleted. -/
def delete (a : Arr α) : Out (Block α) := destroyDown 0 a.count a.data

/-! ## Operations -/

/-- `ClearArray`, TSArray.h:445-455, 759-769. -/
def clear (a : Arr α) : Out (Arr α) :=
  destroyDown 0 a.count a.data >>= fun b => .ok { a.store b with count := 0 }

/-- `PurgeArray`, TSArray.h:457-475, 771-785. -/
def purge (a : Arr α) : Out (Arr α) :=
  destroyDown 0 a.count a.data >>= fun b =>
  .ok { count := 0, reserved := a.loc.length, heap := none, loc := (a.store b).loc }

/-- The new `reservedCount`, TSArray.h:480 and 790 (`x & ~3` is `x / 4 * 4`). -/
def newReservedCount (base reserved count : Nat) : Nat :=
  max (max count 4) (reserved + max ((reserved / 2 + 3) / 4 * 4) (if base = 0 then 4 else base))

/-- `SetReservedCount`, TSArray.h:477-498, 787-807. The flag says whether it threw. The counter is set before the
allocation. -/
def setReserved (mem : Bool) (count : Nat) (a : Arr α) : Out (Arr α × Bool) :=
  let r := newReservedCount a.loc.length a.reserved count
  if mem then
    moveUp a.count 0 a.data (raw r) >>= fun p =>
    .ok ({ count := a.count, reserved := r, heap := some p.2, loc := (a.store p.1).loc }, false)
  else .ok ({ a with reserved := r }, true)

/-- `if (count > reservedCount) SetReservedCount(count)`; the last flag says whether the storage was replaced. -/
def ensure (mem : Bool) (count : Nat) (a : Arr α) : Out (Arr α × Bool × Bool) :=
  if count > a.reserved then setReserved mem count a >>= fun r => .ok (r.1, r.2, !r.2)
  else .ok (a, false, false)

/-- `ReserveArrayElementCount`, TSArray.h:500-507, 809-816. -/
def reserve (mem : Bool) (count : Nat) (a : Arr α) : Out (Arr α × Bool) :=
  ensure mem count a >>= fun r => .ok (r.1, r.2.1)

/-- `SetArrayElementCount(count)`, TSArray.h:509-535, 818-844, and `SetArrayElementCount(count, init)`, 537-563, 846-872.
`f i` is the value of the new element at index `i`, evaluated in the array after growth. -/
def setCountWith (mem : Bool) (count : Nat) (f : Arr α → Bool → Nat → Block α → Out α) (a : Arr α) : Out (Arr α × Bool) :=
  ensure mem count a >>= fun r =>
  let (a', threw, moved) := r
  if threw then .ok (a', true)
  else if count > a'.count then
    constructUp (fun i => f a' moved i a'.data) (count - a'.count) a'.count a'.data >>= fun b =>
    .ok ({ a'.store b with count := count }, false)
  else
    destroyDown count (a'.count - count) a'.data >>= fun b =>
    .ok ({ a'.store b with count := count }, false)

/-- `SetArrayElementCount(count)`; a default-constructed element at index `i` is `dflt i` (indeterminate for built-in
types). -/
def setCount (mem : Bool) (dflt : Nat → α) (count : Nat) (a : Arr α) : Out (Arr α × Bool) :=
  setCountWith mem count (fun _ _ i _ => .ok (dflt i)) a

/-- `SetArrayElementCount(count, init)`. The elements constructed by the loop are behind all existing ones, so that
a reference into the array is read from the array before the loop. -/
def setCountInit (mem : Bool) (count : Nat) (init : Arg α) (a : Arr α) : Out (Arr α × Bool) :=
  setCountWith mem count (fun a' moved _ _ => init.get a a' moved) a

/-- `AppendArrayElement()` and `AppendArrayElement(element)`, TSArray.h:565-594, 874-903. `f` gives the new value. -/
def appendWith (mem : Bool) (f : Arr α → Bool → Out α) (a : Arr α) : Out (Arr α × Bool) :=
  ensure mem (a.count + 1) a >>= fun r =>
  let (a', threw, moved) := r
  if threw then .ok (a', true)
  else
    f a' moved >>= fun x =>
    construct a'.data a'.count x >>= fun b => .ok ({ a'.store b with count := a'.count + 1 }, false)

/-- `AppendArrayElement()`. -/
def appendDefault (mem : Bool) (dflt : α) (a : Arr α) : Out (Arr α × Bool) := appendWith mem (fun _ _ => .ok dflt) a

/-- `AppendArrayElement(element)`. -/
def append (mem : Bool) (x : Arg α) (a : Arr α) : Out (Arr α × Bool) := appendWith mem (fun a' moved => x.get a a' moved) a

/-- `InsertArrayElement(index, element)`, TSArray.h:596-635, 905-944. -/
def insert (mem : Bool) (dflt : Nat → α) (index : Nat) (x : Arg α) (a : Arr α) : Out (Arr α × Bool) :=
  if index ≥ a.count then
    ensure mem (index + 1) a >>= fun r =>
    let (a', threw, moved) := r
    if threw then .ok (a', true)
    else
      constructUp (fun i => .ok (dflt i)) (index - a'.count) a'.count a'.data >>= fun b =>
      let a'' := a'.store b
      x.get a a'' moved >>= fun v =>
      construct a''.data index v >>= fun b => .ok ({ a''.store b with count := index + 1 }, false)
  else
    ensure mem (a.count + 1) a >>= fun r =>
    let (a', threw, moved) := r
    if threw then .ok (a', true)
    else
      shiftUp index (a'.count - index) a'.data >>= fun b =>
      let a'' := a'.store b
      x.get a a'' moved >>= fun v =>
      construct a''.data index v >>= fun b => .ok ({ a''.store b with count := a'.count + 1 }, false)

/-- `RemoveArrayElement(index)`, TSArray.h:637-653, 946-962. -/
def remove (index : Nat) (a : Arr α) : Out (Arr α) :=
  if index < a.count then
    destroy a.data index >>= fun b =>
    shiftDown (a.count - (index + 1)) index b >>= fun b => .ok { a.store b with count := a.count - 1 }
  else .ok a

/-- `RemoveLastArrayElement()`, TSArray.h:655-666, 964-975. -/
def removeLast (a : Arr α) : Out (Arr α) :=
  if a.count ≥ 1 then
    destroy a.data (a.count - 1) >>= fun b => .ok { a.store b with count := a.count - 1 }
  else .ok a

/-- The loop of `FindArrayElementIndex`, TSArray.h:297-309, from index `i` on; `none` is -1. -/
def findFrom [DecidableEq α] (b : Block α) (x : α) : Nat → Nat → Out (Option Nat)
  | 0, _ => .ok none
  | n + 1, i => load b i >>= fun y => if y = x then .ok (some i) else findFrom b x n (i + 1)

/-- `FindArrayElementIndex`, TSArray.h:297-309. -/
def find [DecidableEq α] (x : α) (a : Arr α) : Out (Option Nat) := findFrom a.data x a.count 0

/-- The loop of `operator ==`, TSArray.h:320-326. -/
def eqFrom [DecidableEq α] (b c : Block α) : Nat → Nat → Out Bool
  | 0, _ => .ok true
  | n + 1, i => load b i >>= fun x => load c i >>= fun y => if x ≠ y then .ok false else eqFrom b c n (i + 1)

/-- `operator ==`, TSArray.h:311-329. -/
def equal [DecidableEq α] (a c : Arr α) : Out Bool :=
  if a.count ≠ c.count then .ok false else eqFrom a.data c.data a.count 0

/-- `array[i]`: the conversion to a pointer (TSArray.h:262-270) and built-in indexing, which is not checked. -/
def index (a : Arr α) (i : Nat) : Out α := load a.data i

end Verif.Arr
