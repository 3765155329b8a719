/-!
# Specification of objects and the maps that own them

Independent of the links and of the trees. A world says for every address whether there is an object, and
which key and which owning map it has. Addresses and maps are numbers.
-/

namespace Verif.Spec

/-- For every address: no object, or an object with a key and at most one owning map. -/
abbrev World (κ : Type) := Nat → Option (κ × Option Nat)

variable {κ : Type}

/-- No objects. -/
def World.empty : World κ := fun _ => none

/-- The object at `a` is a member of map `m` and has key `k`. -/
def World.In (w : World κ) (m : Nat) (k : κ) (a : Nat) : Prop := w a = some (k, some m)

/-- Change one address. -/
def World.set (w : World κ) (a : Nat) (v : Option (κ × Option Nat)) : World κ :=
  fun x => if x = a then v else w x

/-- All members of a map leave it. -/
def World.release (w : World κ) (m : Nat) : World κ := fun x =>
  match w x with
  | some (k, some m') => if m' = m then some (k, none) else some (k, some m')
  | v => v

/-- All members of a map cease to exist. -/
def World.delete (w : World κ) (m : Nat) : World κ := fun x =>
  match w x with
  | some (k, some m') => if m' = m then none else some (k, some m')
  | v => v

/-- The calls of a history. -/
inductive Act (κ : Type) where
  /-- A new object with a key. -/
  | create (a : Nat) (k : κ)
  /-- `m.InsertMapElement(a)`. -/
  | insert (m a : Nat)
  /-- `m.ReserveMapElement(key of a)` and, if that succeeds, insertion with the reservation. -/
  | reserveInsert (m a : Nat)
  /-- `m.InsertReplaceMapElement(a)`. -/
  | replace (m a : Nat)
  /-- `m.RemoveMapElement(a)`. -/
  | remove (m a : Nat)
  /-- `a->Detach()`. -/
  | detach (a : Nat)
  /-- `delete a`. -/
  | destroy (a : Nat)
  /-- `m.RemoveAllMapElements()`. -/
  | removeAll (m : Nat)
  /-- `m.PurgeMap()`. -/
  | purge (m : Nat)
  deriving DecidableEq

/-- What a call returns. -/
inductive Reply where
  | unit
  | flag (b : Bool)
  | element (a : Option Nat)
  deriving DecidableEq, Repr

/-- The allowed calls, what they return and how they change the world. -/
inductive ActStep : World κ → Act κ → Reply → World κ → Prop
  | create {w a k} : w a = none → ActStep w (.create a k) .unit (w.set a (some (k, none)))
  | insert {w m a k o} : w a = some (k, o) → (∀ x, ¬ w.In m k x) →
      ActStep w (.insert m a) (.flag true) (w.set a (some (k, some m)))
  | insertPresent {w m a k o x} : w a = some (k, o) → w.In m k x → ActStep w (.insert m a) (.flag false) w
  | reserveInsert {w m a k o} : w a = some (k, o) → (∀ x, ¬ w.In m k x) →
      ActStep w (.reserveInsert m a) (.flag true) (w.set a (some (k, some m)))
  | reservePresent {w m a k o x} : w a = some (k, o) → w.In m k x → ActStep w (.reserveInsert m a) (.flag false) w
  | replaceNew {w m a k o} : w a = some (k, o) → (∀ x, ¬ w.In m k x) →
      ActStep w (.replace m a) (.element none) (w.set a (some (k, some m)))
  | replaceSelf {w m a k} : w.In m k a → ActStep w (.replace m a) (.element none) w
  | replaceOther {w m a k o x} : w a = some (k, o) → w.In m k x → x ≠ a →
      ActStep w (.replace m a) (.element (some x)) ((w.set x (some (k, none))).set a (some (k, some m)))
  | remove {w m a k} : w.In m k a → ActStep w (.remove m a) .unit (w.set a (some (k, none)))
  | detach {w a k o} : w a = some (k, o) → ActStep w (.detach a) .unit (w.set a (some (k, none)))
  | destroy {w a k o} : w a = some (k, o) → ActStep w (.destroy a) .unit (w.set a none)
  | removeAll {w m} : ActStep w (.removeAll m) .unit (w.release m)
  | purge {w m} : ActStep w (.purge m) .unit (w.delete m)

/-- A history of allowed calls with their replies. -/
inductive History : World κ → List (Act κ) → List Reply → World κ → Prop
  | nil {w} : History w [] [] w
  | cons {w w' w'' c cs r rs} : ActStep w c r w' → History w' cs rs w'' → History w (c :: cs) (r :: rs) w''

/-- `o` is the member of `m` with the least key above `k`, or null if there is none. -/
def IsNext (lt : κ → κ → Bool) (w : World κ) (m : Nat) (k : κ) : Option Nat → Prop
  | none => ∀ x kx, w.In m kx x → lt k kx = false
  | some y => ∃ ky, w.In m ky y ∧ lt k ky = true ∧ ∀ x kx, w.In m kx x → lt k kx = true → lt kx ky = false

/-- `o` is the member of `m` with the greatest key below `k`, or null if there is none. -/
def IsPrevious (lt : κ → κ → Bool) (w : World κ) (m : Nat) (k : κ) : Option Nat → Prop :=
  IsNext (fun a b => lt b a) w m k

/-- `o` is the member of `m` with the least key, or null if there is none. -/
def IsFirst (lt : κ → κ → Bool) (w : World κ) (m : Nat) : Option Nat → Prop
  | none => ∀ x kx, ¬ w.In m kx x
  | some y => ∃ ky, w.In m ky y ∧ ∀ x kx, w.In m kx x → lt kx ky = false

/-- `o` is the member of `m` with the greatest key, or null if there is none. -/
def IsLast (lt : κ → κ → Bool) (w : World κ) (m : Nat) : Option Nat → Prop :=
  IsFirst (fun a b => lt b a) w m

end Verif.Spec
