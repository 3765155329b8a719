/-!
# Specification of finite maps

Independent of the tree: a finite map is a partial function; a history is a list of
operations.
-/

namespace Verif.Spec

/-- `lt` is a strict total order. -/
structure StrictTotal {κ : Type} (lt : κ → κ → Bool) : Prop where
  irrefl : ∀ a, lt a a = false
  trans : ∀ a b c, lt a b = true → lt b c = true → lt a c = true
  total : ∀ a b, lt a b = false → lt b a = false → a = b

/-- An abstract map. -/
abbrev AMap (κ α : Type) := κ → Option α

variable {κ α : Type} [DecidableEq κ]

/-- The map with no key. -/
def AMap.empty : AMap κ α := fun _ => none

/-- Insert a key unless it is present. -/
def AMap.insertNew (m : AMap κ α) (k : κ) (v : α) : AMap κ α :=
  fun x => if x = k ∧ m k = none then some v else m x

/-- Insert or overwrite. -/
def AMap.put (m : AMap κ α) (k : κ) (v : α) : AMap κ α :=
  fun x => if x = k then some v else m x

/-- Forget a key. -/
def AMap.erase (m : AMap κ α) (k : κ) : AMap κ α :=
  fun x => if x = k then none else m x

/-- Operations of a history. -/
inductive MapOp (κ α : Type) where
  | insert (k : κ) (v : α)
  | remove (k : κ)

/-- Effect of an operation. -/
def AMap.apply (m : AMap κ α) : MapOp κ α → AMap κ α
  | .insert k v => m.insertNew k v
  | .remove k => m.erase k

/-- Effect of a history on the empty map. -/
def AMap.run (ops : List (MapOp κ α)) : AMap κ α := ops.foldl AMap.apply AMap.empty

end Verif.Spec
