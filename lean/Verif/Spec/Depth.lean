import Verif.Spec.Json

/-! # Depth of documents and brackets in texts -/

namespace Verif.Spec

open Verif

mutual
/-- The number of values inside one another, the value itself included. -/
def depth : J → Nat
  | .arr l => depthL l + 1
  | .obj m => depthM m + 1
  | _ => 1
/-- The deepest element. -/
def depthL : JL → Nat
  | .nil => 0
  | .cons j l => max (depth j) (depthL l)
/-- The deepest member. -/
def depthM : JM → Nat
  | .nil => 0
  | .cons _ j m => max (depth j) (depthM m)
end

/-- The number of opening brackets in a text. -/
def opens (t : Bytes) : Nat := t.count 91 + t.count 123

end Verif.Spec
