import Verif.Spec.Json

/-!
# Specification: walking through a value

A path is a sequence of array indices and member names. Independent of the parser.
-/

namespace Verif.Spec

open Verif

/-- A step of a path. -/
inductive Step where
  | index (i : Nat)
  | member (name : Bytes)
  deriving DecidableEq

/-- One step in an abstract value; a repeated member name refers to its first occurrence. -/
def J.step : J → Step → Option J
  | .arr l, .index i => l.get i
  | .obj m, .member k => m.first k
  | _, _ => none

/-- A path in an abstract value. -/
def J.walk : J → List Step → Option J
  | j, [] => some j
  | j, s :: p => (j.step s).bind fun j => j.walk p

/-- `k` is the name of some member. -/
def JM.has (k : Bytes) (m : JM) : Prop := k ∈ m.names

end Verif.Spec
