import Verif.Spec.Walk
import Verif.Spec.Builtin

/-!
# Specification: JSON syntax with a number type of choice

The grammar of `Verif/Spec/Json.lean` with the type of numbers as a parameter, for the configuration where a number is not
determined by its exact decimal value. Independent of the parser.
-/

namespace Verif.Spec

open Verif

mutual
/-- Syntax trees with numbers in `ν`. -/
inductive Syn (ν : Type) where
  | null
  | bool (b : Bool)
  | num (x : ν)
  | str (s : Bytes)
  | arr (l : SynL ν)
  | obj (m : SynM ν)
/-- Array elements. -/
inductive SynL (ν : Type) where
  | nil
  | cons (j : Syn ν) (l : SynL ν)
/-- Object members in the order of the text. -/
inductive SynM (ν : Type) where
  | nil
  | cons (name : Bytes) (j : Syn ν) (m : SynM ν)
end

/-- Names of the members, in order. -/
def SynM.names {ν : Type} : SynM ν → List Bytes
  | .nil => []
  | .cons k _ m => k :: m.names

/-- The first member with a given name. -/
def SynM.first {ν : Type} (k : Bytes) : SynM ν → Option (Syn ν)
  | .nil => none
  | .cons k' j m => if k' = k then some j else m.first k

/-- Element at an index. -/
def SynL.get {ν : Type} : SynL ν → Nat → Option (Syn ν)
  | .nil, _ => none
  | .cons j _, 0 => some j
  | .cons _ l, i + 1 => l.get i

/-- Number of elements. -/
def SynL.length {ν : Type} : SynL ν → Nat
  | .nil => 0
  | .cons _ l => l.length + 1

/-- One step; a repeated member name refers to its first occurrence. -/
def Syn.step {ν : Type} : Syn ν → Step → Option (Syn ν)
  | .arr l, .index i => l.get i
  | .obj m, .member k => m.first k
  | _, _ => none

/-- A path. -/
def Syn.walk {ν : Type} : Syn ν → List Step → Option (Syn ν)
  | j, [] => some j
  | j, s :: p => (j.step s).bind fun j => j.walk p

section
variable {ν : Type} (numTok : Bytes → ν → Prop) (strTok : Bytes → Bytes → Prop)

mutual
/-- `value = false / null / true / object / array / number / string` -/
inductive SVal : Bytes → Syn ν → Prop
  | null : SVal [0x6E, 0x75, 0x6C, 0x6C] .null
  | true : SVal [0x74, 0x72, 0x75, 0x65] (.bool .true)
  | false : SVal [0x66, 0x61, 0x6C, 0x73, 0x65] (.bool .false)
  | num {t d} : numTok t d → SVal t (.num d)
  | str {t s} : strTok t s → SVal t (.str s)
  | arrEmpty {w} : Ws w → SVal (0x5B :: (w ++ [0x5D])) (.arr .nil)
  | arr {t l} : SElems t l → SVal (0x5B :: (t ++ [0x5D])) (.arr l)
  | objEmpty {w} : Ws w → SVal (0x7B :: (w ++ [0x7D])) (.obj .nil)
  | obj {t m} : SMembers t m → SVal (0x7B :: (t ++ [0x7D])) (.obj m)
/-- `value *( value-separator value )` with the surrounding whitespace -/
inductive SElems : Bytes → SynL ν → Prop
  | one {w1 t w2 j} : Ws w1 → SVal t j → Ws w2 → SElems (w1 ++ (t ++ w2)) (.cons j .nil)
  | cons {w1 t w2 j ts l} : Ws w1 → SVal t j → Ws w2 → SElems ts l →
      SElems (w1 ++ (t ++ (w2 ++ 0x2C :: ts))) (.cons j l)
/-- `member *( value-separator member )` with the surrounding whitespace -/
inductive SMembers : Bytes → SynM ν → Prop
  | one {w1 n w2 w3 t w4 s j} : Ws w1 → strTok n s → Ws w2 → Ws w3 → SVal t j → Ws w4 →
      SMembers (w1 ++ (n ++ (w2 ++ 0x3A :: (w3 ++ (t ++ w4))))) (.cons s j .nil)
  | cons {w1 n w2 w3 t w4 s j ts m} : Ws w1 → strTok n s → Ws w2 → Ws w3 → SVal t j → Ws w4 →
      SMembers ts m →
      SMembers (w1 ++ (n ++ (w2 ++ 0x3A :: (w3 ++ (t ++ (w4 ++ 0x2C :: ts)))))) (.cons s j m)
end

/-- `JSON-text = ws value ws` -/
def SynText (t : Bytes) (j : Syn ν) : Prop :=
  ∃ w1 v w2, Ws w1 ∧ SVal numTok strTok v j ∧ Ws w2 ∧ t = w1 ++ (v ++ w2)

end

/-- A signed literal: the sign and the text of the literal. -/
structure SignedLit where
  neg : Bool
  lit : Bytes
  deriving DecidableEq, Repr

/-- Number tokens of the configuration with the built-in reader: a sign, which whitespace may follow, and a literal with
underscores. -/
inductive SignedNum : Bytes → SignedLit → Prop
  | plain {p ip fp e} : UnderNum p ip fp e → SignedNum p ⟨false, p⟩
  | plus {w p ip fp e} : Ws w → UnderNum p ip fp e → SignedNum (0x2B :: (w ++ p)) ⟨false, p⟩
  | minus {w p ip fp e} : Ws w → UnderNum p ip fp e → SignedNum (0x2D :: (w ++ p)) ⟨true, p⟩

end Verif.Spec
