/-!
# Specification of the order of C strings: lexicographic by unsigned byte
-/

namespace Verif.Spec

/-- `a` is a proper prefix of `b`, or at the first difference `a` has the smaller byte. -/
def LexLt (a b : List UInt8) : Prop :=
  (∃ y s, b = a ++ y :: s) ∨
  (∃ p x y s t, a = p ++ x :: s ∧ b = p ++ y :: t ∧ x.toNat < y.toNat)

end Verif.Spec
