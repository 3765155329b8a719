import Verif.Model.Parser

/-!
# Model of the built-in number reader

`ReadDoubleLiteral` in the configuration `TERATHON_NO_SYSTEM` (C4Json.cpp:843-988), where the C library is
not used. The arithmetic on `double` is a parameter.
-/

namespace Verif.Builtin

open Verif Verif.Number

/-- The arithmetic the reader uses: small integers as `double`, sum, product, quotient, the literals `1eN` and the value of
`__builtin_huge_val()`. -/
structure Arith (D : Type) where
  ofNat : Nat → D
  add : D → D → D
  mul : D → D → D
  div : D → D → D
  lit : Int → D
  huge : D

/-- The table `minusPower10`, C4Json.cpp:538-556: 0.0, 1e-308, ..., 1e-1, 1.0. -/
def minusPower10 {D : Type} (A : Arith D) (i : Int) : Out D :=
  if i < 0 ∨ 310 ≤ i then .ub else if i = 0 then .ok (A.ofNat 0) else .ok (A.lit (i - 309))

/-- The table `plusPower10`, C4Json.cpp:558-588: 1.0, 1e1, ..., 1e308, huge. -/
def plusPower10 {D : Type} (A : Arith D) (i : Int) : Out D :=
  if i < 0 ∨ 310 ≤ i then .ub else if i = 309 then .ok A.huge else .ok (A.lit i)

/-- The three loops over digits and underscores (C4Json.cpp:851-878, 892-917, 947-968): `f` is the effect of a digit on the
value, `lz` whether a second digit is refused (first loop only), `dig` is `digitFlag`, `seen` is `wholeFlag` or
`fractionFlag`. The result is a status, or the value, the flags and the remaining text. -/
def digitLoop {S : Type} (f : S → Nat → S) (lz : Bool) : Bytes → S → Bool → Bool → Out (Status ⊕ (S × Bool × Bool × Bytes))
  | [], _, _, _ => .ub
  | c :: t, s, dig, seen =>
    if isDigit c then
      if dig && lz then .ok (.inl .kNumbersCannotHaveLeadingZeros)
      else digitLoop f lz t (f s (c.toNat - 48)) true true
    else if c = 95 then
      if !dig then .ok (.inl .kFloatInvalid) else digitLoop f lz t s false seen
    else .ok (.inr (s, dig, seen, c :: t))

/-- Sign of the exponent, C4Json.cpp:934-943: whether it is negative, and the text behind it. -/
def expSign : Bytes → Out (Bool × Bytes)
  | [] => .ub
  | c :: t => if c = 45 then .ok (true, t) else if c = 43 then .ok (false, t) else .ok (false, c :: t)

/-- The exponent, C4Json.cpp:930-983: the value times a power of ten. -/
def readExponent {D : Type} (A : Arith D) (v : D) (t : Bytes) : Out (Status ⊕ (D × Bytes)) :=
  expSign t >>= fun (negative, t) =>
  digitLoop (fun e x => min (e * 10 + x) 65535) false t (0 : Nat) false false >>= fun r =>
  match r with
  | .inl st => .ok (.inl st)
  | .inr (e, dig, _, t) =>
    if !dig then .ok (.inl .kFloatInvalid)
    else if negative then
      minusPower10 A (max (309 - (e : Int)) 0) >>= fun p => .ok (.inr (A.mul v p, t))
    else
      plusPower10 A (min (e : Int) 309) >>= fun p => .ok (.inr (A.mul v p, t))

/-- From the check whether there were digits to the end, C4Json.cpp:925-988. -/
def finish {D : Type} (A : Arith D) (v : D) (digits : Bool) : Bytes → Out (Status ⊕ (D × Bytes))
  | [] => .ub
  | c :: t =>
    if !digits then .ok (.inl .kFloatInvalid)
    else if c = 101 ∨ c = 69 then readExponent A v t
    else .ok (.inr (v, c :: t))

/-- From the decimal point to the end, C4Json.cpp:885-988. -/
def readFraction {D : Type} (A : Arith D) (v : D) (whole : Bool) : Bytes → Out (Status ⊕ (D × Bytes))
  | [] => .ub
  | c :: t =>
    if c = 46 then
      digitLoop (fun (s : D × D) x => (A.add s.1 (A.div (A.ofNat x) s.2), A.mul s.2 (A.ofNat 10))) false t
        (v, A.ofNat 10) false false >>= fun r =>
      match r with
      | .inl st => .ok (.inl st)
      | .inr (s, dig, fraction, t) =>
        if fraction && !dig then .ok (.inl .kFloatInvalid) else finish A s.1 (whole || fraction) t
    else finish A v whole (c :: t)

/-- `ReadDoubleLiteral`, C4Json.cpp:843-988: a status, or the value and the text behind the literal. -/
def readDouble {D : Type} (A : Arith D) : Bytes → Out (Status ⊕ (D × Bytes))
  | [] => .ub
  | c :: t =>
    digitLoop (fun v x => A.add (A.mul v (A.ofNat 10)) (A.ofNat x)) (c == 48) (c :: t) (A.ofNat 0) false false >>= fun r =>
    match r with
    | .inl st => .ok (.inl st)
    | .inr (v, dig, whole, t) =>
      if whole && !dig then .ok (.inl .kFloatInvalid) else readFraction A v whole t

end Verif.Builtin
