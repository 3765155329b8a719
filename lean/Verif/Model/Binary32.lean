import Verif.Model.Binary64

/-!
# Model of `float` and its arithmetic

IEEE-754 binary32 with every operation rounded to nearest, ties to even, and no excess precision or contraction, as the scalar
SSE instructions and the operators of C++ on `float` compute on x86-64. Every NaN is the same. A float is also given by its 32
bits, as in `Model/FloatText`.
-/

namespace Verif.B32

open Verif
open Verif.B64 (rne)

/-- A `float`. `fin neg m q` is `± m * 2^q * 2^(-149)`; the representatives of the finite floats have `m < 2^24`, and
`2^23 ≤ m` unless `q = 0`. -/
inductive Flt where
  | fin (neg : Bool) (m q : Nat)
  | inf (neg : Bool)
  | nan
  deriving DecidableEq, Repr

/-- A rounded significand and exponent as a float; values that are too large become infinite. -/
def pack (neg : Bool) (m q : Nat) : Flt :=
  if m = 2 ^ 24 then (if q + 1 ≤ 253 then .fin neg (2 ^ 23) (q + 1) else .inf neg)
  else if q ≤ 253 then .fin neg m q else .inf neg

/-- The float nearest to `(num / den) * 2^(-149)`: 24 significant bits, or all bits above `2^(-149)`. -/
def round (neg : Bool) (num den : Nat) : Flt :=
  pack neg (rne num (den * 2 ^ ((num / den).log2 - 23))) ((num / den).log2 - 23)

/-- Unary minus. -/
def neg : Flt → Flt
  | .fin s m q => .fin (!s) m q
  | .inf s => .inf (!s)
  | .nan => .nan

/-- Sum. -/
def add : Flt → Flt → Flt
  | .nan, _ => .nan
  | _, .nan => .nan
  | .inf s, .inf s' => if s = s' then .inf s else .nan
  | .inf s, .fin .. => .inf s
  | .fin .., .inf s => .inf s
  | .fin s m q, .fin s' m' q' =>
    if s = s' then round s (m * 2 ^ q + m' * 2 ^ q') 1
    else if m * 2 ^ q = m' * 2 ^ q' then .fin false 0 0
    else if m' * 2 ^ q' < m * 2 ^ q then round s (m * 2 ^ q - m' * 2 ^ q') 1
    else round s' (m' * 2 ^ q' - m * 2 ^ q) 1

/-- Difference. -/
def sub (x y : Flt) : Flt := add x (neg y)

/-- Product. -/
def mul : Flt → Flt → Flt
  | .nan, _ => .nan
  | _, .nan => .nan
  | .inf s, .inf s' => .inf (s != s')
  | .inf s, .fin s' m _ => if m = 0 then .nan else .inf (s != s')
  | .fin s m _, .inf s' => if m = 0 then .nan else .inf (s != s')
  | .fin s m q, .fin s' m' q' => round (s != s') (m * 2 ^ q * (m' * 2 ^ q')) (2 ^ 149)

/-- Quotient. -/
def div : Flt → Flt → Flt
  | .nan, _ => .nan
  | _, .nan => .nan
  | .inf _, .inf _ => .nan
  | .inf s, .fin s' _ _ => .inf (s != s')
  | .fin s _ _, .inf s' => .fin (s != s') 0 0
  | .fin s m q, .fin s' m' q' =>
    if m' = 0 then (if m = 0 then .nan else .inf (s != s'))
    else round (s != s') (m * 2 ^ q * 2 ^ 149) (m' * 2 ^ q')

/-- The value of a finite float, multiplied by `2^149`. -/
def scaled (s : Bool) (m q : Nat) : Int := if s then -(m * 2 ^ q : Nat) else (m * 2 ^ q : Nat)

/-- `x < y`; false if one of them is NaN. -/
def lt : Flt → Flt → Bool
  | .nan, _ => false
  | _, .nan => false
  | .inf s, .inf s' => s && !s'
  | .inf s, .fin .. => s
  | .fin .., .inf s => !s
  | .fin s m q, .fin s' m' q' => decide (scaled s m q < scaled s' m' q')

/-- The float with the given bits. -/
def ofBits (b : Nat) : Flt :=
  let s := decide (2 ^ 31 ≤ b % 2 ^ 32)
  if b / 2 ^ 23 % 256 = 255 then (if b % 2 ^ 23 = 0 then .inf s else .nan)
  else if b / 2 ^ 23 % 256 = 0 then .fin s (b % 2 ^ 23) 0
  else .fin s (2 ^ 23 + b % 2 ^ 23) (b / 2 ^ 23 % 256 - 1)

/-- The bits of a float. -/
def toBits : Flt → Nat
  | .fin s m q => (if s then 2 ^ 31 else 0) + (if m < 2 ^ 23 then m else m - 2 ^ 23 + (q + 1) * 2 ^ 23)
  | .inf s => (if s then 2 ^ 31 else 0) + 255 * 2 ^ 23
  | .nan => 0x7FFFFFFF

/-- The float nearest to an integer: conversion of `int32` to `float`. -/
def ofInt (n : Int) : Flt := round (decide (n < 0)) (n.natAbs * 2 ^ 149) 1

/-- Conversion of `float` to `int32`, which drops the fraction and is undefined if the result does not fit. -/
def toInt : Flt → Out Int
  | .fin s m q =>
    let n : Int := (m * 2 ^ q / 2 ^ 149 : Nat)
    let n := if s then -n else n
    if -2147483648 ≤ n ∧ n ≤ 2147483647 then .ok n else .ub
  | _ => .ub

end Verif.B32
