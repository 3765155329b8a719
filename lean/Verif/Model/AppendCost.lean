import Verif.Model.Array
import Verif.Model.DynString

/-!
# Histories of appends with the number of copied elements and bytes

A step is the construction, move or copy of one element (or byte). Texts are read once by `GetTextLength` and once by `CopyText`.
-/

namespace Verif.AppendCost

open Verif Verif.Str Verif.Arr Verif.Dyn

/-- The steps of `AppendArrayElement(element)`, TSArray.h:579-594, 889-903: all elements are moved if the block is full (483-491, 794-801), and one is
constructed. -/
def arraySteps {α : Type} (a : Arr α) : Nat := (if a.count + 1 > a.reserved then a.count else 0) + 1

/-- The elements are appended one by one. -/
def appendElements {α : Type} : List α → Arr α → Out (Arr α × Nat)
  | [], a => .ok (a, 0)
  | x :: xs, a =>
      Arr.append true (.ext x) a >>= fun r =>
      if r.2 then .ub
      else appendElements xs r.1 >>= fun p => .ok (p.1, p.2 + arraySteps a)

/-- One use of `+=` on a `String<0>`; `g` is what a new block contains. -/
inductive Piece where
  | text (t : Bytes) (g : Nat → Byte)
  | char (k : Byte) (g : Nat → Byte)

/-- The bytes copied by `Text::CopyText(stringPointer, newPointer)`, TSString.cpp:475, 499. -/
def growSteps (size : Nat) (s : Dyn) : Nat := if size > s.physical then s.logical else 0

/-- `operator +=(const char *s)`, TSString.cpp:465-490, and `operator +=(char k)`, 492-513. -/
def Piece.run : Piece → Dyn → Out (Dyn × Nat)
  | .text t g, s =>
      getTextLength t >>= fun l =>
      appendText g (.ext t) s >>= fun s' =>
      .ok (s', (l + 1) + if l > 0 then growSteps (s.logical + l) s + (l + 1) else 0)
  | .char k g, s => appendChar g k s >>= fun s' => .ok (s', growSteps (s.logical + 1) s + 2)

/-- The pieces are appended one by one. -/
def appendPieces : List Piece → Dyn → Out (Dyn × Nat)
  | [], s => .ok (s, 0)
  | p :: ps, s => p.run s >>= fun r => appendPieces ps r.1 >>= fun q => .ok (q.1, q.2 + r.2)

end Verif.AppendCost
