import Verif.Model.TextTools

/-!
# `Text::StaticHash`

Code/Terathon/TSText.h:391-413, the hash of a literal computed by the compiler. The parameter `sc` says whether `char` is a
signed type (it is on x86; it is not with the usual settings on ARM).
-/

namespace Verif.Tools

open Verif Verif.Text

/-- A `char` converted to `uint32` (the operand of `^`, line 401). -/
def charWord (sc : Bool) (c : Byte) : UInt32 := if sc && 128 ≤ c.toNat then c.toUInt32 ||| 0xFFFFFF00 else c.toUInt32

/-- `H<c, h>::hash`, TSText.h:396-403; the product is computed with 64 bits. -/
def staticStep (sc : Bool) (h : UInt32) (c : Byte) : UInt32 :=
  if c = 0 then h else ((h ^^^ charWord sc c).toUInt64 * 0x6B84DF47 + 1).toUInt32

/-- `StaticHash<c0, ..., c16>::value`, TSText.h:391-411, for at most 17 characters; the others are 0. -/
def staticHash (sc : Bool) (s : Bytes) : UInt32 := (s ++ List.replicate (17 - s.length) 0).foldl (staticStep sc) 0

end Verif.Tools
