import Verif.Base

/-!
# Specification of text positions

Lines are separated by the byte 10; lines and columns are counted from 1. Independent of the parser.
-/

namespace Verif.Spec

open Verif

/-- The bytes of a buffer before its first NUL (all of them if there is none). -/
def cstr (buf : Bytes) : Bytes := buf.takeWhile fun c => c ≠ 0

/-- Line of the position that follows the bytes `p`: one plus the number of newlines. -/
def lineOf (p : Bytes) : Nat := 1 + p.count 10

/-- Column of the position that follows the bytes `p`: one plus the number of bytes after the last
newline. -/
def colOf (p : Bytes) : Nat := 1 + (p.reverse.takeWhile fun c => c ≠ 10).length

end Verif.Spec
