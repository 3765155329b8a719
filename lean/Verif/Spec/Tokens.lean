import Verif.Spec.Json

/-!
# Specification: the tokens of a text

An independent scanner that cuts a text into structural characters, string literals and the remaining
words, dropping the whitespace around structural characters, around strings, and at both ends. (Whitespace
inside a word, as in `1 2`, belongs to the word.)
-/

namespace Verif.Spec

open Verif

inductive Tok where
  | punct (c : Byte)
  | str (raw : Bytes)
  | word (raw : Bytes)
  deriving DecidableEq

/-- The token as written. -/
def Tok.raw : Tok → Bytes
  | .punct c => [c]
  | .str r => r
  | .word r => r

/-- `[ ] { } : ,` -/
def IsPunct (c : Byte) : Prop := c ∈ ([0x5B, 0x5D, 0x7B, 0x7D, 0x3A, 0x2C] : Bytes)

/-- Whitespace. -/
def IsBlank (c : Byte) : Prop := c ∈ ([0x20, 0x09, 0x0A, 0x0D] : Bytes)

instance (c : Byte) : Decidable (IsPunct c) := by unfold IsPunct; infer_instance
instance (c : Byte) : Decidable (IsBlank c) := by unfold IsBlank; infer_instance

/-- Scanner state: between tokens; in a word, with the whitespace seen after it; in a string; after a backslash
in a string. -/
inductive Scan where
  | between (done : List Tok)
  | word (done : List Tok) (w blank : Bytes)
  | str (done : List Tok) (s : Bytes)
  | esc (done : List Tok) (s : Bytes)
  deriving DecidableEq

def Scan.step : Scan → Byte → Scan
  | .between d, c =>
      if IsBlank c then .between d
      else if IsPunct c then .between (d ++ [.punct c])
      else if c = 0x22 then .str d [c]
      else .word d [c] []
  | .word d w b, c =>
      if IsBlank c then .word d w (b ++ [c])
      else if IsPunct c then .between (d ++ [.word w, .punct c])
      else if c = 0x22 then .str (d ++ [.word w]) [c]
      else .word d (w ++ (b ++ [c])) []
  | .str d s, c =>
      if c = 0x22 then .between (d ++ [.str (s ++ [c])])
      else if c = 0x5C then .esc d (s ++ [c])
      else .str d (s ++ [c])
  | .esc d s, c => .str d (s ++ [c])

def Scan.finish : Scan → Option (List Tok)
  | .between d => some d
  | .word d w _ => some (d ++ [.word w])
  | .str _ _ => none
  | .esc _ _ => none

/-- State after a text. -/
def scan (s : Scan) (t : Bytes) : Scan := t.foldl Scan.step s

/-- The tokens of a text; none if it ends inside a string. -/
def tokens (t : Bytes) : Option (List Tok) := (scan (.between []) t).finish

/-- Does the text end inside a string? -/
def Scan.inString : Scan → Bool
  | .str _ _ => true
  | .esc _ _ => true
  | _ => false

/-- A place between `a` and `b` where JSON allows whitespace: not inside a string, and at the beginning or
the end of the text or next to a structural character. -/
def Gap (a b : Bytes) : Prop :=
  (scan (.between []) a).inString = false ∧
  (a = [] ∨ b = [] ∨ (∃ p c, a = p ++ [c] ∧ IsPunct c) ∨ ∃ c s, b = c :: s ∧ IsPunct c)

end Verif.Spec
