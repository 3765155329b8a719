import Verif.Base
import Verif.Spec.Utf8

/-!
# Specification of JSON texts

A generic grammar (RFC 8259, sections 2-5) over two token relations, for numbers and for
strings. With the tokens of RFC 8259 (sections 6 and 7) it is the RFC grammar; with the tokens
of the dialect it is the language the parser is proved to accept (`Verif/Props/Parser.lean`).
Independent of the parser.
-/

namespace Verif.Spec

open Verif

/-- An exact decimal number `± mantissa * 10 ^ exponent`. -/
structure Dec where
  neg : Bool
  mantissa : Nat
  exponent : Int
  deriving DecidableEq, Repr

/-! ## Abstract values -/

mutual
/-- The value a JSON text denotes. Strings are given by their UTF-8 bytes; members of an object
are listed in the order of the text, repeated names included. -/
inductive J where
  | null
  | bool (b : Bool)
  | num (d : Dec)
  | str (s : Bytes)
  | arr (l : JL)
  | obj (m : JM)
/-- Array elements. -/
inductive JL where
  | nil
  | cons (j : J) (l : JL)
/-- Object members. -/
inductive JM where
  | nil
  | cons (name : Bytes) (j : J) (m : JM)
end

/-- Names of the members, in order. -/
def JM.names : JM → List Bytes
  | .nil => []
  | .cons k _ m => k :: m.names

/-- The first member with a given name. -/
def JM.first (k : Bytes) : JM → Option J
  | .nil => none
  | .cons k' j m => if k' = k then some j else m.first k

/-- Element at an index. -/
def JL.get : JL → Nat → Option J
  | .nil, _ => none
  | .cons j _, 0 => some j
  | .cons _ l, i + 1 => l.get i

/-- Number of elements. -/
def JL.length : JL → Nat
  | .nil => 0
  | .cons _ l => l.length + 1

/-! ## Grammar -/

/-- `ws = *( %x20 / %x09 / %x0A / %x0D )` -/
def Ws (w : Bytes) : Prop := ∀ c ∈ w, c = 0x20 ∨ c = 0x09 ∨ c = 0x0A ∨ c = 0x0D

section
variable (numTok : Bytes → Dec → Prop) (strTok : Bytes → Bytes → Prop)

mutual
/-- `value = false / null / true / object / array / number / string` -/
inductive Val : Bytes → J → Prop
  | null : Val [0x6E, 0x75, 0x6C, 0x6C] .null
  | true : Val [0x74, 0x72, 0x75, 0x65] (.bool .true)
  | false : Val [0x66, 0x61, 0x6C, 0x73, 0x65] (.bool .false)
  | num {t d} : numTok t d → Val t (.num d)
  | str {t s} : strTok t s → Val t (.str s)
  | arrEmpty {w} : Ws w → Val (0x5B :: (w ++ [0x5D])) (.arr .nil)
  | arr {t l} : Elems t l → Val (0x5B :: (t ++ [0x5D])) (.arr l)
  | objEmpty {w} : Ws w → Val (0x7B :: (w ++ [0x7D])) (.obj .nil)
  | obj {t m} : Members t m → Val (0x7B :: (t ++ [0x7D])) (.obj m)
/-- `value *( value-separator value )` with the surrounding whitespace -/
inductive Elems : Bytes → JL → Prop
  | one {w1 t w2 j} : Ws w1 → Val t j → Ws w2 → Elems (w1 ++ (t ++ w2)) (.cons j .nil)
  | cons {w1 t w2 j ts l} : Ws w1 → Val t j → Ws w2 → Elems ts l →
      Elems (w1 ++ (t ++ (w2 ++ 0x2C :: ts))) (.cons j l)
/-- `member *( value-separator member )` with the surrounding whitespace -/
inductive Members : Bytes → JM → Prop
  | one {w1 n w2 w3 t w4 s j} : Ws w1 → strTok n s → Ws w2 → Ws w3 → Val t j → Ws w4 →
      Members (w1 ++ (n ++ (w2 ++ 0x3A :: (w3 ++ (t ++ w4))))) (.cons s j .nil)
  | cons {w1 n w2 w3 t w4 s j ts m} : Ws w1 → strTok n s → Ws w2 → Ws w3 → Val t j → Ws w4 →
      Members ts m →
      Members (w1 ++ (n ++ (w2 ++ 0x3A :: (w3 ++ (t ++ (w4 ++ 0x2C :: ts)))))) (.cons s j m)
end

/-- `JSON-text = ws value ws` -/
def JsonText (t : Bytes) (j : J) : Prop :=
  ∃ w1 v w2, Ws w1 ∧ Val numTok strTok v j ∧ Ws w2 ∧ t = w1 ++ (v ++ w2)

end

/-! ## Numbers -/

/-- A decimal digit. -/
def Digit (c : Byte) : Prop := 0x30 ≤ c.toNat ∧ c.toNat ≤ 0x39

/-- Value of a string of digits. -/
def decimal : Bytes → Nat
  | [] => 0
  | c :: ds => (c.toNat - 0x30) * 10 ^ ds.length + decimal ds

/-- `exp = e [ minus / plus ] 1*DIGIT`, or nothing. -/
inductive RfcExp : Bytes → Int → Prop
  | none : RfcExp [] 0
  | unsigned {c ds} : c = 0x65 ∨ c = 0x45 → ds ≠ [] → (∀ d ∈ ds, Digit d) →
      RfcExp (c :: ds) (decimal ds)
  | plus {c ds} : c = 0x65 ∨ c = 0x45 → ds ≠ [] → (∀ d ∈ ds, Digit d) →
      RfcExp (c :: 0x2B :: ds) (decimal ds)
  | minus {c ds} : c = 0x65 ∨ c = 0x45 → ds ≠ [] → (∀ d ∈ ds, Digit d) →
      RfcExp (c :: 0x2D :: ds) (-(decimal ds : Int))

/-- `frac = decimal-point 1*DIGIT`, or nothing: the token and its digits. -/
inductive RfcFrac : Bytes → Bytes → Prop
  | none : RfcFrac [] []
  | some {ds} : ds ≠ [] → (∀ d ∈ ds, Digit d) → RfcFrac (0x2E :: ds) ds

/-- `int = zero / ( digit1-9 *DIGIT )` -/
inductive RfcInt : Bytes → Prop
  | zero : RfcInt [0x30]
  | pos {c ds} : Digit c → c ≠ 0x30 → (∀ d ∈ ds, Digit d) → RfcInt (c :: ds)

/-- `number = [ minus ] int [ frac ] [ exp ]` and the number it denotes. -/
inductive RfcNum : Bytes → Dec → Prop
  | pos {i ft fd et e} : RfcInt i → RfcFrac ft fd → RfcExp et e →
      RfcNum (i ++ (ft ++ et)) ⟨false, decimal (i ++ fd), e - fd.length⟩
  | neg {i ft fd et e} : RfcInt i → RfcFrac ft fd → RfcExp et e →
      RfcNum (0x2D :: (i ++ (ft ++ et))) ⟨true, decimal (i ++ fd), e - fd.length⟩

/-! ## Strings -/

/-- Value of a hexadecimal digit. -/
def hexVal (c : Byte) : Option Nat :=
  if 0x30 ≤ c.toNat ∧ c.toNat ≤ 0x39 then some (c.toNat - 0x30)
  else if 0x41 ≤ c.toNat ∧ c.toNat ≤ 0x46 then some (c.toNat - 0x41 + 10)
  else if 0x61 ≤ c.toNat ∧ c.toNat ≤ 0x66 then some (c.toNat - 0x61 + 10)
  else none

/-- An item of a string token: a literal character, a two-character escape, or `\uXXXX`. -/
inductive SItem where
  | lit (cp : Nat)
  | esc (c : Byte)
  | uni (a b c d : Byte)
  deriving DecidableEq

/-- Character denoted by a two-character escape. -/
def escVal (c : Byte) : Option Nat :=
  if c = 0x22 then some 0x22 else if c = 0x5C then some 0x5C else if c = 0x2F then some 0x2F
  else if c = 0x62 then some 0x08 else if c = 0x66 then some 0x0C else if c = 0x6E then some 0x0A
  else if c = 0x72 then some 0x0D else if c = 0x74 then some 0x09 else none

/-- The item as written in the text. -/
def SItem.raw : SItem → Bytes
  | .lit cp => utf8 cp
  | .esc c => [0x5C, c]
  | .uni a b c d => [0x5C, 0x75, a, b, c, d]

/-- The code (code point or UTF-16 code unit) denoted by an item. -/
def SItem.code : SItem → Option Nat
  | .lit cp => some cp
  | .esc c => escVal c
  | .uni a b c d => do
      let a ← hexVal a
      let b ← hexVal b
      let c ← hexVal c
      let d ← hexVal d
      some (a * 4096 + b * 256 + c * 16 + d)

/-- `char` of RFC 8259: an unescaped scalar value, an escape, or `\uXXXX`. -/
def RfcItem (i : SItem) : Prop :=
  (∃ c, i.code = some c) ∧
  match i with
  | .lit cp => IsScalar cp ∧ 0x20 ≤ cp ∧ cp ≠ 0x22 ∧ cp ≠ 0x5C
  | _ => True

/-- Is this item a `\u` escape with a code in a given range? -/
def SItem.uniIn (lo hi : Nat) : SItem → Option Nat
  | .uni a b c d =>
      match (SItem.uni a b c d).code with
      | some x => if lo ≤ x ∧ x < hi then some x else none
      | none => none
  | _ => none

/-- Characters denoted by a sequence of items: an escaped high surrogate followed by an escaped low
surrogate is one supplementary character (RFC 8259, section 7); every other item stands for itself. -/
def rfcCodes : List SItem → List Nat
  | [] => []
  | [i] => [i.code.getD 0]
  | i :: i' :: is =>
      match i.uniIn 0xD800 0xDC00, i'.uniIn 0xDC00 0xE000 with
      | some hi, some lo => (0x10000 + (hi - 0xD800) * 0x400 + (lo - 0xDC00)) :: rfcCodes is
      | _, _ => i.code.getD 0 :: rfcCodes (i' :: is)

/-- `string = quotation-mark *char quotation-mark` and the UTF-8 bytes of its characters. -/
def RfcStr (t : Bytes) (s : Bytes) : Prop :=
  ∃ items : List SItem, (∀ i ∈ items, RfcItem i) ∧
    t = 0x22 :: ((items.map SItem.raw).flatten ++ [0x22]) ∧ s = utf8s (rfcCodes items)

/-- RFC 8259 texts. -/
def RfcText : Bytes → J → Prop := JsonText RfcNum RfcStr

/-! ## The dialect of the parser -/

/-- Items the parser takes in a string: as RFC 8259, plus encoded surrogates, minus DEL and `\u0000`. -/
def DialItem (i : SItem) : Prop :=
  match i with
  | .lit cp => cp < 0x110000 ∧ 0x20 ≤ cp ∧ cp ≠ 0x22 ∧ cp ≠ 0x5C ∧ cp ≠ 0x7F
  | .esc c => ∃ x, escVal c = some x
  | .uni a b c d => ∃ x, (SItem.uni a b c d).code = some x ∧ x ≠ 0

/-- Every item stands for itself. -/
def plainCodes (items : List SItem) : List Nat := items.map fun i => i.code.getD 0

/-- String tokens of the dialect. -/
def DialStr (t : Bytes) (s : Bytes) : Prop :=
  ∃ items : List SItem, (∀ i ∈ items, DialItem i) ∧
    t = 0x22 :: ((items.map SItem.raw).flatten ++ [0x22]) ∧ s = utf8s (plainCodes items)

/-- A number as `strtod` takes it: optional sign, digits with at most one decimal point and at least
one digit, optional exponent. -/
inductive LooseNum : Bytes → Dec → Prop
  | mk {sg ip pf fp et neg e} :
      (sg = [] ∧ neg = false ∨ sg = [0x2B] ∧ neg = false ∨ sg = [0x2D] ∧ neg = true) →
      (∀ d ∈ ip, Digit d) → (∀ d ∈ fp, Digit d) → (pf = [] ∧ fp = [] ∨ pf = 0x2E :: fp) →
      ip ++ fp ≠ [] → RfcExp et e →
      LooseNum (sg ++ (ip ++ (pf ++ et))) ⟨neg, decimal (ip ++ fp), e - fp.length⟩

/-- A character that may occur in a number: `0-9 . e E + -`. -/
def NumChar (c : Byte) : Prop :=
  Digit c ∨ c = 0x2E ∨ c = 0x65 ∨ c = 0x45 ∨ c = 0x2B ∨ c = 0x2D

/-- `p` is the longest prefix of `run` that is a number, and it denotes `d` (the rule of `strtod`). -/
def LongestNum (run : Bytes) (d : Dec) : Prop :=
  ∃ p junk, run = p ++ junk ∧ LooseNum p d ∧
    ∀ p' junk' d', run = p' ++ junk' → LooseNum p' d' → p'.length ≤ p.length

/-- Number tokens of the dialect: an optional sign followed by optional whitespace, then a run of
number characters that begins with a number, possibly followed by junk that is ignored. A run
beginning with 0 must be just 0 or continue with a decimal point. Without the leading sign the run does
not begin with a sign. -/
inductive DialNum : Bytes → Dec → Prop
  | plain {run d} : (∀ c ∈ run, NumChar c) → LongestNum run d →
      (∀ r, run ≠ 0x2B :: r) → (∀ r, run ≠ 0x2D :: r) →
      (∀ c r, run = 0x30 :: c :: r → c = 0x2E) → DialNum run d
  | plus {w run d} : Ws w → (∀ c ∈ run, NumChar c) → LongestNum run d →
      (∀ c r, run = 0x30 :: c :: r → c = 0x2E) → DialNum (0x2B :: (w ++ run)) d
  | minus {w run neg m e} : Ws w → (∀ c ∈ run, NumChar c) → LongestNum run ⟨neg, m, e⟩ →
      (∀ c r, run = 0x30 :: c :: r → c = 0x2E) → DialNum (0x2D :: (w ++ run)) ⟨!neg, m, e⟩

/-- Texts of the dialect. -/
def DialText : Bytes → J → Prop := JsonText DialNum DialStr

end Verif.Spec
