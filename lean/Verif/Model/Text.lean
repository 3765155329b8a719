import Verif.Base

/-!
# Model of the text functions used by the parser (Code/Terathon/TSText.cpp)

`uint32` values are natural numbers. Conditions of the form `x - a < n` on unsigned
integers (which wrap below `a`) are written `a ≤ x ∧ x < a + n`.
-/

namespace Verif.Text

open Verif

/-- Read `text[i]`; reading outside the buffer is undefined behaviour. -/
def rd (t : Bytes) (i : Nat) : Out Byte :=
  match t[i]? with
  | some b => .ok b
  | none => .ub

/-- `Text::ValidateUnicodeChar`, TSText.cpp:21-68: byte length of the character at the
beginning of `t`, zero if there is none. -/
def validateUnicodeChar (t : Bytes) : Out Nat :=
  rd t 0 >>= fun c =>
  if c.toNat < 0x80 then .ok 1
  else
    let byte1 := c.toNat
    if 0xC2 ≤ byte1 ∧ byte1 < 0xC2 + 0x33 then
      rd t 1 >>= fun b2 =>
      let byte2 := b2.toNat
      if byte2 &&& 0xC0 = 0x80 then
        if byte1 < 0xE0 then .ok 2
        else
          rd t 2 >>= fun b3 =>
          let byte3 := b3.toNat
          if byte3 &&& 0xC0 = 0x80 then
            if byte1 < 0xF0 then
              let x := (byte1 <<< 12) &&& 0x00F000 ||| (byte2 <<< 6) &&& 0x000FC0 ||| byte3 &&& 0x00003F
              if 0x0800 ≤ x ∧ x < 0x0800 + 0xF800 then .ok 3 else .ok 0
            else
              rd t 3 >>= fun b4 =>
              let byte4 := b4.toNat
              if byte4 &&& 0xC0 = 0x80 then
                let x := (byte1 <<< 18) &&& 0x1C0000 ||| (byte2 <<< 12) &&& 0x03F000 |||
                  (byte3 <<< 6) &&& 0x000FC0 ||| byte4 &&& 0x00003F
                if 0x00010000 ≤ x ∧ x < 0x00010000 + 0x00100000 then .ok 4 else .ok 0
              else .ok 0
          else .ok 0
      else .ok 0
    else .ok 0

/-- `Text::ReadUnicodeChar`, TSText.cpp:70-122: (byte length, code). -/
def readUnicodeChar (t : Bytes) : Out (Nat × Nat) :=
  rd t 0 >>= fun c =>
  if c.toNat < 0x80 then .ok (1, c.toNat)
  else
    let byte1 := c.toNat
    if 0xC2 ≤ byte1 ∧ byte1 < 0xC2 + 0x33 then
      rd t 1 >>= fun b2 =>
      let byte2 := b2.toNat
      if byte2 &&& 0xC0 = 0x80 then
        if byte1 < 0xE0 then .ok (2, (byte1 <<< 6) &&& 0x0007C0 ||| byte2 &&& 0x00003F)
        else
          rd t 2 >>= fun b3 =>
          let byte3 := b3.toNat
          if byte3 &&& 0xC0 = 0x80 then
            if byte1 < 0xF0 then
              let x := (byte1 <<< 12) &&& 0x00F000 ||| (byte2 <<< 6) &&& 0x000FC0 ||| byte3 &&& 0x00003F
              if 0x0800 ≤ x ∧ x < 0x0800 + 0xF800 then .ok (3, x) else .ok (1, 0xFFFD)
            else
              rd t 3 >>= fun b4 =>
              let byte4 := b4.toNat
              if byte4 &&& 0xC0 = 0x80 then
                let x := (byte1 <<< 18) &&& 0x1C0000 ||| (byte2 <<< 12) &&& 0x03F000 |||
                  (byte3 <<< 6) &&& 0x000FC0 ||| byte4 &&& 0x00003F
                if 0x00010000 ≤ x ∧ x < 0x00010000 + 0x00100000 then .ok (4, x) else .ok (1, 0xFFFD)
              else .ok (1, 0xFFFD)
          else .ok (1, 0xFFFD)
      else .ok (1, 0xFFFD)
    else .ok (1, 0xFFFD)

/-- `Text::WriteUnicodeChar`, TSText.cpp:124-157: the bytes stored at `text`; their number
is the returned value. -/
def writeUnicodeChar (code : Nat) : Bytes :=
  if code ≤ 0x00007F then [UInt8.ofNat code]
  else if code ≤ 0x0007FF then
    [UInt8.ofNat ((code >>> 6) &&& 0x1F ||| 0xC0), UInt8.ofNat (code &&& 0x3F ||| 0x80)]
  else if code ≤ 0x00FFFF then
    [UInt8.ofNat ((code >>> 12) &&& 0x0F ||| 0xE0), UInt8.ofNat ((code >>> 6) &&& 0x3F ||| 0x80),
      UInt8.ofNat (code &&& 0x3F ||| 0x80)]
  else if code ≤ 0x10FFFF then
    [UInt8.ofNat ((code >>> 18) &&& 0x07 ||| 0xF0), UInt8.ofNat ((code >>> 12) &&& 0x3F ||| 0x80),
      UInt8.ofNat ((code >>> 6) &&& 0x3F ||| 0x80), UInt8.ofNat (code &&& 0x3F ||| 0x80)]
  else []

/-- `Text::GetUnicodeCharByteCount`, TSText.cpp:159-182. -/
def getUnicodeCharByteCount (code : Nat) : Nat :=
  if code ≤ 0x00007F then 1
  else if code ≤ 0x0007FF then 2
  else if code ≤ 0x00FFFF then 3
  else if code ≤ 0x10FFFF then 4
  else 0

/-- `Text::CompareText(s1, s2)`, TSText.cpp:646-666. -/
def compareText : Bytes → Bytes → Out Bool
  | x :: s1, y :: s2 => if x ≠ y then .ok false else if x = 0 then .ok true else compareText s1 s2
  | _, _ => .ub

/-- `Text::CompareTextLessThan(s1, s2)`, TSText.cpp:760-772. -/
def compareTextLessThan : Bytes → Bytes → Out Bool
  | x :: s1, y :: s2 =>
      if x ≠ y ∨ x = 0 then .ok (decide (x.toNat < y.toNat)) else compareTextLessThan s1 s2
  | _, _ => .ub

/-- `Text::CompareTextLessEqual(s1, s2)`, TSText.cpp:850-862. -/
def compareTextLessEqual : Bytes → Bytes → Out Bool
  | x :: s1, y :: s2 =>
      if x ≠ y ∨ x = 0 then .ok (decide (x.toNat ≤ y.toNat)) else compareTextLessEqual s1 s2
  | _, _ => .ub

/-- Order of member names in a map: `String<>::operator <` (TSString.h:355) is
`CompareTextLessThan` on the contents, i.e. on the bytes before the terminator. This is that
comparison on the contents; C40 relates it to the loop above. -/
def nameLt : Bytes → Bytes → Bool
  | [], [] => false
  | [], _ :: _ => true
  | _ :: _, [] => false
  | x :: a, y :: b => if x = y then nameLt a b else decide (x.toNat < y.toNat)

end Verif.Text
