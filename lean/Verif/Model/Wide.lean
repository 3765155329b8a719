import Verif.Model.DynString

/-!
# Model of the UTF-16 conversions and the counting functions (Code/Terathon/TSText.cpp:184-475)

A `const uint16 *` is the list of units from the pointer to the end of the buffer, a destination is a block with the
position of the pointer in it. `int32` counts are natural numbers, except where they may become negative. A pointer moved
past the end of its buffer is modelled as pointing to the empty list (moving it there is already undefined in C++; the
model reports it at the next access).
-/

namespace Verif.Wide

open Verif Verif.Text Verif.Str

/-- A 16-bit unit. -/
abbrev Unit16 := UInt16

/-- 16-bit text. -/
abbrev Units := List UInt16

/-- Store one unit. -/
def wr16 (b : Units) (i : Nat) (v : UInt16) : Out Units :=
  if i < b.length then .ok (b.set i v) else .ub

/-- What the head of the loops over 16-bit text finds. -/
inductive Head where
  | stop
  | skip (rest : Units)
  | char (code : Nat) (rest : Units)

/-- The head of the loops, TSText.cpp:336-368 and 380-412 (the same text twice). -/
def wideHead : Units → Out Head
  | [] => .ub
  | c :: rest =>
      if c.toNat = 0 then .ok .stop
      else if 0xD800 ≤ c.toNat ∧ c.toNat < 0xD800 + 0x0800 then
        if 0x0400 ≤ c.toNat - 0xD800 then .ok (.skip rest)
        else
          match rest with
          | [] => .ub
          | d :: rest' =>
              if 0xDC00 ≤ d.toNat ∧ d.toNat < 0xDC00 + 0x0400 then
                .ok (.char (((c.toNat - 0xD800) <<< 10 ||| (d.toNat - 0xDC00)) + 0x010000) rest')
              else .ok (.skip rest)
      else .ok (.char c.toNat rest)

/-- `Text::GetUnicodeStringLength`, TSText.cpp:331-374. -/
def getUnicodeStringLength : Nat → Units → Nat → Out Nat
  | 0, _, _ => .fuel
  | n + 1, t, length =>
      wideHead t >>= fun s =>
      match s with
      | .stop => .ok length
      | .skip rest => getUnicodeStringLength n rest length
      | .char code rest => getUnicodeStringLength n rest (length + getUnicodeCharByteCount code)

/-- `Text::ConvertWideTextToString`, TSText.cpp:376-425. -/
def convertWideTextToString : Nat → Units → Nat → Nat → Bytes → Out Bytes
  | 0, _, _, _, _ => .fuel
  | n + 1, t, pos, max, b =>
      wideHead t >>= fun s =>
      match s with
      | .stop => wr b pos 0
      | .skip rest => convertWideTextToString n rest pos max b
      | .char code rest =>
          if getUnicodeCharByteCount code > max then wr b pos 0
          else
            Dyn.wrAll (writeUnicodeChar code) pos b >>= fun b =>
            convertWideTextToString n rest (pos + (writeUnicodeChar code).length)
              (max - getUnicodeCharByteCount code) b

/-- `Text::GetWideTextCharCount`, TSText.cpp:427-444. -/
def getWideTextCharCount : Nat → Bytes → Nat → Out Nat
  | 0, _, _ => .fuel
  | n + 1, t, count =>
      readUnicodeChar t >>= fun (k, code) =>
      if code = 0 then .ok count
      else getWideTextCharCount n (t.drop k) (count + (1 + if 0x010000 ≤ code then 1 else 0))

/-- `Text::ConvertStringToWideText`, TSText.cpp:446-475. -/
def convertStringToWideText : Nat → Bytes → Nat → Int → Units → Out Units
  | 0, _, _, _, _ => .fuel
  | n + 1, t, pos, max, b =>
      if max > 0 then
        readUnicodeChar t >>= fun (k, code) =>
        if code = 0 then wr16 b pos 0
        else if code < 0x010000 then
          wr16 b pos (UInt16.ofNat code) >>= fun b => convertStringToWideText n (t.drop k) (pos + 1) (max - 1) b
        else
          wr16 b pos (UInt16.ofNat (((code - 0x010000) >>> 10) + 0xD800)) >>= fun b =>
          wr16 b (pos + 1) (UInt16.ofNat (((code - 0x010000) &&& 0x03FF) + 0xDC00)) >>= fun b =>
          convertStringToWideText n (t.drop k) (pos + 2) (max - 2) b
      else wr16 b pos 0

/-- Fuel that suffices for a text. -/
def fuelFor {α : Type} (t : List α) : Nat := t.length + 1

/-- `String<0>::String(const uint16 *s)`, TSString.cpp:159-187. -/
def newWide (g : Nat → Byte) (t : Units) : Out Dyn.Dyn :=
  getUnicodeStringLength (fuelFor t) t 0 >>= fun length =>
  if length > 0 then
    let s := Dyn.alloc g (length + 1)
    convertWideTextToString (fuelFor t) t 0 length s.data >>= fun b => .ok (s.store b)
  else .ok Dyn.newEmpty

/-! ## Counting -/

/-- The step of the counting functions, TSText.cpp:195-210, 228-243, 267-290 and 304-323, by the first byte. -/
def charStep (c : Byte) : Nat :=
  if c.toNat < 0xC0 ∨ 0xF8 ≤ c.toNat then 1
  else if c.toNat < 0xE0 then 2
  else if c.toNat < 0xF0 then 3
  else 4

/-- `Text::GetUnicodeCharCount(const char *)`, TSText.cpp:184-214. -/
def getUnicodeCharCount : Nat → Bytes → Nat → Out Nat
  | 0, _, _ => .fuel
  | n + 1, t, count =>
      rd t 0 >>= fun c =>
      if c = 0 then .ok count else getUnicodeCharCount n (t.drop (charStep c)) (count + 1)

/-- `Text::GetUnicodeCharCount(const char *, int32 max)`, TSText.cpp:216-247; `left` is `end - text`. -/
def getUnicodeCharCountMax : Nat → Bytes → Int → Nat → Out Nat
  | 0, _, _, _ => .fuel
  | n + 1, t, left, count =>
      if left > 0 then
        rd t 0 >>= fun c =>
        if c = 0 then .ok count else getUnicodeCharCountMax n (t.drop (charStep c)) (left - charStep c) (count + 1)
      else .ok count

/-- `Text::GetPreviousUnicodeCharByteCount`, TSText.cpp:249-263. `before` are the bytes before the pointer, the nearest
first. -/
def getPreviousUnicodeCharByteCount : Bytes → Nat → Nat → Out Nat
  | _, 0, count => .ok count
  | [], _ + 1, _ => .ub
  | c :: before, max + 1, count =>
      if 0x80 ≤ c.toNat ∧ c.toNat < 0x80 + 0x40 then getPreviousUnicodeCharByteCount before max (count + 1)
      else .ok (count + 1)

/-- `Text::GetNextUnicodeCharByteCount`, TSText.cpp:265-291. -/
def getNextUnicodeCharByteCount (t : Bytes) (max : Nat) : Out Nat :=
  rd t 0 >>= fun c => .ok (min max (charStep c))

/-- `Text::GetUnicodeCharStringByteCount`, TSText.cpp:293-329, with `count` bytes behind it and `t` the text from there. -/
def getUnicodeCharStringByteCount : Nat → Bytes → Nat → Out Nat
  | 0, _, count => .ok count
  | a + 1, t, count =>
      rd t 0 >>= fun c =>
      if c = 0 then .ok count else getUnicodeCharStringByteCount a (t.drop (charStep c)) (count + charStep c)

end Verif.Wide
