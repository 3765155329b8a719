import Verif.Model.Strings

/-!
# Model of `String<0>` (Code/Terathon/TSString.h:395-536, Code/Terathon/TSString.cpp)

The object has a local block `localString` of 16 bytes and a pointer `stringPointer`, which points
either to the local block or to a block obtained with `new char[]`. The sizes kept by the object
(`logicalSize`, `physicalSize`) are separate from the sizes of the blocks, and every load and store
is checked against the block.

Simplifications: sizes are natural numbers (no `int32` overflow), `new` does not fail, the
conversions from `float` and from UTF-16 text are not modelled. The bytes of a new block are given by
an arbitrary function `g`.
-/

namespace Verif.Dyn

open Verif Verif.Str

/-- The members of `String<0>`, TSString.h:401-409. `heap = none` means
`stringPointer == localString`. -/
structure Dyn where
  logical : Nat
  physical : Nat
  heap : Option Bytes
  loc : Bytes
  deriving DecidableEq, Repr

/-- The block `stringPointer` points to. -/
def Dyn.data (s : Dyn) : Bytes := s.heap.getD s.loc

/-- The object after its current block was changed to `b`. -/
def Dyn.store (s : Dyn) (b : Bytes) : Dyn :=
  match s.heap with
  | some _ => { s with heap := some b }
  | none => { s with loc := b }

/-- `new char[n]`: the contents are arbitrary. -/
def fresh (g : Nat → Byte) (n : Nat) : Bytes := (List.range n).map g

/-- The initial value of the member `localString`, TSString.h:409. -/
def loc0 : Bytes := List.replicate 15 48 ++ [0]

/-- `GetPhysicalSize`, TSString.cpp:16-19, with `kStringAllocSize = 64`. -/
def physSize (size : Nat) : Nat := (size + 67) / 64 * 64

/-- `GetStringLength`, TSString.h:505-508. -/
def Dyn.length (s : Dyn) : Int := (s.logical : Int) - 1

/-- Copy a terminated text `src` into block `b` at `d` (`CopyText`); only the block is needed. -/
def copyInto (src : Src) (d : Nat) (b : Bytes) : Out Bytes :=
  copyText src (b.length + 1) 0 d b >>= fun r => .ok r.1

/-- `CopyText` with a limit. -/
def copyIntoMax (src : Src) (max : Nat) (d : Nat) (b : Bytes) : Out Bytes :=
  copyTextMax src max 0 d b >>= fun r => .ok r.1

/-- `for (a = 0; a < n; a++) stringPointer[a] = s[a]`, TSString.cpp:102-105 and 147-150. -/
def copyN (t : Bytes) : Nat → Nat → Bytes → Out Bytes
  | 0, _, b => .ok b
  | n + 1, a, b => Text.rd t a >>= fun k => wr b a k >>= fun b => copyN t n (a + 1) b

/-- The text that a `const char *` argument points to. `own i` is `stringPointer + i` of the object
itself, at the time of the call. -/
def srcText (s : Dyn) : Src → Bytes
  | .ext t => t
  | .own i => s.data.drop i

/-- The argument after the object has possibly switched to another block (`moved`): a pointer to a
deleted block is no longer usable; `localString` still is. -/
def srcAfter (s0 : Dyn) (moved : Bool) : Src → Out Src
  | .ext t => .ok (.ext t)
  | .own i =>
    if moved then
      match s0.heap with
      | some _ => .ub
      | none => .ok (.ext (s0.loc.drop i))
    else .ok (.own i)

/-! ## Constructors -/

/-- `String()`, TSString.cpp:21-27. -/
def newEmpty : Dyn := { logical := 1, physical := 16, heap := none, loc := loc0.set 0 0 }

/-- Storage for `size` bytes in the constructors, TSString.cpp:84-93: local or new. -/
def alloc (g : Nat → Byte) (size : Nat) : Dyn :=
  if size > 16 then
    { logical := size, physical := physSize size, heap := some (fresh g (physSize size)), loc := loc0 }
  else { logical := size, physical := 16, heap := none, loc := loc0 }

/-- `String(const String& s)`, TSString.cpp:37-53. -/
def newCopy (g : Nat → Byte) (t : Dyn) : Out Dyn :=
  if t.logical > 1 then
    copyInto (.ext t.data) 0 (fresh g (physSize t.logical)) >>= fun b =>
    .ok { logical := t.logical, physical := physSize t.logical, heap := some b, loc := loc0 }
  else .ok { logical := t.logical, physical := 16, heap := none, loc := loc0.set 0 0 }

/-- The moved-from object, TSString.cpp:64-67 and 361-364. -/
def movedFrom (t : Dyn) : Out Dyn :=
  match t.heap with
  | some _ => wr t.loc 0 0 >>= fun l => .ok { logical := 1, physical := 16, heap := none, loc := l }
  | none => .ok t

/-- The object that takes over, TSString.cpp:55-77 and 354-373 (after the `delete[]`). The copying of
the 16 bytes of `localString` is written as a copy of the list. -/
def takeOver (t : Dyn) (loc : Bytes) : Dyn :=
  match t.heap with
  | some b => { logical := t.logical, physical := t.physical, heap := some b, loc := loc }
  | none => { logical := t.logical, physical := t.physical, heap := none, loc := t.loc }

/-- `String(String&& s)`, TSString.cpp:55-77: new object and moved-from object. -/
def newMove (t : Dyn) : Out (Dyn × Dyn) :=
  movedFrom t >>= fun t' => .ok (takeOver t loc0, t')

/-- `String(const char *s)`, TSString.cpp:79-112. -/
def newText (g : Nat → Byte) (t : Bytes) : Out Dyn :=
  getTextLength t >>= fun l =>
  let s := alloc g (l + 1)
  copyN t (l + 1) 0 s.data >>= fun b => .ok (s.store b)

/-- The loop that looks for a NUL among the first `length` bytes, TSString.cpp:116-123 and 325-332. -/
def boundedLength (t : Bytes) : Nat → Nat → Out Nat
  | 0, a => .ok a
  | n + 1, a => Text.rd t a >>= fun k => if k = 0 then .ok a else boundedLength t n (a + 1)

/-- `String(const char *s, int32 length)`, TSString.cpp:114-157, for `length ≥ 0`. -/
def newTextN (g : Nat → Byte) (t : Bytes) (length : Nat) : Out Dyn :=
  boundedLength t length 0 >>= fun l =>
  let s := alloc g (l + 1)
  wr s.data l 0 >>= fun b =>
  copyN t l 0 b >>= fun b => .ok (s.store b)

/-- `String(int32 n)`, TSString.cpp:189-194. -/
def newInt (wrapv : Bool) (n : Int) : Out Dyn :=
  integerToString wrapv n 0 15 loc0 >>= fun r =>
  .ok { logical := r.2 + 1, physical := 16, heap := none, loc := r.1 }

/-- `String(int64 n)`, TSString.cpp:203-208. -/
def newInt64 (wrapv : Bool) (g : Nat → Byte) (n : Int) : Out Dyn :=
  integer64ToString wrapv n 0 63 (fresh g 64) >>= fun r =>
  .ok { logical := r.2 + 1, physical := 64, heap := some r.1, loc := loc0 }

/-- `String(const char *s1, const char *s2)`, TSString.cpp:217-247 (`operator +`, TSString.h:485). -/
def newPlus (g : Nat → Byte) (t1 t2 : Bytes) : Out Dyn :=
  getTextLength t1 >>= fun len1 =>
  getTextLength t2 >>= fun len2 =>
  let size := len1 + len2 + 1
  if size > 1 then
    let s := alloc g size
    copyInto (.ext t1) 0 s.data >>= fun b =>
    copyInto (.ext t2) len1 b >>= fun b => .ok (s.store b)
  else .ok { logical := size, physical := 16, heap := none, loc := loc0.set 0 0 }

/-- `String(int32 n, const char *s1)`, TSString.cpp:249-258 (`operator +(int32)`, TSString.h:490). -/
def newPlusInt (wrapv : Bool) (g : Nat → Byte) (t1 : Bytes) (n : Int) : Out Dyn :=
  getTextLength t1 >>= fun len1 =>
  let size := len1 + 64
  copyInto (.ext t1) 0 (fresh g (physSize size)) >>= fun b =>
  integerToString wrapv n len1 63 b >>= fun r =>
  .ok { logical := len1 + r.2 + 1, physical := physSize size, heap := some r.1, loc := loc0 }

/-! ## Assignments -/

/-- `PurgeString`, TSString.cpp:282-293. -/
def purge (s : Dyn) : Out Dyn :=
  wr s.loc 0 0 >>= fun l => .ok { logical := 1, physical := 16, heap := none, loc := l }

/-- `Resize`, TSString.cpp:295-321; the flag says whether the object now uses another block. -/
def resize (g : Nat → Byte) (size : Nat) (s : Dyn) : Dyn × Bool :=
  if size > 16 then
    if size > s.physical ∨ size < s.physical / 2 then
      ({ s with logical := size, physical := physSize size, heap := some (fresh g (physSize size)) }, true)
    else ({ s with logical := size }, false)
  else ({ s with logical := size, physical := 16, heap := none }, s.heap.isSome)

/-- `Set`, TSString.cpp:323-345, for `length ≥ 0`. -/
def setN (g : Nat → Byte) (src : Src) (length : Nat) (s : Dyn) : Out Dyn :=
  boundedLength (srcText s src) length 0 >>= fun l =>
  if l > 0 then
    let (s', moved) := resize g (l + 1) s
    srcAfter s moved src >>= fun src =>
    copyIntoMax src l 0 s'.data >>= fun b => .ok (s'.store b)
  else purge s

/-- `operator =(String&& s)`, TSString.cpp:347-376, for two different objects. -/
def moveAssign (s t : Dyn) : Out (Dyn × Dyn) :=
  movedFrom t >>= fun t' => .ok (takeOver t s.loc, t')

/-- `operator =(const String& s)`, TSString.cpp:378-392, for two different objects. -/
def assign (g : Nat → Byte) (s t : Dyn) : Out Dyn :=
  if t.logical > 1 then
    let s' := (resize g t.logical s).1
    copyInto (.ext t.data) 0 s'.data >>= fun b => .ok (s'.store b)
  else purge s

/-- `operator =(const String& s)`, TSString.cpp:378-392, when the argument is the object itself: the
argument is converted to a pointer after `Resize`. -/
def assignSelf (g : Nat → Byte) (s : Dyn) : Out Dyn :=
  if s.logical > 1 then
    let s' := (resize g s.logical s).1
    copyInto (.own 0) 0 s'.data >>= fun b => .ok (s'.store b)
  else purge s

/-- `operator =(const char *s)`, TSString.cpp:394-408. -/
def setText (g : Nat → Byte) (src : Src) (s : Dyn) : Out Dyn :=
  getTextLength (srcText s src) >>= fun l =>
  if l > 0 then
    let (s', moved) := resize g (l + 1) s
    srcAfter s moved src >>= fun src =>
    copyInto src 0 s'.data >>= fun b => .ok (s'.store b)
  else purge s

/-- `operator =(int32 n)`, TSString.cpp:410-415. -/
def setInt (wrapv : Bool) (g : Nat → Byte) (n : Int) (s : Dyn) : Out Dyn :=
  let s' := (resize g 64 s).1
  integerToString wrapv n 0 63 s'.data >>= fun r => .ok { s'.store r.1 with logical := r.2 + 1 }

/-! ## Concatenation -/

/-- The growth step shared by the `+=` operators, TSString.cpp:444-456 (and 471-483, 495-507,
518-530, 660-672). -/
def grow (g : Nat → Byte) (size : Nat) (s : Dyn) : Out (Dyn × Bool) :=
  if size > s.physical then
    let phys := max (physSize size) (s.physical + s.physical / 2)
    copyInto (.ext s.data) 0 (fresh g phys) >>= fun b =>
    .ok ({ s with physical := phys, heap := some b }, true)
  else .ok (s, false)

/-- `operator +=(const String<>& s)`, TSString.cpp:438-463, for two different objects. -/
def append (g : Nat → Byte) (s t : Dyn) : Out Dyn :=
  if t.logical > 1 then
    let size := s.logical + (t.logical - 1)
    grow g size s >>= fun r =>
    copyInto (.ext t.data) (r.1.logical - 1) r.1.data >>= fun b => .ok { r.1.store b with logical := size }
  else .ok s

/-- `operator +=(const String<>& s)`, TSString.cpp:438-463, when the argument is the object itself. -/
def appendSelf (g : Nat → Byte) (s : Dyn) : Out Dyn :=
  if s.logical > 1 then
    let size := s.logical + (s.logical - 1)
    grow g size s >>= fun r =>
    copyInto (.own 0) (r.1.logical - 1) r.1.data >>= fun b => .ok { r.1.store b with logical := size }
  else .ok s

/-- `operator +=(const char *s)`, TSString.cpp:465-490. -/
def appendText (g : Nat → Byte) (src : Src) (s : Dyn) : Out Dyn :=
  getTextLength (srcText s src) >>= fun l =>
  if l > 0 then
    let size := s.logical + l
    grow g size s >>= fun r =>
    srcAfter s r.2 src >>= fun src =>
    copyInto src (r.1.logical - 1) r.1.data >>= fun b => .ok { r.1.store b with logical := size }
  else .ok s

/-- `operator +=(char k)`, TSString.cpp:492-513. -/
def appendChar (g : Nat → Byte) (k : Byte) (s : Dyn) : Out Dyn :=
  let size := s.logical + 1
  grow g size s >>= fun r =>
  wr r.1.data (r.1.logical - 1) k >>= fun b =>
  wr b r.1.logical 0 >>= fun b => .ok { r.1.store b with logical := size }

/-- `operator +=(int32 n)`, TSString.cpp:515-534. -/
def appendInt (wrapv : Bool) (g : Nat → Byte) (n : Int) (s : Dyn) : Out Dyn :=
  grow g (s.logical + 64) s >>= fun r =>
  integerToString wrapv n (r.1.logical - 1) 63 r.1.data >>= fun p =>
  .ok { r.1.store p.1 with logical := r.1.logical + p.2 }

/-- `AppendString(const char *s, int32 length)`, TSString.cpp:655-679, for `length ≥ 0`. -/
def appendN (g : Nat → Byte) (src : Src) (length : Nat) (s : Dyn) : Out Dyn :=
  if length > 0 then
    let size := s.logical + length
    grow g size s >>= fun r =>
    srcAfter s r.2 src >>= fun src =>
    copyIntoMax src length (r.1.logical - 1) r.1.data >>= fun b => .ok { r.1.store b with logical := size }
  else .ok s

/-- `SetStringLength`, TSString.cpp:599-653, for `length ≥ 0`. -/
def setLength (g : Nat → Byte) (length : Nat) (s : Dyn) : Out Dyn :=
  if length > 0 then
    let size := length + 1
    if size ≠ s.logical then
      let copyLength := min length (s.logical - 1)
      (if size > 16 then
        if size > s.physical ∨ size < s.physical / 2 then
          copyIntoMax (.ext s.data) copyLength 0 (fresh g (physSize size)) >>= fun b =>
          .ok { s with logical := size, physical := physSize size, heap := some b }
        else .ok { s with logical := size }
      else
        match s.heap with
        | some h =>
          copyIntoMax (.ext h) copyLength 0 s.loc >>= fun l =>
          .ok { s with logical := size, heap := none, loc := l }
        | none => .ok { s with logical := size }) >>= fun s' =>
      wr s'.data length 0 >>= fun b => .ok (s'.store b)
    else .ok s
  else purge s

/-! ## Changes in place -/

/-- A loop that replaces every byte up to the terminator. -/
def mapText (f : Byte → Byte) : Bytes → Out Bytes
  | [] => .ub
  | c :: t => if c = 0 then .ok (c :: t) else mapText f t >>= fun t => .ok (f c :: t)

/-- `ConvertToLowerCase`, TSString.cpp:681-701. -/
def toLower (s : Dyn) : Out Dyn :=
  mapText (fun c => if 65 ≤ c.toNat ∧ c.toNat < 65 + 26 then c + 32 else c) s.data >>= fun b => .ok (s.store b)

/-- `ConvertToUpperCase`, TSString.cpp:703-723. -/
def toUpper (s : Dyn) : Out Dyn :=
  mapText (fun c => if 97 ≤ c.toNat ∧ c.toNat < 97 + 26 then c - 32 else c) s.data >>= fun b => .ok (s.store b)

/-- `ReplaceChar`, TSString.cpp:725-742. -/
def replaceChar (x y : Byte) (s : Dyn) : Out Dyn :=
  mapText (fun c => if c = x then y else c) s.data >>= fun b => .ok (s.store b)

/-- The table `encodedSize`, TSString.cpp:746-756, for bytes below 128 (1 for the others, 776-779). -/
def encodedSize (c : Byte) : Nat :=
  let n := c.toNat
  if n = 0 then 1
  else if 7 ≤ n ∧ n ≤ 13 then 2
  else if n < 32 then 4
  else if n = 34 ∨ n = 92 then 2
  else if n = 127 then 4
  else 1

/-- `hexDigit`, TSText.cpp:18. -/
def hexDigit (n : Nat) : Byte := if n < 10 then UInt8.ofNat (n + 48) else UInt8.ofNat (n + 55)

/-- The bytes written for one byte, TSString.cpp:800-839. -/
def encodedBytes (c : Byte) : Bytes :=
  if encodedSize c = 1 then [c]
  else if encodedSize c = 2 then
    if c.toNat < 32 then [92, ([97, 98, 116, 110, 118, 102, 114] : Bytes)[c.toNat - 7]?.getD 0] else [92, c]
  else [92, 120, hexDigit (c.toNat >>> 4), hexDigit (c.toNat &&& 15)]

/-- The first loop of `EncodeEscapeSequences`, TSString.cpp:758-782: (encodedLength, maxCharSize). -/
def measure : Bytes → Nat → Nat → Out (Nat × Nat)
  | [], _, _ => .ub
  | c :: t, n, m => if c = 0 then .ok (n, m) else measure t (n + encodedSize c) (max m (encodedSize c))

/-- Store a list of bytes from position `d`. -/
def wrAll : Bytes → Nat → Bytes → Out Bytes
  | [], _, b => .ok b
  | k :: l, d, b => wr b d k >>= fun b => wrAll l (d + 1) b

/-- The second loop, TSString.cpp:790-844. -/
def encodeLoop : Bytes → Nat → Bytes → Out Bytes
  | [], _, _ => .ub
  | c :: t, d, b =>
    if c = 0 then wr b d 0
    else wrAll (encodedBytes c) d b >>= fun b => encodeLoop t (d + (encodedBytes c).length) b

/-- `EncodeEscapeSequences`, TSString.cpp:744-855. -/
def encodeEscapes (g : Nat → Byte) (s : Dyn) : Out Dyn :=
  measure s.data 0 1 >>= fun r =>
  if r.2 > 1 then
    encodeLoop s.data 0 (fresh g (physSize r.1)) >>= fun b =>
    .ok { s with logical := r.1, physical := physSize r.1, heap := some b }
  else .ok s

end Verif.Dyn
