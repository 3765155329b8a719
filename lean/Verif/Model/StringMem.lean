import Verif.Model.DynString

/-!
# The memory blocks of `String<0>` objects (Code/Terathon/TSString.cpp)

`Verif.Model.DynString` models the contents of one `String<0>`. Here several objects share a heap: a block is known by
a number, `new char[n]` either yields a block that was never used before or throws (`mem = false`), `delete[]` of
anything but a live block is undefined behaviour, and so is an access to a deleted block. An operation that is left by
an exception leaves behind what it has changed so far.

Simplifications: contents are not represented (see `Verif.Model.DynString`, where every access is checked against the
size of the block), texts are given by their lengths, and `const char *` arguments point outside of all objects. Sizes
do not overflow. Objects are numbered; calls that a program cannot make (the use of an object that does not exist, the
construction of an object where there is one) are skipped, and so are `s = s` and `s += s`, whose effect depends on the
contents (see C42). The constructors from `float` and UTF-16 text are left out.
-/

namespace Verif.SMem

open Verif Verif.Dyn

/-- `logicalSize`, `physicalSize` and `stringPointer` (`none` is `localString`), TSString.h:401-409. -/
structure Obj where
  logical : Nat
  physical : Nat
  ptr : Option Nat
  deriving DecidableEq, Repr

/-- The objects, the live blocks with their sizes, and the number of the next block. -/
structure World where
  objs : Nat → Option Obj
  blocks : Nat → Option Nat
  next : Nat

/-- No objects, no blocks. -/
def World.empty : World := ⟨fun _ => none, fun _ => none, 0⟩

/-- How an operation ends: it returns, or an exception leaves it. -/
inductive End where
  | done (w : World)
  | thrown (w : World)

/-- The world with a changed object. -/
def World.set (w : World) (i : Nat) (o : Option Obj) : World := { w with objs := fun k => if k = i then o else w.objs k }

/-- The world with block `b` of size `n`. -/
def World.add (w : World) (n : Nat) : World :=
  { w with blocks := fun k => if k = w.next then some n else w.blocks k, next := w.next + 1 }

/-- `delete[]`. -/
def delete (b : Nat) (w : World) : Out World :=
  if (w.blocks b).isSome then .ok { w with blocks := fun k => if k = b then none else w.blocks k } else .ub

/-- `if (stringPointer != localString) delete[] stringPointer;`, e.g. TSString.cpp:284-287. -/
def release (p : Option Nat) (w : World) : Out World :=
  match p with
  | none => .ok w
  | some b => delete b w

/-- An access through `stringPointer`. -/
def touch (p : Option Nat) (w : World) : Out Unit :=
  match p with
  | none => .ok ()
  | some b => if (w.blocks b).isSome then .ok () else .ub

/-- A live object. -/
def get (i : Nat) (w : World) : Out Obj :=
  match w.objs i with
  | some o => .ok o
  | none => .ub

/-- A constructor that obtains storage for `size` bytes and stores into it, TSString.cpp:84-93 (also 128-137, 226-236). An
object whose constructor throws does not exist. -/
def construct (mem : Bool) (i size : Nat) (w : World) : Out End :=
  if size > 16 then
    if mem then .ok (.done ((w.add (physSize size)).set i (some ⟨size, physSize size, some w.next⟩)))
    else .ok (.thrown (w.set i none))
  else .ok (.done (w.set i (some ⟨size, 16, none⟩)))

/-- A constructor that always obtains a block of `phys` bytes: `String(const String&)` of a text, TSString.cpp:41-46,
`String(int64)`, 203-208, `String(int32, const char *)`, 249-258 (and for the other integers, 260-280). -/
def constructHeap (mem : Bool) (i logical phys : Nat) (w : World) : Out End :=
  if mem then .ok (.done ((w.add phys).set i (some ⟨logical, phys, some w.next⟩))) else .ok (.thrown (w.set i none))

/-- `String(const String& s)`, TSString.cpp:37-53. -/
def newCopy (mem : Bool) (i j : Nat) (w : World) : Out End :=
  get j w >>= fun t =>
  if t.logical > 1 then touch t.ptr w >>= fun _ => constructHeap mem i t.logical (physSize t.logical) w
  else .ok (.done (w.set i (some ⟨t.logical, 16, none⟩)))

/-- What is left in the source of a move, TSString.cpp:64-67 and 361-364. -/
def movedFrom (t : Obj) : Obj :=
  match t.ptr with
  | some _ => ⟨1, 16, none⟩
  | none => t

/-- `String(String&& s)`, TSString.cpp:55-77. -/
def newMove (i j : Nat) (w : World) : Out End :=
  get j w >>= fun t => .ok (.done ((w.set j (some (movedFrom t))).set i (some t)))

/-- `~String()`, TSString.cpp:29-35. -/
def destroy (i : Nat) (w : World) : Out End :=
  get i w >>= fun o => release o.ptr w >>= fun w => .ok (.done (w.set i none))

/-- `PurgeString`, TSString.cpp:282-293. -/
def purge (i : Nat) (w : World) : Out End :=
  get i w >>= fun o => release o.ptr w >>= fun w => .ok (.done (w.set i (some ⟨1, 16, none⟩)))

/-- `Resize`, TSString.cpp:295-321: the old block is deleted before the new one is asked for. -/
def resize (mem : Bool) (i size : Nat) (w : World) : Out End :=
  get i w >>= fun o =>
  if size > 16 then
    if size > o.physical ∨ size < o.physical / 2 then
      release o.ptr w >>= fun w =>
      if mem then .ok (.done ((w.add (physSize size)).set i (some ⟨size, physSize size, some w.next⟩)))
      else .ok (.thrown (w.set i (some ⟨size, physSize size, o.ptr⟩)))
    else .ok (.done (w.set i (some { o with logical := size })))
  else release o.ptr w >>= fun w => .ok (.done (w.set i (some ⟨size, 16, none⟩)))

/-- Something done to an object after a step that did not throw. -/
def andThen (i : Nat) (e : End) (f : Obj → Obj) : Out End :=
  match e with
  | .done w => get i w >>= fun o => touch o.ptr w >>= fun _ => .ok (.done (w.set i (some (f o))))
  | .thrown w => .ok (.thrown w)

/-- `operator =(const char *s)`, TSString.cpp:394-408, and `Set`, 323-345, for a text of which `l` characters are taken. -/
def setText (mem : Bool) (i l : Nat) (w : World) : Out End :=
  if l > 0 then resize mem i (l + 1) w >>= fun e => andThen i e id else purge i w

/-- `operator =(int32 n)`, TSString.cpp:410-415, and for the other integers, 417-436; the number has `k` characters. -/
def setInt (mem : Bool) (i k : Nat) (w : World) : Out End :=
  resize mem i 64 w >>= fun e => andThen i e fun o => { o with logical := k + 1 }

/-- `operator =(const String& s)`, TSString.cpp:378-392, for two different objects. -/
def assign (mem : Bool) (i j : Nat) (w : World) : Out End :=
  if i = j then .ub else
  get j w >>= fun t =>
  if t.logical > 1 then resize mem i t.logical w >>= fun e => touch t.ptr w >>= fun _ => andThen i e id
  else purge i w

/-- `operator =(String&& s)`, TSString.cpp:347-376. For `i = j` the object is the source and the target: its block is
deleted, and the pointer to it is replaced by `localString` (358-365); without a block nothing changes. -/
def moveAssign (i j : Nat) (w : World) : Out End :=
  get i w >>= fun o => release o.ptr w >>= fun w =>
  get j w >>= fun t =>
  if i = j then .ok (.done (w.set i (some (movedFrom o))))
  else .ok (.done ((w.set j (some (movedFrom t))).set i (some t)))

/-- The growth step of the `+=` operators and of `AppendString`, TSString.cpp:444-456, 471-483, 495-507, 518-530 (539-551,
560-572, 581-593 for the other integers), 660-672: the new block is obtained before the old one is deleted, but
`physicalSize` is changed before either. -/
def grow (mem : Bool) (i size : Nat) (w : World) : Out End :=
  get i w >>= fun o =>
  if size > o.physical then
    let phys := max (physSize size) (o.physical + o.physical / 2)
    if mem then
      touch o.ptr w >>= fun _ =>
      release o.ptr (w.add phys) >>= fun w' => .ok (.done (w'.set i (some ⟨o.logical, phys, some w.next⟩)))
    else .ok (.thrown (w.set i (some ⟨o.logical, phys, o.ptr⟩)))
  else .ok (.done w)

/-- `operator +=(const char *s)`, TSString.cpp:465-490, `operator +=(char k)`, 492-513 (`l = 1`), and `AppendString`, 655-679. -/
def appendText (mem : Bool) (i l : Nat) (w : World) : Out End :=
  if l > 0 then
    get i w >>= fun o =>
    grow mem i (o.logical + l) w >>= fun e => andThen i e fun o' => { o' with logical := o.logical + l }
  else .ok (.done w)

/-- `operator +=(int32 n)`, TSString.cpp:515-534, and for the other integers, 536-597; the number has `k` characters. -/
def appendInt (mem : Bool) (i k : Nat) (w : World) : Out End :=
  get i w >>= fun o => grow mem i (o.logical + 64) w >>= fun e => andThen i e fun o => { o with logical := o.logical + k }

/-- `operator +=(const String<>& s)`, TSString.cpp:438-463, for two different objects. -/
def append (mem : Bool) (i j : Nat) (w : World) : Out End :=
  if i = j then .ub else
  get j w >>= fun t =>
  if t.logical > 1 then touch t.ptr w >>= fun _ => appendText mem i (t.logical - 1) w else .ok (.done w)

/-- `SetStringLength`, TSString.cpp:599-653. -/
def setLength (mem : Bool) (i length : Nat) (w : World) : Out End :=
  if length > 0 then
    get i w >>= fun o =>
    let size := length + 1
    if size ≠ o.logical then
      (if size > 16 then
        if size > o.physical ∨ size < o.physical / 2 then
          if mem then
            touch o.ptr w >>= fun _ =>
            release o.ptr (w.add (physSize size)) >>= fun w' =>
            .ok (.done (w'.set i (some ⟨size, physSize size, some w.next⟩)))
          else .ok (.thrown (w.set i (some ⟨size, physSize size, o.ptr⟩)))
        else .ok (.done (w.set i (some { o with logical := size })))
      else touch o.ptr w >>= fun _ => release o.ptr w >>= fun w => .ok (.done (w.set i (some ⟨size, o.physical, none⟩)))) >>= fun e =>
      andThen i e id
    else .ok (.done w)
  else purge i w

/-- `EncodeEscapeSequences`, TSString.cpp:744-855, for a text whose encoding has `n` bytes; `any` says whether a character
needs an escape sequence. -/
def encode (mem any : Bool) (i n : Nat) (w : World) : Out End :=
  get i w >>= fun o => touch o.ptr w >>= fun _ =>
  if any then
    if mem then
      release o.ptr (w.add (physSize n)) >>= fun w' => .ok (.done (w'.set i (some ⟨n, physSize n, some w.next⟩)))
    else .ok (.thrown (w.set i (some ⟨n, physSize n, o.ptr⟩)))
  else .ok (.done w)

/-- The operations. -/
inductive Op where
  | newText (i l : Nat)
  | newInt (i k : Nat)
  | newInt64 (i k : Nat)
  | newPlusInt (i l k : Nat)
  | newCopy (i j : Nat)
  | newMove (i j : Nat)
  | destroy (i : Nat)
  | purge (i : Nat)
  | setText (i l : Nat)
  | setInt (i k : Nat)
  | assign (i j : Nat)
  | moveAssign (i j : Nat)
  | append (i j : Nat)
  | appendText (i l : Nat)
  | appendInt (i k : Nat)
  | setLength (i n : Nat)
  | encode (any : Bool) (i n : Nat)
  deriving DecidableEq, Repr

/-- One operation. `newText` with `l = 0` is also `String()`, TSString.cpp:21-27; a text of `l1 + l2` characters is
`String(const char *, const char *)`, 217-247. -/
def Op.run (mem : Bool) : Op → World → Out End
  | .newText i l, w => construct mem i (l + 1) w
  | .newInt i k, w => .ok (.done (w.set i (some ⟨k + 1, 16, none⟩)))
  | .newInt64 i k, w => constructHeap mem i (k + 1) 64 w
  | .newPlusInt i l k, w => constructHeap mem i (l + k + 1) (physSize (l + 64)) w
  | .newCopy i j, w => SMem.newCopy mem i j w
  | .newMove i j, w => SMem.newMove i j w
  | .destroy i, w => SMem.destroy i w
  | .purge i, w => SMem.purge i w
  | .setText i l, w => SMem.setText mem i l w
  | .setInt i k, w => SMem.setInt mem i k w
  | .assign i j, w => SMem.assign mem i j w
  | .moveAssign i j, w => SMem.moveAssign i j w
  | .append i j, w => SMem.append mem i j w
  | .appendText i l, w => SMem.appendText mem i l w
  | .appendInt i k, w => SMem.appendInt mem i k w
  | .setLength i n, w => SMem.setLength mem i n w
  | .encode any i n, w => SMem.encode mem any i n w

/-- The calls that a program can make, except `s = s` and `s += s`. -/
def Op.legal (w : World) : Op → Bool
  | .newText i _ | .newInt i _ | .newInt64 i _ | .newPlusInt i _ _ => (w.objs i).isNone
  | .newCopy i j | .newMove i j => (w.objs i).isNone && (w.objs j).isSome
  | .destroy i | .purge i | .setText i _ | .setInt i _ | .appendText i _ | .appendInt i _ | .setLength i _
  | .encode _ i _ => (w.objs i).isSome
  | .assign i j | .append i j => (w.objs i).isSome && (w.objs j).isSome && i != j
  | .moveAssign i j => (w.objs i).isSome && (w.objs j).isSome

/-- The state in which an operation leaves the objects. -/
def End.world : End → World
  | .done w => w
  | .thrown w => w

/-- A history, with the answers to the requests for memory; exceptions are caught by the caller, who goes on. -/
def runAll : List (Op × Bool) → World → Out World
  | [], w => .ok w
  | (o, mem) :: os, w => if o.legal w then o.run mem w >>= fun e => runAll os e.world else runAll os w

/-- Answers of `Deserialize`. -/
inductive Answer where
  | ok
  | invalidValueType
  | exception
  deriving DecidableEq, Repr

/-- `Deserialize(const Value*, T& data)` for `T = String<>`, C4Json.h:753-776: object `j` is the data of the value (if it
is a string value), object `i` the target; the exception is turned into a status (C4Json.h:174-190). -/
def deserializeString (mem : Bool) (isString : Bool) (i j : Nat) (w : World) : Out (Answer × World) :=
  if isString then assign mem i j w >>= fun e => match e with
    | .done w => .ok (.ok, w)
    | .thrown w => .ok (.exception, w)
  else .ok (.invalidValueType, w)

end Verif.SMem
