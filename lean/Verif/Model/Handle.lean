import Verif.Model.File

/-!
# Model of the descriptors of `File`

The functions of `Verif.Model.File` once more, now with the calls they make of the operating system and with the
members of `File` (C4Json.cpp:199-221): the descriptor, which is -1 (`none`) when no file is open, and `IsReadOnly`.
Every call of the operating system is an event. The Windows branch has the same shape, with a handle for the
descriptor and null for -1 (C4Json.cpp:204, 224-256, 291-296).

What `open` answers is a parameter: a descriptor, or none. Left out: `close` failing, and copies of a `File`, which
the library never makes.
-/

namespace Verif.Handle

open Verif Verif.Map Verif.Text Verif.Number Verif.Parser Verif.Doc Verif.Write Verif.File

variable {D : Type}

/-- `FileOpenMode`, C4Json.cpp:183-187. -/
inductive Mode where
  | readOnly
  | create
  deriving DecidableEq, Repr

/-- A call of the operating system: `open` that fails, `open` that returns a descriptor, `fstat`, `read`, `write`,
`close`. -/
inductive Event where
  | failed
  | opened (fd : Nat) (mode : Mode)
  | stat (fd : Nat)
  | read (fd : Nat)
  | write (fd : Nat)
  | close (fd : Nat)
  deriving DecidableEq, Repr

/-- `FileStatus`, C4Json.cpp:189-196. -/
inductive FStatus where
  | kFileOkay
  | kFileOpenFailed
  | kFileNotOpen
  | kFileWriteError
  | kFileReadError
  deriving DecidableEq, Repr

/-- The members of `File`, C4Json.cpp:201-212. -/
structure Obj where
  fd : Option Nat
  isReadOnly : Bool
  deriving DecidableEq, Repr

/-- A new `File`, C4Json.cpp:201, 210. -/
def Obj.new : Obj := ⟨none, false⟩

/-- `File::CloseFile`, C4Json.cpp:287-308. -/
def closeFile (o : Obj) : Obj × List Event :=
  match o.fd with
  | some fd => ({ o with fd := none }, [.close fd])
  | none => (o, [])

/-- `File::~File`, C4Json.cpp:215-218. -/
def destroy (o : Obj) : List Event := (closeFile o).2

/-- `File::OpenFile`, C4Json.cpp:220-285, where `open` answers `answer`. -/
def openFile (answer : Option Nat) (mode : Mode) (o : Obj) : FStatus × Obj × List Event :=
  let (o, ev) := closeFile o
  match answer with
  | none => (.kFileOpenFailed, o, ev ++ [.failed])
  | some fd =>
      if mode = .readOnly then (.kFileOkay, ⟨some fd, true⟩, ev ++ [.opened fd mode])
      else (.kFileOkay, ⟨some fd, false⟩, ev ++ [.opened fd mode])

/-- `File::GetFileSize`, C4Json.cpp:310-350; `size` is what `fstat` reports, 0 if it fails. -/
def getFileSize (size : Nat) (o : Obj) : Nat × List Event :=
  match o.fd with
  | none => (0, [])
  | some fd => (size, [.stat fd])

/-- The loop of `File::ReadFile`, C4Json.cpp:397-411, as in `Verif.File.readLoop`. -/
def readLoop (fd : Nat) (os : Sched) (file : Bytes) :
    Nat → Nat → Bytes → Nat → Nat → Out (FStatus × Bytes × List Event)
  | _, 0, buffer, _, _ => .ok (.kFileOkay, buffer, [])
  | 0, _ + 1, _, _, _ => .fuel
  | n + 1, left + 1, buffer, offset, calls =>
      match os calls with
      | .fail => .ok (.kFileReadError, buffer, [.read fd])
      | .done k =>
          let data := (file.drop offset).take (min k (left + 1))
          if buffer.length < data.length then .ub
          else
            readLoop fd os file n (left + 1 - data.length) (data ++ buffer.drop data.length)
              (offset + data.length) (calls + 1) >>= fun (s, b, ev) => .ok (s, b, .read fd :: ev)

/-- `File::ReadFile`, C4Json.cpp:352-416. -/
def readFile (os : Sched) (file : Bytes) (n : Nat) (buffer : Bytes) (size : Nat) (o : Obj) :
    Out (FStatus × Bytes × List Event) :=
  match o.fd with
  | none => .ok (.kFileNotOpen, buffer, [])
  | some fd =>
      if size > maxFileSize then .ok (.kFileReadError, buffer, []) else readLoop fd os file n size buffer 0 0

/-- The loop of `File::WriteFile`, C4Json.cpp:457-471, as in `Verif.File.writeFile`. -/
def writeLoop (fd : Nat) (os : Sched) : Nat → Bytes → WFile → Out (FStatus × WFile × List Event)
  | _, [], f => .ok (.kFileOkay, f, [])
  | 0, _ :: _, _ => .fuel
  | n + 1, c :: p, f =>
      match os f.calls with
      | .fail => .ok (.kFileWriteError, { f with calls := f.calls + 1 }, [.write fd])
      | .done k =>
          writeLoop fd os n ((c :: p).drop k) (f.put ((c :: p).take k)) >>= fun (s, f, ev) =>
          .ok (s, f, .write fd :: ev)

/-- `File::WriteFile`, C4Json.cpp:418-476; `f` is the file the descriptor refers to. -/
def writeFile (os : Sched) (n : Nat) (buffer : Bytes) (f : WFile) (o : Obj) : Out (FStatus × WFile × List Event) :=
  if o.isReadOnly then .ok (.kFileWriteError, f, [])
  else
    match o.fd with
    | none => .ok (.kFileNotOpen, f, [])
    | some fd => writeLoop fd os n buffer f

/-- The calls of `WriteFile` made while a value is written, as in `Verif.File.writeChunks`. -/
def writeChunks (os : Sched) (n : Nat) : List Bytes → WFile → Obj → Out (WFile × List Event)
  | [], f, _ => .ok (f, [])
  | c :: cs, f, o =>
      writeFile os n c f o >>= fun (_, f, ev) =>
      writeChunks os n cs f o >>= fun (f, ev') => .ok (f, ev ++ ev')

/-- `StructuredData::Write`, C4Json.cpp:1810-1831, with the destructor of `file` at every `return`. -/
def writeDoc (N : NumOps D) (os : Sched) (n : Nat) (answer : Option Nat) (old : Bytes) (root : Option (Value D))
    (indentLength : Nat) (indentChar : Byte) : Out (Status × Option WFile × List Event) :=
  let (s, o, ev) := openFile answer .create .new
  if s ≠ .kFileOkay then .ok (.KFileOpenError, none, ev ++ destroy o)
  else
    match root with
    | none => .ok (.kInvalidStructuredData, some (openCreate old), ev ++ destroy o)
    | some v =>
        writeValue N indentLength indentChar n [] v >>= fun r =>
        writeChunks os n r.chunks (openCreate old) o >>= fun (f, ev') =>
        let (o, ev'') := closeFile o
        .ok (r.status, some f, ev ++ (ev' ++ (ev'' ++ destroy o)))

/-- `StructuredData::Parse(fileName)`, C4Json.cpp:1743-1784, with the destructor of `file` at every `return`. `mem` tells
whether the memory for the text is granted (`SetArrayElementCount`, line 1762). -/
def parseFile (N : NumOps D) (os : Sched) (n : Nat) (root : Option (Value D)) (answer : Option Nat) (content : Bytes)
    (stat : Nat) (mem : Bool) : Out (ParseResult × Option (Value D) × List Event) :=
  let (s, o, ev) := openFile answer .readOnly .new
  if s ≠ .kFileOkay then .ok (⟨.KFileOpenError, 0, 0⟩, root, ev ++ destroy o)
  else
    let (fileSize, ev') := getFileSize stat o
    if fileSize > maxFileSize then .ok (⟨.KFileTooLarge, 0, 0⟩, root, ev ++ (ev' ++ destroy o))
    else if mem = false then .ok (⟨.kException, 0, 0⟩, root, ev ++ (ev' ++ destroy o))
    else
      readFile os content n (List.replicate (fileSize + 1) 0) fileSize o >>= fun (s, buffer, ev'') =>
      if s ≠ .kFileOkay then .ok (⟨.KFileReadError, 0, 0⟩, root, ev ++ (ev' ++ (ev'' ++ destroy o)))
      else
        let (o, ev3) := closeFile o
        parseBuffer N root buffer >>= fun (r, root) =>
        .ok (r, root, ev ++ (ev' ++ (ev'' ++ (ev3 ++ destroy o))))

/-- A call of a member function of `File`. -/
inductive Op where
  | openFile (answer : Option Nat) (mode : Mode)
  | closeFile
  | getFileSize (size : Nat)
  | readFile (os : Sched) (file : Bytes) (n : Nat) (buffer : Bytes) (size : Nat)
  | writeFile (os : Sched) (n : Nat) (buffer : Bytes) (f : WFile)

/-- One call. -/
def call : Op → Obj → Out (Obj × List Event)
  | .openFile answer mode, o => .ok ((openFile answer mode o).2.1, (openFile answer mode o).2.2)
  | .closeFile, o => .ok (closeFile o)
  | .getFileSize size, o => .ok (o, (getFileSize size o).2)
  | .readFile os file n buffer size, o => readFile os file n buffer size o >>= fun (_, _, ev) => .ok (o, ev)
  | .writeFile os n buffer f, o => writeFile os n buffer f o >>= fun (_, _, ev) => .ok (o, ev)

/-- A history of calls on one object. -/
def calls : List Op → Obj → Out (Obj × List Event)
  | [], o => .ok (o, [])
  | c :: cs, o =>
      call c o >>= fun (o, ev) =>
      calls cs o >>= fun (o, ev') => .ok (o, ev ++ ev')

end Verif.Handle
