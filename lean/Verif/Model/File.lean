import Verif.Model.Write

/-!
# Model of `File` (Linux branch) and of the file functions of `StructuredData`

The operating system is an arbitrary schedule: the n-th `read` or `write` call on a descriptor either fails or
transfers as many bytes as the schedule says, cut to what was asked for and, for `read`, to what the
file still has. `write` on a regular file opened without `O_APPEND` replaces the bytes at the offset and
extends the file if necessary. Not modelled: other processes writing the file at the same time,
interrupted `close`.
-/

namespace Verif.File

open Verif Verif.Map Verif.Text Verif.Number Verif.Parser Verif.Doc Verif.Write

variable {D : Type}

/-- What the operating system does on one call. -/
inductive Call where
  | fail
  | done (k : Nat)
  deriving DecidableEq, Repr

/-- The outcome of every `read`/`write` call, in order. -/
abbrev Sched := Nat → Call

/-- A file opened for writing: its content, the offset of the descriptor, the number of calls so far. -/
structure WFile where
  content : Bytes
  offset : Nat
  calls : Nat
  deriving DecidableEq, Repr

/-- Effect of `write` transferring `data`. -/
def WFile.put (f : WFile) (data : Bytes) : WFile :=
  ⟨f.content.take f.offset ++ (data ++ f.content.drop (f.offset + data.length)),
    f.offset + data.length, f.calls + 1⟩

/-- `File::OpenFile(fileName, kFileCreate)`, C4Json.cpp:266-277: `open(fileName, O_WRONLY | O_CREAT, 0644)`.
An existing file keeps its content `old`, a new one is empty (`old = []`). -/
def openCreate (old : Bytes) : WFile := ⟨old, 0, 0⟩

/-- `File::WriteFile`, C4Json.cpp:451-475: is the result `kFileOkay`, and the file. The fuel bounds the number of
iterations. -/
def writeFile (os : Sched) : Nat → Bytes → WFile → Out (Bool × WFile)
  | _, [], f => .ok (true, f)
  | 0, _ :: _, _ => .fuel
  | n + 1, c :: p, f =>
      match os f.calls with
      | .fail => .ok (false, { f with calls := f.calls + 1 })
      | .done k => writeFile os n ((c :: p).drop k) (f.put ((c :: p).take k))

/-- The calls of `WriteFile` made while a value is written; their results are ignored
(`operator<<`, C4Json.cpp:478-490; `file.WriteFile(...)` in 1449, 1462, 1672, 1687). -/
def writeChunks (os : Sched) (n : Nat) : List Bytes → WFile → Out WFile
  | [], f => .ok f
  | c :: cs, f => writeFile os n c f >>= fun (_, f) => writeChunks os n cs f

/-- `StructuredData::Write`, C4Json.cpp:1810-1831: the status and the file afterwards (`none` if it could not be
opened). -/
def writeDoc (N : NumOps D) (os : Sched) (n : Nat) (openOk : Bool) (old : Bytes) (root : Option (Value D))
    (indentLength : Nat) (indentChar : Byte) : Out (Status × Option WFile) :=
  if openOk = false then .ok (.KFileOpenError, none)
  else
    match root with
    | none => .ok (.kInvalidStructuredData, some (openCreate old))
    | some v =>
        writeValue N indentLength indentChar n [] v >>= fun r =>
        writeChunks os n r.chunks (openCreate old) >>= fun f =>
        .ok (r.status, some f)

/-- `MAX_FILE_SIZE`, C4Json.cpp:97. -/
def maxFileSize : Nat := 0xffff - 1

/-- The loop of `File::ReadFile`, C4Json.cpp:397-411. `left` is `end - p`; every call reads to the beginning
of `buffer` (line 403 passes `buffer`, not `p`). -/
def readLoop (os : Sched) (file : Bytes) : Nat → Nat → Bytes → Nat → Nat → Out (Bool × Bytes)
  | _, 0, buffer, _, _ => .ok (true, buffer)
  | 0, _ + 1, _, _, _ => .fuel
  | n + 1, left + 1, buffer, offset, calls =>
      match os calls with
      | .fail => .ok (false, buffer)
      | .done k =>
          let data := (file.drop offset).take (min k (left + 1))
          if buffer.length < data.length then .ub
          else readLoop os file n (left + 1 - data.length) (data ++ buffer.drop data.length)
            (offset + data.length) (calls + 1)

/-- `File::ReadFile(buffer, size)`, C4Json.cpp:387-415, on an open file. -/
def readFile (os : Sched) (file : Bytes) (n : Nat) (buffer : Bytes) (size : Nat) : Out (Bool × Bytes) :=
  if size > maxFileSize then .ok (false, buffer) else readLoop os file n size buffer 0 0

/-- `StructuredData::Parse(fileName)`, C4Json.cpp:1744-1784. `file` is the file if it can be opened, `stat` what
`fstat` reports as its size (0 if `fstat` fails, C4Json.cpp:340-345). Allocation succeeds. -/
def parseFile (N : NumOps D) (os : Sched) (n : Nat) (root : Option (Value D)) (file : Option Bytes) (stat : Nat) :
    Out (ParseResult × Option (Value D)) :=
  match file with
  | none => .ok (⟨.KFileOpenError, 0, 0⟩, root)
  | some content =>
      if stat > maxFileSize then .ok (⟨.KFileTooLarge, 0, 0⟩, root)
      else
        readFile os content n (List.replicate (stat + 1) 0) stat >>= fun (okay, buffer) =>
        if okay = false then .ok (⟨.KFileReadError, 0, 0⟩, root)
        else parseBuffer N root buffer

end Verif.File
