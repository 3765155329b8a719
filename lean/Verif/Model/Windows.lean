import Verif.Model.File
import Verif.Model.Wide

/-!
# Model of the Windows branch of `File` and of `WCharBuffer` (C4Json.cpp:104-182, 224-253, 310-383, 418-448)

The same conventions as in `Verif.Model.File`: the n-th call of the system's `ReadFile` or `WriteFile` on a handle fails or
transfers as many bytes as the schedule says, cut to what was asked for and, for reading, to what the file still has
(at the end of the file the call succeeds with 0 bytes). The number of bytes asked for is a `DWORD`: `end - p` modulo
2³² (C4Json.cpp:375 and 440). A `wchar_t` has 16 bits. `wchar_t` blocks come from `new` with indeterminate content `g`.
-/

namespace Verif.Win

open Verif Verif.Map Verif.Text Verif.Number Verif.Parser Verif.Doc Verif.Write Verif.File Verif.Wide

variable {D : Type}

/-- What is in a new block of `n` 16-bit units. -/
def fresh16 (g : Nat → UInt16) (n : Nat) : Units := (List.range n).map g

/-! ## `WCharBuffer` -/

/-- The loop `while (c != end) *(c++) = 0`, C4Json.cpp:117-120, with `left = end - c` and `pos = c - buffer`. -/
def zeroLoop : Nat → Nat → Units → Out Units
  | 0, _, b => .ok b
  | left + 1, pos, b => wr16 b pos 0 >>= fun b => zeroLoop left (pos + 1) b

/-- `WCharBuffer(uint32 maxLength)`, C4Json.cpp:112-123. `maxLength + 1` is computed in 32 bits. -/
def newBlank (g : Nat → UInt16) (maxLength : Nat) : Out Units :=
  zeroLoop maxLength 0 (fresh16 g ((maxLength + 1) % 2 ^ 32)) >>= fun b => wr16 b maxLength 0

/-- The loop `while (*str != L'\0' && c != end) *(c++) = *(str++)`, C4Json.cpp:130-133: `str` is the source from the
pointer to the end of its block, `left = end - c`, `pos = c - buffer`. Gives the block and the position of `c`. -/
def copyLoop : Units → Nat → Nat → Units → Out (Units × Nat)
  | [], _, _, _ => .ub
  | _ :: _, 0, pos, b => .ok (b, pos)
  | u :: str, left + 1, pos, b =>
      if u = 0 then .ok (b, pos) else wr16 b pos u >>= fun b => copyLoop str left (pos + 1) b

/-- `WCharBuffer(const wchar_t* str, uint32 maxLength)`, C4Json.cpp:125-137. -/
def newCopy (g : Nat → UInt16) (str : Units) (maxLength : Nat) : Out Units :=
  copyLoop str maxLength 0 (fresh16 g ((maxLength + 1) % 2 ^ 32)) >>= fun (b, pos) =>
  wr16 b pos 0 >>= fun b => wr16 b maxLength 0

/-- `WCharBuffer(const String<>& str)`, C4Json.cpp:139-147. -/
def newName (g : Nat → UInt16) (s : Dyn.Dyn) : Out Units :=
  getWideTextCharCount (fuelFor s.data) s.data 0 >>= fun length =>
  convertStringToWideText (fuelFor s.data) s.data 0 length (fresh16 g (length + 1))

/-- `WCharBuffer::operator String<>()`, C4Json.cpp:167-179. -/
def toString (g : Nat → Byte) (b : Units) : Out Dyn.Dyn :=
  getUnicodeStringLength (fuelFor b) b 0 >>= fun length =>
  Dyn.setLength g length Dyn.newEmpty >>= fun s =>
  convertWideTextToString (fuelFor b) b 0 length s.data >>= fun d => .ok (s.store d)

/-- The name `OpenFile` hands to `CreateFileW`, C4Json.cpp:226: `WCharBuffer wideFileName(String<>{fileName})`. -/
def openName (g8 : Nat → Byte) (g16 : Nat → UInt16) (fileName : Bytes) : Out Units :=
  Dyn.newText g8 fileName >>= fun s => newName g16 s

/-! ## `File` -/

/-- `File::OpenFile(fileName, kFileCreate)`, C4Json.cpp:243-253: `CREATE_ALWAYS` empties an existing file. -/
def openCreate (_old : Bytes) : WFile := ⟨[], 0, 0⟩

/-- `File::WriteFile`, C4Json.cpp:425-448: is the result `kFileOkay`, and the file. -/
def writeFile (os : Sched) : Nat → Bytes → WFile → Out (Bool × WFile)
  | _, [], f => .ok (true, f)
  | 0, _ :: _, _ => .fuel
  | n + 1, c :: p, f =>
      match os f.calls with
      | .fail => .ok (false, { f with calls := f.calls + 1 })
      | .done k =>
          let m := min k ((c :: p).length % 2 ^ 32)
          writeFile os n ((c :: p).drop m) (f.put ((c :: p).take m))

/-- The calls of `WriteFile` made while a value is written; their results are ignored
(`operator<<`, C4Json.cpp:478-490; `file.WriteFile(...)` in 1449, 1462, 1672, 1687). -/
def writeChunks (os : Sched) (n : Nat) : List Bytes → WFile → Out WFile
  | [], f => .ok f
  | c :: cs, f => writeFile os n c f >>= fun (_, f) => writeChunks os n cs f

/-- `StructuredData::Write`, C4Json.cpp:1810-1831: the status and the file afterwards (`none` if it could not be
opened). -/
def writeDoc (N : NumOps D) (os : Sched) (n : Nat) (openOk : Bool) (old : Bytes) (root : Option (Value D))
    (indentLength : Nat) (indentChar : Byte) : Out (Status × Option WFile) :=
  if openOk = false then .ok (.KFileOpenError, none)
  else
    match root with
    | none => .ok (.kInvalidStructuredData, some (openCreate old))
    | some v =>
        writeValue N indentLength indentChar n [] v >>= fun r =>
        writeChunks os n r.chunks (openCreate old) >>= fun f =>
        .ok (r.status, some f)

/-- Store `data` at `pos` of a buffer. -/
def fill (buffer : Bytes) (pos : Nat) (data : Bytes) : Out Bytes :=
  if buffer.length < pos + data.length then .ub
  else .ok (buffer.take pos ++ (data ++ buffer.drop (pos + data.length)))

/-- The loop of `File::ReadFile`, C4Json.cpp:367-383: `left = end - p`, `pos = p - buffer`. -/
def readLoop (os : Sched) (file : Bytes) : Nat → Nat → Bytes → Nat → Nat → Nat → Out (Bool × Bytes)
  | _, 0, buffer, _, _, _ => .ok (true, buffer)
  | 0, _ + 1, _, _, _, _ => .fuel
  | n + 1, left + 1, buffer, pos, offset, calls =>
      match os calls with
      | .fail => .ok (false, buffer)
      | .done k =>
          let data := (file.drop offset).take (min k ((left + 1) % 2 ^ 32))
          fill buffer pos data >>= fun buffer =>
          readLoop os file n (left + 1 - data.length) buffer (pos + data.length) (offset + data.length) (calls + 1)

/-- `File::ReadFile(buffer, size)`, C4Json.cpp:357-383 and 415, on an open file. -/
def readFile (os : Sched) (file : Bytes) (n : Nat) (buffer : Bytes) (size : Nat) : Out (Bool × Bytes) :=
  if size > maxFileSize then .ok (false, buffer) else readLoop os file n size buffer 0 0 0

/-- `StructuredData::Parse(fileName)`, C4Json.cpp:1744-1784. `stat` is `EndOfFile.QuadPart`, or 0 if the query fails
(`GetFileSize`, C4Json.cpp:310-327). Allocation succeeds. -/
def parseFile (N : NumOps D) (os : Sched) (n : Nat) (root : Option (Value D)) (file : Option Bytes) (stat : Nat) :
    Out (ParseResult × Option (Value D)) :=
  match file with
  | none => .ok (⟨.KFileOpenError, 0, 0⟩, root)
  | some content =>
      if stat > maxFileSize then .ok (⟨.KFileTooLarge, 0, 0⟩, root)
      else
        readFile os content n (List.replicate (stat + 1) 0) stat >>= fun (okay, buffer) =>
        if okay = false then .ok (⟨.KFileReadError, 0, 0⟩, root)
        else parseBuffer N root buffer

end Verif.Win
