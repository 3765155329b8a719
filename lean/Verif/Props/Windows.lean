import Verif.Lemmas.Windows
import Verif.Props.Write
import Verif.Props.Wide
import Verif.Model.Serial
import Verif.Props.Failure

/-!
# Properties of the Windows branch: C99 - C105

The functions of `Verif.Win` model the code under `JSON4C4_WINDOWS`; those of `Verif.File` the code under `JSON4C4_LINUX`.
-/

namespace Verif.Props

open Verif Verif.Text Verif.Number Verif.Map Verif.Spec Verif.Parser Verif.Doc Verif.Write Verif.File Verif.Wide

variable {D : Type}

/-! ## C99 -/

/-- The full statement of C99: on success the buffer holds the file, and there is a number of calls after which
`ReadFile` returns, if every call transfers at least one byte when there is one. -/
def C99_statement : Prop :=
  (∀ os file n size b, file.length = size →
    Win.readFile os file n (List.replicate (size + 1) 0) size = .ok (true, b) → b = file ++ [0]) ∧
  (∀ os file size, (∀ i, os i ≠ .done 0) →
    ∃ n r, Win.readFile os file n (List.replicate (size + 1) 0) size = .ok r)

/-- `ReadFile` never returns when the file is shorter than the size that was asked for. -/
theorem C99_violated_hang (os : Sched) (hos : NoFailure os) (file : Bytes) (size : Nat) (h : file.length < size)
    (hs : size ≤ 65534) (n : Nat) : Win.readFile os file n (List.replicate (size + 1) 0) size = .fuel := by
  unfold Win.readFile
  rw [if_neg (by simp [maxFileSize]; omega)]
  exact Win.readLoop_hang os hos file n size _ 0 0 0 (by simpa using h) (by simp)

/-- **C99 is violated**: the call at the end of the file succeeds with 0 bytes, and the loop goes on. -/
theorem C99_violated : ¬ C99_statement := by
  intro H
  obtain ⟨n, r, h⟩ := H.2 (fun _ => .done 1) [] 1 (by intro i; simp)
  rw [C99_violated_hang _ (by intro i; simp) [] 1 (by simp) (by omega) n] at h
  simp at h

theorem win_readFile_spec (os : Sched) (file : Bytes) (n size : Nat) (okay : Bool) (b : Bytes) (hs : size ≤ 65534)
    (h : Win.readFile os file n (List.replicate (size + 1) 0) size = .ok (okay, b)) :
    ∃ q r, file = q ++ r ∧ b = q ++ List.replicate (size + 1 - q.length) 0 ∧ q.length ≤ size ∧
      (okay = true ↔ q.length = size) := by
  unfold Win.readFile at h
  rw [if_neg (by simp [maxFileSize]; omega)] at h
  obtain ⟨q, r, e, h1, h2, h3⟩ := Win.readLoop_spec os file n size _ 0 0 0 (by simp) okay b h
  refine ⟨q, r, by simpa using e, ?_, h2, h3⟩
  rw [h1]; simp [stored]

/-- **C99, the part that holds**: for every schedule, the buffer holds the bytes of the file that were transferred, in order and
followed by zeros; success means that all `size` bytes were (so, for a file of this size, exactly the file); nothing is written
outside the buffer; larger sizes are refused without a call; and if the file has `size` bytes and every call makes progress or
fails, `ReadFile` returns, with success if no call fails. Missing: files that are shorter than `size`. -/
theorem C99_read_file_partial (os : Sched) (file : Bytes) (n size : Nat) :
    (size ≤ 65534 → ∀ okay b, Win.readFile os file n (List.replicate (size + 1) 0) size = .ok (okay, b) →
      ∃ q r, file = q ++ r ∧ b = q ++ List.replicate (size + 1 - q.length) 0 ∧ q.length ≤ size ∧
        (okay = true ↔ q.length = size)) ∧
    (∀ b, file.length = size → Win.readFile os file n (List.replicate (size + 1) 0) size = .ok (true, b) →
      b = file ++ [0]) ∧
    Win.readFile os file n (List.replicate (size + 1) 0) size ≠ .ub ∧
    (65534 < size → Win.readFile os file n (List.replicate (size + 1) 0) size =
      .ok (false, List.replicate (size + 1) 0)) ∧
    (size ≤ file.length → size ≤ n → size ≤ 65534 → (∀ i, os i ≠ .done 0) →
      ∃ okay b, Win.readFile os file n (List.replicate (size + 1) 0) size = .ok (okay, b) ∧
        (NoFailure os → okay = true)) := by
  have hbig : 65534 < size → Win.readFile os file n (List.replicate (size + 1) 0) size =
      .ok (false, List.replicate (size + 1) 0) := by
    intro h
    unfold Win.readFile
    rw [if_pos (by simp [maxFileSize]; omega)]
  refine ⟨fun hs okay b h => win_readFile_spec os file n size okay b hs h, ?_, ?_, hbig, ?_⟩
  · intro b hl h
    by_cases hs : size ≤ 65534
    · obtain ⟨q, r, e, h1, h2, h3⟩ := win_readFile_spec os file n size true b hs h
      have hq := h3.1 rfl
      have hr : r = [] := by
        have := congrArg List.length e
        rw [List.length_append] at this
        exact List.length_eq_zero_iff.1 (by omega)
      subst hr
      rw [List.append_nil] at e
      subst e
      have : size + 1 - file.length = 1 := by omega
      rw [h1, this]; rfl
    · rw [hbig (by omega)] at h; simp at h
  · unfold Win.readFile
    split
    · simp
    · exact Win.readLoop_safe os file n size _ 0 0 0 (by simp)
  · intro hf hn hs hos
    have key : ∃ r, Win.readFile os file n (List.replicate (size + 1) 0) size = .ok r := by
      unfold Win.readFile
      rw [if_neg (by simp [maxFileSize]; omega)]
      exact Win.readLoop_total os hos file n size _ 0 0 0 (by simp) hn (by simpa using hf) (by omega)
    obtain ⟨⟨okay, b⟩, h⟩ := key
    refine ⟨okay, b, h, fun hnf => ?_⟩
    unfold Win.readFile at h
    rw [if_neg (by simp [maxFileSize]; omega)] at h
    exact Win.readLoop_true os hnf file n size _ 0 0 0 okay b h

/-- Three reads of two bytes; on Linux the same schedule leaves only the last ones. -/
example : Win.readFile (fun _ => .done 2) [1, 2, 3, 4, 5] 4 (List.replicate 6 0) 5 = .ok (true, [1, 2, 3, 4, 5, 0]) ∧
    File.readFile (fun _ => .done 2) [1, 2, 3, 4, 5] 4 (List.replicate 6 0) 5 = .ok (true, [5, 4, 0, 0, 0, 0]) := ⟨rfl, rfl⟩

/-! ## C100 -/

/-- The full statement of C100: a prefix is stored, success means all of it, and `WriteFile` returns if every call makes
progress or fails. -/
def C100_statement : Prop :=
  ∀ (os : Sched) (p : Bytes) (f : WFile), f.offset ≤ f.content.length →
    (∀ n b f', Win.writeFile os n p f = .ok (b, f') →
      ∃ q r, p = q ++ r ∧ (b = true ↔ r = []) ∧ f'.offset = f.offset + q.length ∧
        f'.content = f.content.take f.offset ++ (q ++ f.content.drop (f.offset + q.length))) ∧
    ((∀ i, os i ≠ .done 0) → ∃ n b f', Win.writeFile os n p f = .ok (b, f'))

/-- With 4 GiB or more `WriteFile` never returns unless a call fails: the number of bytes asked for is `end - p` cut to 32
bits, and becomes 0. -/
theorem C100_violated_hang (os : Sched) (hos : NoFailure os) (n : Nat) (p : Bytes) (f : WFile)
    (h : 4294967296 ≤ p.length) : Win.writeFile os n p f = .fuel := Win.writeFile_hang os hos n p f h

/-- **C100 is violated** by a buffer of 4 GiB. -/
theorem C100_violated : ¬ C100_statement := by
  intro H
  obtain ⟨n, b, f', h⟩ := (H (fun _ => .done 1) (List.replicate 4294967296 0) ⟨[], 0, 0⟩ (Nat.le_refl _)).2
    (by intro i; simp)
  rw [C100_violated_hang _ (by intro i; simp) n _ _ (by rw [List.length_replicate]; omega)] at h
  simp at h

/-- **C100, the part that holds**: the first clause for every buffer, the second for buffers below 4 GiB. Missing: larger
buffers. -/
theorem C100_write_file_partial (os : Sched) (n : Nat) (p : Bytes) (f : WFile) (ho : f.offset ≤ f.content.length) :
    (∀ b f', Win.writeFile os n p f = .ok (b, f') →
      ∃ q r, p = q ++ r ∧ (b = true ↔ r = []) ∧ f'.offset = f.offset + q.length ∧
        f'.content = f.content.take f.offset ++ (q ++ f.content.drop (f.offset + q.length))) ∧
    ((∀ i, os i ≠ .done 0) → p.length ≤ n → p.length < 4294967296 → ∃ b f', Win.writeFile os n p f = .ok (b, f')) := by
  constructor
  · intro b f' h
    obtain ⟨q, r, e, h1, h2, h3⟩ := Win.writeFile_spec os n p f b f' h ho
    exact ⟨q, r, e, h3, h2, h1⟩
  · intro hos hn hp
    obtain ⟨⟨b, f'⟩, h⟩ := Win.writeFile_total os hos n p f hn hp
    exact ⟨b, f', h⟩

example : Win.writeFile (fun i => .done (i + 1)) 4 [1, 2, 3, 4, 5, 6] ⟨[9, 9, 9, 9, 9, 9, 9, 9, 9], 2, 0⟩ =
    .ok (true, ⟨[9, 9, 1, 2, 3, 4, 5, 6, 9], 8, 3⟩) := by decide +kernel

/-! ## C101 -/

/-- **C101.** On Windows, when no call fails, a successful `Write` leaves exactly the document in the file, whatever was in it
before; and `Write` returns if every call makes progress and no piece has 4 GiB. -/
theorem C101_file_content (N : NumOps D) (os : Sched) (n : Nat) (old : Bytes) (v : Value D) (il : Nat) (ic : Byte) :
    (∀ out f, NoFailure os → Emits N il ic v out →
      Win.writeDoc N os n true old (some v) il ic = .ok (.kOk, some f) → f.content = out) ∧
    (∀ r, writeValue N il ic n [] v = .ok r → (∀ i, os i ≠ .done 0) →
      (∀ c ∈ r.chunks, c.length ≤ n ∧ c.length < 4294967296) →
      ∃ f, Win.writeDoc N os n true old (some v) il ic = .ok (r.status, some f)) := by
  constructor
  · intro out f hos he h
    unfold Win.writeDoc at h
    simp only [Bool.true_eq_false, if_false] at h
    rw [Out.bind_eq_ok] at h
    obtain ⟨r, h1, h2⟩ := h
    rw [Out.bind_eq_ok] at h2
    obtain ⟨g, h3, h4⟩ := h2
    simp only [Out.ok.injEq, Prod.mk.injEq, Option.some.injEq] at h4
    obtain ⟨hst, rfl⟩ := h4
    obtain ⟨h5, -⟩ := Win.writeChunks_spec os hos n r.chunks (Win.openCreate old) g h3 (Nat.zero_le _)
    have := emits_det he ⟨n, r, h1, hst, rfl⟩
    rw [h5, ← this]
    simp [stored, Win.openCreate]
  · intro r hr hos hc
    obtain ⟨f, hf⟩ := Win.writeChunks_total os hos n r.chunks (Win.openCreate old) hc
    exact ⟨f, by unfold Win.writeDoc; simp only [Bool.true_eq_false, if_false, hr, Out.ok_bind, hf]⟩

/-- `null` over `nullx`, in pieces of two bytes; on Linux the `x` stays. -/
example : Win.writeDoc natOps (fun _ => .done 2) 5 true [0x6E, 0x75, 0x6C, 0x6C, 0x78] (some .null) 0 0x20 =
      .ok (.kOk, some ⟨[0x6E, 0x75, 0x6C, 0x6C], 4, 2⟩) ∧
    File.writeDoc natOps (fun _ => .done 2) 5 true [0x6E, 0x75, 0x6C, 0x6C, 0x78] (some .null) 0 0x20 =
      .ok (.kOk, some ⟨[0x6E, 0x75, 0x6C, 0x6C, 0x78], 4, 2⟩) := by decide +kernel

/-! ## C102 -/

/-- The full statement of C102 for one of the two branches: a `Write` that does not return `kOk` has not changed the file. -/
def C102_statement_of (w : Sched → Nat → Bool → Bytes → Option (Value D) → Nat → Byte → Out (Status × Option WFile)) : Prop :=
  ∀ os n openOk old root il ic st f, w os n openOk old root il ic = .ok (st, some f) → st ≠ .kOk → f.content = old

/-- The full statement of C102: on both systems. -/
def C102_statement (N : NumOps D) : Prop :=
  C102_statement_of (Win.writeDoc N) ∧ C102_statement_of (File.writeDoc N)

/-- **C102 is violated on Windows**: without a document `Write` returns `kInvalidStructuredData`, but the file has been
emptied; this holds for every file. -/
theorem C102_violated_windows (N : NumOps D) : ¬ C102_statement_of (Win.writeDoc N) ∧
    ∀ os n old il ic, Win.writeDoc N os n true old none il ic = .ok (.kInvalidStructuredData, some ⟨[], 0, 0⟩) := by
  refine ⟨fun H => ?_, fun _ _ _ _ _ => rfl⟩
  have := H (fun _ => .fail) 0 true [0x31] none 0 0x20 _ _ rfl (by decide)
  simp [Win.openCreate] at this

/-- **C102 is violated on Linux**: an object whose list of names has a name that is not in its map is written up to that name,
over the file. -/
theorem C102_violated_linux (N : NumOps D) : ¬ C102_statement_of (File.writeDoc N) := by
  intro H
  have := H (fun _ => .done 9) 2 true [0x31] (some (.obj .nil [[0x61]])) 0 0x20 .kMissingObjectElement
    ⟨[0x7B, 0x0A], 2, 1⟩ rfl (by decide)
  simp at this

/-- Such an object can be made with the library: data with a field `a` and a map handled with the same value. Serializing the map
removes the member `a` but not its name. Whatever the file held, `{` and a line feed are written over it. -/
theorem C102_violated_reachable : ∃ v : Value Dec,
    Serial.serializeFrom ⟨false, 0, 0⟩ (.struct 0 (.named false [0x61] .bool (.here (.map .bool) .nil))) (true, [], ()) =
      .ok (.kOk, v) ∧
    ∀ os old, (∀ i, os i = .done 9) → ∃ f, File.writeDoc natOps os 2 true old (some v) 0 0x20 =
      .ok (.kMissingObjectElement, some f) ∧ f.content = [0x7B, 0x0A] ++ old.drop 2 := by
  refine ⟨.obj .nil [[0x61]], rfl, fun os old hos => ?_⟩
  have h : File.writeFile os 2 [0x7B, 0x0A] (File.openCreate old) =
      .ok (true, (File.openCreate old).put [0x7B, 0x0A]) := by
    have := hos 0
    simp [File.writeFile, File.openCreate, this]
  refine ⟨(File.openCreate old).put [0x7B, 0x0A], ?_, by simp [WFile.put, File.openCreate]⟩
  have hw : writeValue natOps 0 0x20 2 [] (.obj .nil [[0x61]]) = .ok ⟨.kMissingObjectElement, [[0x7B, 0x0A]], []⟩ := rfl
  unfold File.writeDoc
  simp only [Bool.true_eq_false, if_false, hw, Out.ok_bind, File.writeChunks, h]

theorem C102_violated (N : NumOps D) : ¬ C102_statement N := fun H => (C102_violated_windows N).1 H.1

/-- **C102, the part that holds**: a file that cannot be opened is not changed, on both systems; without a document the file is
not changed on Linux, and `WriteFile` is not called at all. Missing: an absent document on Windows, objects with names that are
not in the map. -/
theorem C102_unchanged_partial (N : NumOps D) (os : Sched) (n : Nat) (old : Bytes) (root : Option (Value D)) (il : Nat)
    (ic : Byte) :
    Win.writeDoc N os n false old root il ic = .ok (.KFileOpenError, none) ∧
    File.writeDoc N os n false old root il ic = .ok (.KFileOpenError, none) ∧
    File.writeDoc N os n true old none il ic = .ok (.kInvalidStructuredData, some ⟨old, 0, 0⟩) :=
  ⟨rfl, rfl, rfl⟩

example : File.writeDoc natOps (fun _ => .done 2) 5 true [0x31, 0x32] none 0 0x20 =
    .ok (.kInvalidStructuredData, some ⟨[0x31, 0x32], 0, 0⟩) := rfl

/-! ## C103 -/

/-- **C103.** For every file name (a C string with arbitrary bytes, in a buffer with anything behind it) the wide name is
computed without undefined behaviour, in a block of exactly the size needed, and is the terminated UTF-16 text of the
characters of the name; a byte at which no character begins counts as U+FFFD. -/
theorem C103_wide_name (g8 : Nat → Byte) (g16 : Nat → UInt16) (s r : Bytes) (h0 : 0 ∉ s) :
    ∃ cps, Reads8 s cps ∧ Win.openName g8 g16 (s ++ 0 :: r) = .ok (utf16s cps ++ [0]) ∧ 0 ∉ utf16s cps := by
  obtain ⟨d, hd, hwf⟩ := Dyn.newText_wf g8 (t := s ++ 0 :: r) (a := s) ⟨h0, r, rfl⟩
  obtain ⟨-, r', e⟩ := hwf.holds
  obtain ⟨cps, hr, h1, h2⟩ := C47_any_text s r' h0
  refine ⟨cps, hr, ?_, ?_⟩
  · unfold Win.openName Win.newName
    rw [hd, Out.ok_bind, e, h1, Out.ok_bind, h2 _ (by rw [Win.length_fresh16]; exact Nat.le_refl _),
      List.drop_of_length_le (by rw [Win.length_fresh16]; exact Nat.le_refl _), List.append_nil]
  · have := reads8_range hr h0
    exact utf16s_nul_free this

theorem win_toString (g : Nat → Byte) (w q : Units) (h0 : 0 ∉ w) :
    ∃ s, Win.toString g (w ++ 0 :: q) = .ok s ∧ Dyn.WF s (utf8s (read16 w)) := by
  have hn : (0 : Byte) ∉ utf8s (read16 w) := (C47_any_wide w q h0 (List.replicate _ 0) (by
    rw [List.length_replicate]; exact Nat.le_refl _)).2.2.2
  have hlen := (C47_any_wide w q h0 (List.replicate _ 0) (by rw [List.length_replicate]; exact Nat.le_refl _)).1
  have key : ∃ s, Dyn.setLength g (utf8s (read16 w)).length Dyn.newEmpty = .ok s ∧
      s.logical = (utf8s (read16 w)).length + 1 ∧ s.data.length = s.physical ∧ s.loc.length = 16 ∧
      (utf8s (read16 w)).length + 1 ≤ s.data.length := Win.setLength_new g _
  obtain ⟨s, h1, h2, h3, h4, h5⟩ := key
  have hc := (C47_any_wide w q h0 s.data h5).2.1
  refine ⟨_, by unfold Win.toString; rw [hlen, Out.ok_bind, h1, Out.ok_bind, hc, Out.ok_bind], ?_⟩
  exact Dyn.wf_store' h2 h3 h4 (by simp; omega) ⟨hn, _, by rw [List.append_assoc]; rfl⟩

/-- **C103, back.** `WCharBuffer` converts back to a `String` that holds the UTF-8 text of the characters of the block, halves of
surrogate pairs standing alone being ignored, with the right length and inside its storage. -/
theorem C103_back (g : Nat → Byte) (w q : Units) (h0 : 0 ∉ w) :
    ∃ s, Win.toString g (w ++ 0 :: q) = .ok s ∧ s.logical = (utf8s (read16 w)).length + 1 ∧
      Texts.Holds s.data (utf8s (read16 w)) ∧ s.data.length = s.physical := by
  obtain ⟨s, h1, h2⟩ := win_toString g w q h0
  exact ⟨s, h1, h2.logical, h2.holds, h2.block⟩

/-- **C103, valid names**: the wide name of a valid UTF-8 name converts back to the name; so different valid names give
different wide names. -/
theorem C103_round_trip (g8 : Nat → Byte) (g16 : Nat → UInt16) (cps : List Nat) (h : ∀ cp ∈ cps, IsScalar cp ∧ cp ≠ 0)
    (r : Bytes) :
    (Win.openName g8 g16 (utf8s cps ++ 0 :: r) = .ok (utf16s cps ++ [0])) ∧
    (∃ s, Win.toString g8 (utf16s cps ++ [0]) = .ok s ∧ Texts.Holds s.data (utf8s cps)) ∧
    ∀ cps', (∀ cp ∈ cps', IsScalar cp ∧ cp ≠ 0) →
      Win.openName g8 g16 (utf8s cps ++ 0 :: r) = Win.openName g8 g16 (utf8s cps' ++ 0 :: r) → cps = cps' := by
  have key : ∀ cps : List Nat, (∀ cp ∈ cps, IsScalar cp ∧ cp ≠ 0) →
      Win.openName g8 g16 (utf8s cps ++ 0 :: r) = .ok (utf16s cps ++ [0]) := by
    intro cps h
    have hr : ∀ cp ∈ cps, cp < 0x110000 ∧ cp ≠ 0 := fun cp hc => ⟨scalar_lt' (h cp hc).1, (h cp hc).2⟩
    obtain ⟨c', h1, h2, -⟩ := C103_wide_name g8 g16 (utf8s cps) r (Wide.utf8s_nul_free hr)
    have := reads8_unique h1 (reads8_utf8s fun cp hc => (hr cp hc).1)
    rw [h2, this]
  have hr : ∀ cp ∈ cps, cp < 0x110000 ∧ cp ≠ 0 := fun cp hc => ⟨scalar_lt' (h cp hc).1, (h cp hc).2⟩
  refine ⟨key cps h, ?_, ?_⟩
  · obtain ⟨s, h1, h2⟩ := win_toString g8 (utf16s cps) [] (utf16s_nul_free hr)
    refine ⟨s, h1, ?_⟩
    have := h2.holds
    rwa [read16_utf16s fun cp hc => (h cp hc).1] at this
  · intro cps' h' e
    rw [key cps h, key cps' h'] at e
    have e' : utf16s cps = utf16s cps' := by simpa using e
    rw [← read16_utf16s fun cp hc => (h cp hc).1, ← read16_utf16s fun cp hc => (h' cp hc).1, e']

/-- Names that are not valid may give the same wide name: any two bad bytes do. -/
theorem C103_not_injective : ∃ s s' : Bytes, s ≠ s' ∧ 0 ∉ s ∧ 0 ∉ s' ∧
    Win.openName (fun _ => 7) (fun _ => 7) (s ++ [0]) = Win.openName (fun _ => 7) (fun _ => 7) (s' ++ [0]) :=
  ⟨[0xFF], [0xFE], by decide, by decide, by decide, by decide +kernel⟩

/-- "é😀.json". -/
example : Win.openName (fun _ => 7) (fun _ => 7) [0xC3, 0xA9, 0xF0, 0x9F, 0x98, 0x80, 0x2E, 0x6A, 0x73, 0x6F, 0x6E, 0] =
    .ok [0xE9, 0xD83D, 0xDE00, 0x2E, 0x6A, 0x73, 0x6F, 0x6E, 0] := by decide +kernel

example : (Win.toString (fun _ => 7) [0xE9, 0xD83D, 0xDE00, 0x2E, 0] >>= fun s => .ok (s.logical, s.data.take 8)) =
    .ok (8, [0xC3, 0xA9, 0xF0, 0x9F, 0x98, 0x80, 0x2E, 0]) := by decide +kernel

/-! ## C104 -/

/-- The full statement of C104: for every `uint32` limit, the blank buffer is `maxLength + 1` zeros, and the copy of a source
that has `maxLength` units or a terminator holds the units before the terminator, at most `maxLength` of them, terminated. -/
def C104_statement : Prop :=
  ∀ (g : Nat → UInt16) (maxLength : Nat), maxLength < 2 ^ 32 →
    Win.newBlank g maxLength = .ok (List.replicate (maxLength + 1) 0) ∧
    ∀ (w str : Units), 0 ∉ w → (str = w ∧ w.length = maxLength ∨ ∃ q, str = w ++ 0 :: q) →
      ∃ b, Win.newCopy g str maxLength = .ok b ∧ b.length = maxLength + 1 ∧ ∃ t, b = w.take maxLength ++ 0 :: t

/-- **C104 is violated**: a source of exactly `maxLength` units is read one unit too far, for every such source. -/
theorem C104_violated_source (g : Nat → UInt16) : ∀ (w : Units), 0 ∉ w → w.length + 1 < 2 ^ 32 →
    Win.newCopy g w w.length = .ub := by
  intro w h0 hl
  have key : ∀ (w pre old : Units), 0 ∉ w → w.length ≤ old.length →
      Win.copyLoop w w.length pre.length (pre ++ old) = .ub := by
    intro w
    induction w with
    | nil => intros; rfl
    | cons u w ih =>
        intro pre old h0 h
        cases old with
        | nil => simp at h
        | cons o old =>
            rw [List.length_cons, Win.copyLoop, if_neg (fun e => h0 (by simp [e])), wr16, if_pos (by simp), Out.ok_bind]
            have e : (pre ++ o :: old).set pre.length u = (pre ++ [u]) ++ old := by simp
            have := ih (pre ++ [u]) old (fun hm => h0 (by simp [hm])) (by simpa using h)
            rw [List.length_append, List.length_singleton] at this
            rw [e, this]
  unfold Win.newCopy
  have := key w [] (Win.fresh16 g ((w.length + 1) % 2 ^ 32)) h0 (by
    rw [Win.length_fresh16, Nat.mod_eq_of_lt hl]; omega)
  rw [List.length_nil, List.nil_append] at this
  rw [this]; rfl

theorem C104_violated : ¬ C104_statement := by
  intro H
  obtain ⟨b, hb, -⟩ := (H (fun _ => 7) 1 (by decide)).2 [0x61] [0x61] (by decide) (.inl ⟨rfl, rfl⟩)
  have := C104_violated_source (fun _ => 7) [0x61] (by decide) (by decide)
  rw [List.length_singleton, hb] at this
  simp at this

/-- With the largest limit the block has no units at all, and storing the first zero is outside. -/
theorem C104_violated_limit (g : Nat → UInt16) : Win.newBlank g 4294967295 = .ub := by
  have e : (4294967295 + 1) % 2 ^ 32 = 0 := by decide
  have h : ∀ m, Win.zeroLoop (m + 1) 0 [] = .ub := fun _ => rfl
  unfold Win.newBlank
  rw [e]
  exact congrArg (· >>= _) (h 4294967294)

/-- **C104, the part that holds**: below the largest limit the blank buffer is all zeros, and the copy is right if the source has a
terminator or one more unit than the limit. Missing: sources of exactly `maxLength` units, and the limit `2³² - 1`. -/
theorem C104_buffers_partial (g : Nat → UInt16) (maxLength : Nat) (hm : maxLength + 1 < 2 ^ 32) :
    Win.newBlank g maxLength = .ok (List.replicate (maxLength + 1) 0) ∧
    ∀ (w q : Units) (z : UInt16), 0 ∉ w → (z = 0 ∨ maxLength ≤ w.length) →
      ∃ b, Win.newCopy g (w ++ z :: q) maxLength = .ok b ∧ b.length = maxLength + 1 ∧
        ∃ t, b = w.take maxLength ++ 0 :: t := by
  have hf : (Win.fresh16 g (maxLength + 1)).length = maxLength + 1 := Win.length_fresh16 _ _
  constructor
  · unfold Win.newBlank
    rw [Nat.mod_eq_of_lt hm]
    have := Win.zeroLoop_spec maxLength [] (Win.fresh16 g (maxLength + 1)) (by omega)
    rw [List.length_nil, List.nil_append, List.nil_append] at this
    have hd : ((Win.fresh16 g (maxLength + 1)).drop maxLength).length = 1 := by rw [List.length_drop]; omega
    obtain ⟨x, hx⟩ := List.length_eq_one_iff.1 hd
    rw [this, Out.ok_bind, hx, wr16, if_pos (by simp), List.set_append_right _ _ (by simp), List.length_replicate,
      Nat.sub_self, List.set_cons_zero, List.replicate_succ']
  · intro w q z h0 hz
    unfold Win.newCopy
    rw [Nat.mod_eq_of_lt hm]
    have := Win.copyLoop_spec w z q maxLength [] (Win.fresh16 g (maxLength + 1)) h0 hz (by omega)
    rw [List.length_nil, List.nil_append, List.nil_append, Nat.zero_add] at this
    have hl : (w.take maxLength).length = min maxLength w.length := List.length_take
    obtain ⟨x, old, hx⟩ : ∃ x old, (Win.fresh16 g (maxLength + 1)).drop (min maxLength w.length) = x :: old := by
      cases hd : (Win.fresh16 g (maxLength + 1)).drop (min maxLength w.length) with
      | nil =>
          have := congrArg List.length hd
          rw [List.length_drop, List.length_nil] at this; omega
      | cons x old => exact ⟨x, old, rfl⟩
    have hol : old.length + 1 + min maxLength w.length = maxLength + 1 := by
      have := congrArg List.length hx
      rw [List.length_drop, List.length_cons] at this; omega
    rw [this, Out.ok_bind, hx]
    simp only
    rw [wr16, if_pos (by rw [List.length_append, List.length_cons]; omega), Out.ok_bind,
      List.set_append_right _ _ (by omega), hl, Nat.sub_self, List.set_cons_zero, wr16,
      if_pos (by rw [List.length_append, List.length_cons]; omega), List.set_append_right _ _ (by omega), hl]
    refine ⟨_, rfl, ?_, ?_⟩
    · rw [List.length_append, List.length_set, List.length_cons]; omega
    · cases hc : maxLength - min maxLength w.length with
      | zero => exact ⟨old, by rw [List.set_cons_zero]⟩
      | succ c => exact ⟨_, by rw [List.set_cons_succ]⟩

example : Win.newBlank (fun _ => 7) 3 = .ok [0, 0, 0, 0] ∧
    Win.newCopy (fun _ => 7) [0x61, 0x62, 0, 9] 4 = .ok [0x61, 0x62, 0, 7, 0] ∧
    Win.newCopy (fun _ => 7) [0x61, 0x62, 0x63, 0x64] 2 = .ok [0x61, 0x62, 0] ∧
    Win.newCopy (fun _ => 7) [0x61, 0x62] 2 = .ub := by decide +kernel

/-! ## C105 -/

/-- The full statement of C105, for every disk on which no call fails and every call transfers something. -/
def C105_statement (N : NumOps D) : Prop :=
  ∀ os, NoFailure os → (∀ i, os i ≠ .done 0) → ∀ v il ic old f n m root, ReadableDoc N v → (il = 0 ∨ Ws [ic]) →
    Win.writeDoc N os n true old (some v) il ic = .ok (.kOk, some f) → f.content.length ≤ m →
    ∃ v', Win.parseFile N os m root (some f.content) f.content.length = .ok (⟨.kOk, 0, 0⟩, some v') ∧ SameDoc v v'

/-- On Windows a file of at most 65534 bytes is parsed as the bytes it holds, however many calls it takes to read it. -/
theorem win_parseFile_small (N : NumOps D) (os : Sched) (hos : NoFailure os) (hos' : ∀ i, os i ≠ .done 0) (n : Nat)
    (root : Option (Value D)) (file : Bytes) (hn : file.length ≤ n) (h : file.length ≤ 65534) :
    Win.parseFile N os n root (some file) file.length = parseBuffer N root (file ++ [0]) := by
  obtain ⟨-, h1, -, -, h5⟩ := C99_read_file_partial os file n file.length
  obtain ⟨okay, b, h6, h7⟩ := h5 (Nat.le_refl _) hn h hos'
  have hok := h7 hos
  subst hok
  have hb := h1 b rfl h6
  unfold Win.parseFile
  simp only
  rw [if_neg (by simp [maxFileSize]; omega), h6, hb]
  simp

theorem win_parseFile_large (N : NumOps D) (os : Sched) (n : Nat) (root : Option (Value D)) (file : Bytes) (stat : Nat)
    (h : 65534 < stat) : Win.parseFile N os n root (some file) stat = .ok (⟨.KFileTooLarge, 0, 0⟩, root) := by
  unfold Win.parseFile
  simp only
  rw [if_pos (by simp [maxFileSize]; omega)]

/-- **C105 is violated**: a string of 65534 letters is written as 65536 bytes, and that file is refused. -/
theorem C105_violated (N : NumOps D) : ¬ C105_statement N := by
  intro H
  have key : ∀ m, m = 65534 → False := by
    intro m hm
    have hos : NoFailure (fun _ => Call.done 1) := by intro i; simp
    have hos' : ∀ i : Nat, (fun _ : Nat => Call.done 1) i ≠ .done 0 := by intro i; simp
    have hr : writeValue N 0 0x20 (m + 1) [] (longString m) =
        .ok ⟨.kOk, [[0x22], List.replicate m 0x61, [0x22]], []⟩ := by
      simp only [writeValue, longString, longString_chunks]
    have hlen : ∀ c ∈ ([[0x22], List.replicate m 0x61, [0x22]] : List Bytes), c.length ≤ m + 1 ∧ c.length < 4294967296 := by
      intro c hc
      simp only [List.mem_cons, List.not_mem_nil, or_false] at hc
      rcases hc with rfl | rfl | rfl
      · rw [List.length_singleton]; omega
      · rw [List.length_replicate]; omega
      · rw [List.length_singleton]; omega
    obtain ⟨f, hf⟩ := (C101_file_content N (fun _ => .done 1) (m + 1) [] (longString m) 0 0x20).2 _ hr hos' hlen
    have hc := (C101_file_content N (fun _ => .done 1) (m + 1) [] (longString m) 0 0x20).1 _ f hos
      ⟨m + 1, _, hr, rfl, rfl⟩ hf
    obtain ⟨v', hv, -⟩ := H _ hos hos' _ 0 0x20 [] f (m + 1) f.content.length none (longString_readable N m) (.inl rfl) hf
      (Nat.le_refl _)
    rw [win_parseFile_large N _ _ _ _ _ (by
      rw [hc]
      simp only [List.flatten_cons, List.flatten_nil, List.length_append, List.length_replicate, List.length_singleton]
      omega)] at hv
    simp at hv
  exact key _ rfl

/-- **C105, the part that holds**: on Windows, for every schedule in which no call fails and every call transfers something, and
whatever the file held before, a readable document whose text has between 2 and 65534 bytes is written and parsed back as the
same document. Missing: documents with longer or one-byte texts. -/
theorem C105_round_trip_partial (N : NumOps D) (hN : NegLaw N) (os : Sched) (hos : NoFailure os)
    (hos' : ∀ i, os i ≠ .done 0) (v : Value D) (il : Nat) (ic : Byte) (old : Bytes) (f : WFile) (n m : Nat)
    (root : Option (Value D)) (hr : ReadableDoc N v) (hic : il = 0 ∨ Ws [ic])
    (hw : Win.writeDoc N os n true old (some v) il ic = .ok (.kOk, some f)) (hm : f.content.length ≤ m)
    (h2 : 2 ≤ f.content.length) (hmax : f.content.length ≤ 65534) :
    ∃ v', Win.parseFile N os m root (some f.content) f.content.length = .ok (⟨.kOk, 0, 0⟩, some v') ∧ SameDoc v v' := by
  obtain ⟨out, he, hout⟩ := C18_round_trip_partial N hN v il ic hr hic
  have hc := (C101_file_content N os n old v il ic).1 out f hos he hw
  obtain ⟨v', ha, hs⟩ := hout (by rw [← hc]; exact h2)
  exact ⟨v', by rw [win_parseFile_small N os hos hos' m root _ hm hmax, hc]; exact ha root, hs⟩

/-- Written byte by byte over a longer file, and read byte by byte. -/
example : Win.writeDoc natOps (fun _ => .done 1) 9 true (List.replicate 30 0x78) (some plainExample) 1 0x09 =
      .ok (.kOk, some ⟨[0x5B, 0x0A, 0x09, 0x22, 0x61, 0x22, 0x2C, 0x0A, 0x09, 0x37, 0x0A, 0x5D], 12, 12⟩) ∧
    Win.parseFile natOps (fun _ => .done 1) 12 none
      (some [0x5B, 0x0A, 0x09, 0x22, 0x61, 0x22, 0x2C, 0x0A, 0x09, 0x37, 0x0A, 0x5D]) 12 =
      .ok (⟨.kOk, 0, 0⟩, some plainExample) :=
  ⟨rfl, (win_parseFile_small natOps _ (by intro i; simp) (by intro i; simp) 12 none _ (by decide) (by decide)).trans rfl⟩

theorem win_readLoop_fails (os : Sched) (file : Bytes) (j : Nat) :
    ∀ (n left : Nat) (buffer : Bytes) (pos offset calls : Nat), j < n →
      (∀ i < j, os (calls + i) ≠ .fail) → os (calls + j) = .fail → granted os calls j < left →
      pos + left ≤ buffer.length → ∃ b, Win.readLoop os file n left buffer pos offset calls = .ok (false, b) := by
  induction j with
  | zero =>
    intro n left buffer pos offset calls hn _ hf hg _
    obtain ⟨n, rfl⟩ : ∃ k, n = k + 1 := ⟨n - 1, by omega⟩
    obtain ⟨left, rfl⟩ : ∃ k, left = k + 1 := ⟨left - 1, by omega⟩
    simp only [Nat.add_zero] at hf
    simp only [Win.readLoop, hf]
    exact ⟨_, rfl⟩
  | succ j ih =>
    intro n left buffer pos offset calls hn hok hf hg hb
    obtain ⟨n, rfl⟩ : ∃ k, n = k + 1 := ⟨n - 1, by omega⟩
    obtain ⟨left, rfl⟩ : ∃ k, left = k + 1 := ⟨left - 1, by omega⟩
    cases hc : os calls with
    | fail => exact absurd hc (by simpa using hok 0 (by omega))
    | done k =>
      simp only [granted, hc] at hg
      simp only [Win.readLoop, hc, Win.fill]
      have hd : ((file.drop offset).take (min k ((left + 1) % 2 ^ 32))).length ≤ k := by
        rw [List.length_take]; omega
      have hd' : ((file.drop offset).take (min k ((left + 1) % 2 ^ 32))).length ≤ left + 1 := by
        rw [List.length_take]
        have := Nat.mod_le (left + 1) (2 ^ 32)
        omega
      generalize (file.drop offset).take (min k ((left + 1) % 2 ^ 32)) = data at hd hd' ⊢
      rw [if_neg (by omega)]
      simp only [Out.ok_bind]
      refine ih n _ _ _ _ _ (by omega) ?_ ?_ (by omega) ?_
      · intro i hi
        have := hok (i + 1) (by omega)
        rwa [show calls + (i + 1) = calls + 1 + i by omega] at this
      · rwa [show calls + (j + 1) = calls + 1 + j by omega] at hf
      · simp only [List.length_append, List.length_take, List.length_drop]
        omega

/-- **C105.** If a call of the system's `ReadFile` fails before the file has been delivered, `Parse(fileName)` returns
`KFileReadError` and leaves the document as it was; a file that cannot be opened gives `KFileOpenError`. (`n` only bounds
the number of calls.) -/
theorem C105_read_error (N : NumOps D) (os : Sched) (n j : Nat) (hn : j < n) (root : Option (Value D)) (file : Bytes)
    (stat : Nat) (hs : stat ≤ 65534) (hok : ∀ i < j, os i ≠ .fail) (hf : os j = .fail) (hg : granted os 0 j < stat) :
    Win.parseFile N os n root (some file) stat = .ok (⟨.KFileReadError, 0, 0⟩, root) ∧
    Win.parseFile N os n root none stat = .ok (⟨.KFileOpenError, 0, 0⟩, root) := by
  obtain ⟨b, hb⟩ := win_readLoop_fails os file j n stat (List.replicate (stat + 1) 0) 0 0 0 hn
    (by simpa using hok) (by simpa using hf) hg (by simp)
  refine ⟨?_, rfl⟩
  unfold Win.parseFile
  simp only
  rw [if_neg (by simp [maxFileSize]; omega)]
  unfold Win.readFile
  rw [if_neg (by simp [maxFileSize]; omega), hb]
  simp

/-- The second call fails after two of four bytes. -/
example : Win.parseFile natOps (fun i => if i = 1 then .fail else .done 2) 5 none (some [0x5B, 0x31, 0x31, 0x5D]) 4 =
    .ok (⟨.KFileReadError, 0, 0⟩, none) :=
  (C105_read_error natOps _ 5 1 (by decide) none _ 4 (by decide) (by decide) rfl (by decide)).1

end Verif.Props
