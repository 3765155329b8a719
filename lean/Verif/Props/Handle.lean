import Verif.Lemmas.Handle

/-!
# C106: files are closed, once, and nothing else is

The specification follows the calls of the operating system one by one.
-/

namespace Verif.Props

open Verif Verif.Handle

variable {D : Type}

/-- Following the calls made by one object: `none` while it has no file, else its descriptor and how it was opened. A second
`open` before the `close`, an operation on another descriptor, writing to a file that was opened for
reading, and closing what is not open are all refused. -/
def follow : Option (Nat × Mode) → List Event → Option (Option (Nat × Mode))
  | st, [] => some st
  | none, .failed :: ev => follow none ev
  | none, .opened fd m :: ev => follow (some (fd, m)) ev
  | some (fd, m), .stat x :: ev => if x = fd then follow (some (fd, m)) ev else none
  | some (fd, m), .read x :: ev => if x = fd then follow (some (fd, m)) ev else none
  | some (fd, m), .write x :: ev => if x = fd ∧ m = .create then follow (some (fd, m)) ev else none
  | some (fd, _), .close x :: ev => if x = fd then follow none ev else none
  | _, _ :: _ => none

/-- All calls are in order and in the end no file is open. -/
def Disciplined (ev : List Event) : Prop := follow none ev = some none

instance (ev : List Event) : Decidable (Disciplined ev) := inferInstanceAs (Decidable (_ = _))

/-- The descriptors of the process that are open after the calls. -/
def openAfter (S : List Nat) : List Event → List Nat
  | [] => S
  | .opened fd _ :: ev => openAfter (fd :: S) ev
  | .close fd :: ev => openAfter (S.erase fd) ev
  | _ :: ev => openAfter S ev

theorem follow_append (st st' : Option (Nat × Mode)) (ev ev' : List Event) (h : follow st ev = some st') :
    follow st (ev ++ ev') = follow st' ev' := by
  induction ev generalizing st with
  | nil => simp only [follow, Option.some.injEq] at h; simp [h]
  | cons e ev ih =>
    rcases st with _ | ⟨fd, m⟩ <;> cases e <;> simp only [follow, List.cons_append] at h ⊢ <;> try (split at h)
    all_goals first
      | exact absurd h (by simp)
      | exact ih _ h
      | (rename_i hx; rw [if_pos hx]; exact ih _ h)

theorem follow_reads (fd : Nat) (m : Mode) (ev : List Event) (h : ∀ e ∈ ev, e = .read fd) :
    follow (some (fd, m)) ev = some (some (fd, m)) := by
  induction ev with
  | nil => rfl
  | cons e ev ih =>
    rw [h e List.mem_cons_self]
    simp only [follow, if_true]
    exact ih fun e he => h e (List.mem_cons_of_mem _ he)

theorem follow_writes (fd : Nat) (ev : List Event) (h : ∀ e ∈ ev, e = .write fd) :
    follow (some (fd, .create)) ev = some (some (fd, .create)) := by
  induction ev with
  | nil => rfl
  | cons e ev ih =>
    rw [h e List.mem_cons_self]
    simp only [follow, and_self, if_true]
    exact ih fun e he => h e (List.mem_cons_of_mem _ he)

/-- A disciplined sequence leaves the descriptors of the process as they were. -/
theorem C106_table (S : List Nat) (ev : List Event) (h : Disciplined ev) : openAfter S ev = S := by
  have key : ∀ (ev : List Event) (st : Option (Nat × Mode)) (S : List Nat), follow st ev = some none →
      openAfter ((st.map Prod.fst).toList ++ S) ev = S := by
    intro ev
    induction ev with
    | nil =>
      intro st S h
      simp only [follow, Option.some.injEq] at h
      subst h; rfl
    | cons e ev ih =>
      intro st S h
      rcases st with _ | ⟨fd, m⟩ <;> cases e <;> simp only [follow] at h <;> try (split at h)
      all_goals first
        | exact absurd h (by simp)
        | exact ih none S h
        | exact ih (some (_, _)) S h
        | (rename_i hx; subst hx; simpa [openAfter] using ih none S h)
  exact key ev none S h

/-- Whatever `Parse(fileName)` returns, and whatever the disk and the memory do, its calls of the operating system are
in order, nothing is written, and no file stays open. -/
theorem C106_parse (N : Number.NumOps D) (os : File.Sched) (n : Nat) (root : Option (Parser.Value D)) (answer : Option Nat)
    (content : Bytes) (stat : Nat) (mem : Bool) (r : Doc.ParseResult) (root' : Option (Parser.Value D)) (ev : List Event)
    (h : Handle.parseFile N os n root answer content stat mem = .ok (r, root', ev)) :
    Disciplined ev ∧ ∀ fd, .write fd ∉ ev ∧ .opened fd .create ∉ ev := by
  unfold Handle.parseFile at h
  cases answer with
  | none =>
    simp only [openFile, closeFile, Obj.new, destroy] at h
    simp only [ne_eq, reduceCtorEq, not_false_eq_true, if_true, Out.ok.injEq, Prod.mk.injEq] at h
    rw [← h.2.2]
    exact ⟨rfl, fun fd => by simp⟩
  | some fd =>
    simp only [openFile, closeFile, Obj.new, destroy, getFileSize, Handle.readFile] at h
    simp only [ne_eq, not_true_eq_false, if_false, if_true, List.nil_append, List.append_nil] at h
    split at h
    · simp only [Out.ok.injEq, Prod.mk.injEq] at h
      rw [← h.2.2]
      exact ⟨by simp [Disciplined, follow], fun fd => by simp⟩
    · split at h
      · simp only [Out.ok.injEq, Prod.mk.injEq] at h
        rw [← h.2.2]
        exact ⟨by simp [Disciplined, follow], fun fd => by simp⟩
      · rw [Out.bind_eq_ok] at h
        obtain ⟨⟨s, b, evr⟩, hr, h⟩ := h
        have hev := readLoop_events fd os content n stat _ 0 0 s b evr hr
        have hd : Disciplined ([.opened fd .readOnly] ++ ([.stat fd] ++ (evr ++ [.close fd]))) := by
          rw [Disciplined, follow_append none (some (fd, .readOnly)) _ _ rfl,
            follow_append _ (some (fd, .readOnly)) _ _ (by simp [follow]),
            follow_append _ (some (fd, .readOnly)) _ _ (follow_reads fd .readOnly evr hev)]
          simp [follow]
        have hn : ∀ x, (.write x : Event) ∉ [.opened fd .readOnly] ++ ([.stat fd] ++ (evr ++ [.close fd])) ∧
            (.opened x .create : Event) ∉ [.opened fd .readOnly] ++ ([.stat fd] ++ (evr ++ [.close fd])) := by
          intro x
          constructor <;>
          · intro hm
            simp only [List.mem_append, List.mem_singleton, reduceCtorEq, or_false, false_or,
              Event.opened.injEq, and_false] at hm
            exact absurd (hev _ hm) (by simp)
        split at h
        · simp only [Out.ok.injEq, Prod.mk.injEq] at h
          rw [← h.2.2]
          exact ⟨hd, hn⟩
        · rw [Out.bind_eq_ok] at h
          obtain ⟨⟨r', root''⟩, _, h⟩ := h
          simp only [Out.ok.injEq, Prod.mk.injEq] at h
          rw [← h.2.2]
          exact ⟨hd, hn⟩

/-- The same for `Write(fileName)`, which does not read. -/
theorem C106_write (N : Number.NumOps D) (os : File.Sched) (n : Nat) (answer : Option Nat) (old : Bytes)
    (root : Option (Parser.Value D)) (il : Nat) (ic : Byte) (s : Status) (f : Option File.WFile) (ev : List Event)
    (h : Handle.writeDoc N os n answer old root il ic = .ok (s, f, ev)) :
    Disciplined ev ∧ ∀ fd, .read fd ∉ ev ∧ .opened fd .readOnly ∉ ev := by
  unfold Handle.writeDoc at h
  cases answer with
  | none =>
    simp only [openFile, closeFile, Obj.new, destroy] at h
    simp only [ne_eq, reduceCtorEq, not_false_eq_true, if_true, Out.ok.injEq, Prod.mk.injEq] at h
    rw [← h.2.2]
    exact ⟨rfl, fun fd => by simp⟩
  | some fd =>
    simp only [openFile, closeFile, Obj.new, destroy] at h
    simp only [ne_eq, not_true_eq_false, reduceCtorEq, if_false, List.nil_append, List.append_nil] at h
    cases root with
    | none =>
      simp only [Out.ok.injEq, Prod.mk.injEq] at h
      rw [← h.2.2]
      exact ⟨by simp [Disciplined, follow], fun fd => by simp⟩
    | some v =>
      simp only [Out.bind_eq_ok] at h
      obtain ⟨w, _, ⟨f', evw⟩, hw, h⟩ := h
      simp only [Out.ok.injEq, Prod.mk.injEq] at h
      have hev := writeChunks_events fd os n w.chunks _ f' evw hw
      rw [← h.2.2]
      refine ⟨?_, fun x => ?_⟩
      · rw [Disciplined, follow_append none (some (fd, .create)) _ _ rfl,
          follow_append _ (some (fd, .create)) _ _ (follow_writes fd evw hev)]
        simp [follow]
      · constructor <;>
        · intro hm
          simp only [List.mem_append, List.mem_singleton, reduceCtorEq, or_false, false_or,
            Event.opened.injEq, and_false] at hm
          exact absurd (hev _ hm) (by simp)

/-- What the members of an object say about the calls made so far. -/
def Agrees (o : Obj) : Option (Nat × Mode) → Prop
  | none => o.fd = none
  | some (fd, m) => o.fd = some fd ∧ (o.isReadOnly = false → m = .create)

theorem call_follow (c : Op) (o o' : Obj) (st : Option (Nat × Mode)) (ev : List Event) (ha : Agrees o st)
    (h : call c o = .ok (o', ev)) : ∃ st', follow st ev = some st' ∧ Agrees o' st' := by
  have hclose : follow st (closeFile o).2 = some none ∧ (closeFile o).1.fd = none := by
    rcases st with _ | ⟨fd, m⟩
    · simp only [Agrees] at ha
      simp [closeFile, ha, follow]
    · simp only [Agrees] at ha
      simp [closeFile, ha.1, follow]
  cases c with
  | openFile answer mode =>
    simp only [call, Out.ok.injEq, Prod.mk.injEq] at h
    rw [← h.1, ← h.2]
    cases answer with
    | none =>
      refine ⟨none, ?_, hclose.2⟩
      simp only [openFile]
      rw [follow_append _ _ _ _ hclose.1]
      rfl
    | some fd =>
      refine ⟨some (fd, mode), ?_, ?_⟩
      · have : (openFile (some fd) mode o).2.2 = (closeFile o).2 ++ [.opened fd mode] := by
          cases mode <;> simp [openFile]
        rw [this, follow_append _ _ _ _ hclose.1]
        rfl
      · cases mode <;> simp [openFile, Agrees]
  | closeFile =>
    simp only [call, Out.ok.injEq] at h
    rw [← show (closeFile o).1 = o' by rw [h], ← show (closeFile o).2 = ev by rw [h]]
    exact ⟨none, hclose.1, hclose.2⟩
  | getFileSize size =>
    simp only [call, Out.ok.injEq, Prod.mk.injEq] at h
    rw [← h.1, ← h.2]
    refine ⟨st, ?_, ha⟩
    rcases st with _ | ⟨fd, m⟩
    · simp only [Agrees] at ha
      simp [getFileSize, ha, follow]
    · simp only [Agrees] at ha
      simp [getFileSize, ha.1, follow]
  | readFile os file n buffer size =>
    simp only [call, Out.bind_eq_ok] at h
    obtain ⟨⟨s, b, ev'⟩, hr, h⟩ := h
    simp only [Out.ok.injEq, Prod.mk.injEq] at h
    rw [← h.1, ← h.2]
    refine ⟨st, ?_, ha⟩
    rcases st with _ | ⟨fd, m⟩
    · simp only [Agrees] at ha
      simp only [readFile, ha, Out.ok.injEq, Prod.mk.injEq] at hr
      rw [← hr.2.2]; rfl
    · simp only [Agrees] at ha
      simp only [readFile, ha.1] at hr
      split at hr
      · simp only [Out.ok.injEq, Prod.mk.injEq] at hr
        rw [← hr.2.2]; rfl
      · exact follow_reads fd m ev' (readLoop_events fd os file n size buffer 0 0 s b ev' hr)
  | writeFile os n buffer f =>
    simp only [call, Out.bind_eq_ok] at h
    obtain ⟨⟨s, b, ev'⟩, hr, h⟩ := h
    simp only [Out.ok.injEq, Prod.mk.injEq] at h
    rw [← h.1, ← h.2]
    refine ⟨st, ?_, ha⟩
    unfold writeFile at hr
    cases hro : o.isReadOnly with
    | true =>
      simp only [hro, if_true, Out.ok.injEq, Prod.mk.injEq] at hr
      rw [← hr.2.2]; rfl
    | false =>
      rcases st with _ | ⟨fd, m⟩
      · simp only [Agrees] at ha
        simp only [hro, ha, Bool.false_eq_true, if_false, Out.ok.injEq, Prod.mk.injEq] at hr
        rw [← hr.2.2]; rfl
      · simp only [Agrees] at ha
        simp only [hro, ha.1, Bool.false_eq_true, if_false] at hr
        rw [ha.2 hro]
        exact follow_writes fd ev' (writeLoop_events fd os n buffer f s b ev' hr)

theorem calls_follow : ∀ (ops : List Op) (o o' : Obj) (st : Option (Nat × Mode)) (ev : List Event), Agrees o st →
    calls ops o = .ok (o', ev) → ∃ st', follow st ev = some st' ∧ Agrees o' st' := by
  intro ops
  induction ops with
  | nil =>
    intro o o' st ev ha h
    simp only [calls, Out.ok.injEq, Prod.mk.injEq] at h
    exact ⟨st, by rw [← h.2]; cases st <;> rfl, h.1 ▸ ha⟩
  | cons c ops ih =>
    intro o o' st ev ha h
    simp only [calls, Out.bind_eq_ok] at h
    obtain ⟨⟨o1, ev1⟩, h1, ⟨o2, ev2⟩, h2, he⟩ := h
    simp only [Out.ok.injEq, Prod.mk.injEq] at he
    obtain ⟨st1, hf1, ha1⟩ := call_follow c o o1 st ev1 ha h1
    obtain ⟨st2, hf2, ha2⟩ := ih o1 o2 st1 ev2 ha1 h2
    exact ⟨st2, by rw [← he.2, follow_append _ _ _ _ hf1, hf2], he.1 ▸ ha2⟩

/-- Every history of calls of the member functions of one `File`, ended by its destructor: the calls of the operating system
are in order and in the end no file is open. -/
theorem C106_history (ops : List Op) (o : Obj) (ev : List Event) (h : calls ops .new = .ok (o, ev)) :
    Disciplined (ev ++ destroy o) := by
  obtain ⟨st, hf, ha⟩ := calls_follow ops .new o none ev rfl h
  rw [Disciplined, follow_append _ _ _ _ hf]
  rcases st with _ | ⟨fd, m⟩
  · simp only [Agrees] at ha
    simp [destroy, closeFile, ha, follow]
  · simp only [Agrees] at ha
    simp [destroy, closeFile, ha.1, follow]

/-- An object only becomes read-only by opening a file for reading. -/
theorem calls_readOnly (ops : List Op) : ∀ (o o' : Obj) (ev : List Event), calls ops o = .ok (o', ev) →
    o'.isReadOnly = true → o.isReadOnly = true ∨ ∃ fd, .opened fd .readOnly ∈ ev := by
  induction ops with
  | nil =>
    intro o o' ev h hr
    simp only [calls, Out.ok.injEq, Prod.mk.injEq] at h
    exact .inl (h.1 ▸ hr)
  | cons c ops ih =>
    intro o o' ev h hr
    simp only [calls, Out.bind_eq_ok] at h
    obtain ⟨⟨o1, ev1⟩, h1, ⟨o2, ev2⟩, h2, he⟩ := h
    simp only [Out.ok.injEq, Prod.mk.injEq] at he
    rw [← he.2]
    rcases ih o1 o2 ev2 h2 (he.1 ▸ hr) with h | ⟨fd, h⟩
    rotate_left
    · exact .inr ⟨fd, List.mem_append_right _ h⟩
    have hclose : (closeFile o).1.isReadOnly = o.isReadOnly := by
      unfold closeFile; cases o.fd <;> rfl
    cases c with
    | openFile answer mode =>
      simp only [call, Out.ok.injEq, Prod.mk.injEq] at h1
      rw [← h1.1] at h
      rw [← h1.2]
      cases answer with
      | none =>
        simp only [openFile] at h
        exact .inl (hclose ▸ h)
      | some fd =>
        cases mode with
        | readOnly => exact .inr ⟨fd, by simp [openFile]⟩
        | create => simp [openFile] at h
    | closeFile =>
      simp only [call, Out.ok.injEq] at h1
      rw [← show (closeFile o).1 = o1 by rw [h1], hclose] at h
      exact .inl h
    | getFileSize size =>
      simp only [call, Out.ok.injEq, Prod.mk.injEq] at h1
      exact .inl (h1.1 ▸ h)
    | readFile os file n buffer size =>
      simp only [call, Out.bind_eq_ok] at h1
      obtain ⟨_, _, h1⟩ := h1
      simp only [Out.ok.injEq, Prod.mk.injEq] at h1
      exact .inl (h1.1 ▸ h)
    | writeFile os n buffer f =>
      simp only [call, Out.bind_eq_ok] at h1
      obtain ⟨_, _, h1⟩ := h1
      simp only [Out.ok.injEq, Prod.mk.injEq] at h1
      exact .inl (h1.1 ▸ h)

/-- As long as no file is open after a history of calls, nothing is read and nothing is written, and the object says so: its
size is 0, reading gives `kFileNotOpen` and leaves the buffer, writing gives `kFileNotOpen` if no file has been
opened for reading before, and an error in any case (`CloseFile` does not reset `IsReadOnly`). -/
theorem C106_not_open (ops : List Op) (o : Obj) (ev : List Event) (h : calls ops .new = .ok (o, ev))
    (hc : Disciplined ev) (os : File.Sched) (n size : Nat) (file buffer : Bytes) (f : File.WFile) :
    getFileSize size o = (0, []) ∧
    Handle.readFile os file n buffer size o = .ok (.kFileNotOpen, buffer, []) ∧
    (∃ s, Handle.writeFile os n buffer f o = .ok (s, f, []) ∧ s ≠ .kFileOkay) ∧
    ((∀ fd, .opened fd .readOnly ∉ ev) → Handle.writeFile os n buffer f o = .ok (.kFileNotOpen, f, [])) := by
  obtain ⟨st, hf, ha⟩ := calls_follow ops .new o none ev rfl h
  rw [hc, Option.some.injEq] at hf
  subst hf
  simp only [Agrees] at ha
  refine ⟨by simp [getFileSize, ha], by simp [Handle.readFile, ha], ?_, fun hn => ?_⟩
  · unfold Handle.writeFile
    cases o.isReadOnly <;> simp [ha]
  · have hr : o.isReadOnly = false := by
      cases hr : o.isReadOnly with
      | false => rfl
      | true =>
        rcases calls_readOnly ops .new o ev h hr with h | ⟨fd, h⟩
        · exact absurd h (by decide)
        · exact absurd h (hn fd)
    simp [Handle.writeFile, hr, ha]

/-- After a file has been written and closed; and the same after reading. -/
example : (∃ o ev, calls [.openFile (some 3) .create, .closeFile] .new = .ok (o, ev) ∧
      Handle.writeFile (fun _ => .done 1) 2 [65] ⟨[], 0, 0⟩ o = .ok (.kFileNotOpen, ⟨[], 0, 0⟩, [])) ∧
    (∃ o ev, calls [.openFile (some 3) .readOnly, .closeFile] .new = .ok (o, ev) ∧
      Handle.writeFile (fun _ => .done 1) 2 [65] ⟨[], 0, 0⟩ o = .ok (.kFileWriteError, ⟨[], 0, 0⟩, [])) :=
  ⟨⟨⟨none, false⟩, [.opened 3 .create, .close 3], rfl,
    (C106_not_open [.openFile (some 3) .create, .closeFile] _ [.opened 3 .create, .close 3] rfl (by decide) _ 2 0 []
      [65] _).2.2.2 (by intro fd; simp)⟩, _, _, rfl, rfl⟩

/-- The functions followed here compute what the functions of C20 to C24 compute. -/
theorem C106_same (N : Number.NumOps D) (os : File.Sched) (n : Nat) (root : Option (Parser.Value D)) (answer : Option Nat)
    (content : Bytes) (stat il : Nat) (ic : Byte) :
    (Handle.parseFile N os n root answer content stat true >>= fun r => .ok (r.1, r.2.1))
      = File.parseFile N os n root (answer.map fun _ => content) stat ∧
    (Handle.writeDoc N os n answer content root il ic >>= fun r => .ok (r.1, r.2.1))
      = File.writeDoc N os n answer.isSome content root il ic := by
  constructor
  · unfold Handle.parseFile File.parseFile
    cases answer with
    | none => simp [openFile, closeFile, Obj.new]
    | some fd =>
      simp only [openFile, closeFile, Obj.new, destroy, getFileSize, Handle.readFile, File.readFile, Option.map_some]
      simp only [ne_eq, not_true_eq_false, if_false, if_true, Bool.true_eq_false]
      by_cases hs : stat > File.maxFileSize
      · simp [hs]
      · simp only [hs, if_false]
        rw [← readLoop_forget fd]
        cases Handle.readLoop fd os content n stat _ 0 0 with
        | ub => rfl
        | fuel => rfl
        | ok r =>
          obtain ⟨s, b, ev⟩ := r
          simp only [Out.ok_bind]
          by_cases hk : s = .kFileOkay
          · simp only [hk, not_true_eq_false, if_false, decide_true, Bool.true_eq_false]
            cases Doc.parseBuffer N root b <;> rfl
          · simp [hk]
  · unfold Handle.writeDoc File.writeDoc
    cases answer with
    | none => simp [openFile, closeFile, Obj.new]
    | some fd =>
      simp only [openFile, closeFile, Obj.new, destroy]
      simp only [ne_eq, not_true_eq_false, reduceCtorEq, if_false, Option.isSome_some, Bool.true_eq_false]
      cases root with
      | none => rfl
      | some v =>
        simp only []
        cases Write.writeValue N il ic n [] v with
        | ub => rfl
        | fuel => rfl
        | ok w =>
          simp only [Out.ok_bind]
          rw [← writeChunks_forget fd]
          cases Handle.writeChunks os n w.chunks (File.openCreate content) ⟨some fd, false⟩ <;> rfl

/-- Three files opened one after the other with one object, the second `open` failing: two `close`, the second by the
destructor. -/
example : ∃ o ev, calls [.openFile (some 3) .create, .openFile none .readOnly, .openFile (some 4) .readOnly,
      .writeFile (fun _ => .done 1) 2 [65] ⟨[], 0, 0⟩, .getFileSize 7] .new = .ok (o, ev) ∧
    ev ++ destroy o = [.opened 3 .create, .close 3, .failed, .opened 4 .readOnly, .stat 4, .close 4] ∧
    openAfter [0, 1, 2] (ev ++ destroy o) = [0, 1, 2] :=
  ⟨_, _, rfl, by decide, by decide⟩

/-- What is refused. -/
example : ¬ Disciplined [.opened 3 .create] ∧ ¬ Disciplined [.opened 3 .create, .close 3, .close 3] ∧
    ¬ Disciplined [.opened 3 .readOnly, .write 3, .close 3] ∧ ¬ Disciplined [.opened 3 .create, .opened 4 .create, .close 4] ∧
    ¬ Disciplined [.opened 3 .create, .write 4, .close 3] := by
  simp [Disciplined, follow]

end Verif.Props
