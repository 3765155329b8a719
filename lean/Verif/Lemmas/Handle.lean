import Verif.Model.Handle

/-!
# Lemmas about the descriptors of `File`
-/

namespace Verif.Handle

open Verif Verif.Map Verif.Text Verif.Number Verif.Parser Verif.Doc Verif.Write

variable {D : Type}

theorem readLoop_events (fd : Nat) (os : File.Sched) (file : Bytes) (n left : Nat) (buffer : Bytes)
    (offset calls : Nat) (s : FStatus) (b : Bytes) (ev : List Event)
    (h : readLoop fd os file n left buffer offset calls = .ok (s, b, ev)) : ∀ e ∈ ev, e = .read fd := by
  induction n generalizing left buffer offset calls s b ev with
  | zero =>
    cases left with
    | zero => simp only [readLoop, Out.ok.injEq, Prod.mk.injEq] at h; simp [← h.2.2]
    | succ left => simp [readLoop] at h
  | succ n ih =>
    cases left with
    | zero => simp only [readLoop, Out.ok.injEq, Prod.mk.injEq] at h; simp [← h.2.2]
    | succ left =>
      simp only [readLoop] at h
      cases ho : os calls with
      | fail => simp only [ho, Out.ok.injEq, Prod.mk.injEq] at h; simp [← h.2.2]
      | done k =>
        simp only [ho] at h
        split at h
        · exact absurd h (by simp)
        · rw [Out.bind_eq_ok] at h
          obtain ⟨⟨s', b', ev'⟩, hr, he⟩ := h
          simp only [Out.ok.injEq, Prod.mk.injEq] at he
          intro e hm
          rw [← he.2.2] at hm
          rcases List.mem_cons.1 hm with hm | hm
          · exact hm
          · exact ih _ _ _ _ _ _ _ hr e hm

theorem writeLoop_events (fd : Nat) (os : File.Sched) (n : Nat) (p : Bytes) (f : File.WFile) (s : FStatus)
    (f' : File.WFile) (ev : List Event) (h : writeLoop fd os n p f = .ok (s, f', ev)) : ∀ e ∈ ev, e = .write fd := by
  induction n generalizing p f s f' ev with
  | zero =>
    cases p with
    | nil => simp only [writeLoop, Out.ok.injEq, Prod.mk.injEq] at h; simp [← h.2.2]
    | cons c p => simp [writeLoop] at h
  | succ n ih =>
    cases p with
    | nil => simp only [writeLoop, Out.ok.injEq, Prod.mk.injEq] at h; simp [← h.2.2]
    | cons c p =>
      simp only [writeLoop] at h
      cases ho : os f.calls with
      | fail => simp only [ho, Out.ok.injEq, Prod.mk.injEq] at h; simp [← h.2.2]
      | done k =>
        simp only [ho] at h
        rw [Out.bind_eq_ok] at h
        obtain ⟨⟨s', b', ev'⟩, hr, he⟩ := h
        simp only [Out.ok.injEq, Prod.mk.injEq] at he
        intro e hm
        rw [← he.2.2] at hm
        rcases List.mem_cons.1 hm with hm | hm
        · exact hm
        · exact ih _ _ _ _ _ hr e hm

theorem writeChunks_events (fd : Nat) (os : File.Sched) (n : Nat) (cs : List Bytes) (f : File.WFile)
    (f' : File.WFile) (ev : List Event) (h : writeChunks os n cs f ⟨some fd, false⟩ = .ok (f', ev)) :
    ∀ e ∈ ev, e = .write fd := by
  induction cs generalizing f f' ev with
  | nil => simp only [writeChunks, Out.ok.injEq, Prod.mk.injEq] at h; simp [← h.2]
  | cons c cs ih =>
    simp only [writeChunks, Out.bind_eq_ok] at h
    obtain ⟨⟨s, f1, ev1⟩, h1, ⟨f2, ev2⟩, h2, he⟩ := h
    simp only [Out.ok.injEq, Prod.mk.injEq] at he
    intro e hm
    rw [← he.2] at hm
    rcases List.mem_append.1 hm with hm | hm
    · exact writeLoop_events fd os n c f s f1 ev1 (by simpa [writeFile] using h1) e hm
    · exact ih _ _ _ h2 e hm

/-- Without the events the loop is that of `Verif.File`. -/
theorem readLoop_forget (fd : Nat) (os : File.Sched) (file : Bytes) (n left : Nat) (buffer : Bytes)
    (offset calls : Nat) : (readLoop fd os file n left buffer offset calls >>= fun r =>
      .ok (decide (r.1 = .kFileOkay), r.2.1)) = File.readLoop os file n left buffer offset calls := by
  induction n generalizing left buffer offset calls with
  | zero => cases left <;> simp [readLoop, File.readLoop]
  | succ n ih =>
    cases left with
    | zero => simp [readLoop, File.readLoop]
    | succ left =>
      simp only [readLoop, File.readLoop]
      cases ho : os calls with
      | fail => simp
      | done k =>
        simp only []
        split
        · rfl
        · rw [← ih]
          cases readLoop fd os file n _ _ _ _ <;> rfl

theorem writeLoop_forget (fd : Nat) (os : File.Sched) (n : Nat) (p : Bytes) (f : File.WFile) :
    (writeLoop fd os n p f >>= fun r => .ok (decide (r.1 = .kFileOkay), r.2.1)) = File.writeFile os n p f := by
  induction n generalizing p f with
  | zero => cases p <;> simp [writeLoop, File.writeFile]
  | succ n ih =>
    cases p with
    | nil => simp [writeLoop, File.writeFile]
    | cons c p =>
      simp only [writeLoop, File.writeFile]
      cases ho : os f.calls with
      | fail => simp
      | done k =>
        simp only []
        rw [← ih]
        cases writeLoop fd os n _ _ <;> rfl

theorem writeChunks_forget (fd : Nat) (os : File.Sched) (n : Nat) (cs : List Bytes) (f : File.WFile) :
    (writeChunks os n cs f ⟨some fd, false⟩ >>= fun r => .ok r.1) = File.writeChunks os n cs f := by
  induction cs generalizing f with
  | nil => rfl
  | cons c cs ih =>
    simp only [writeChunks, File.writeChunks, writeFile]
    rw [← writeLoop_forget fd]
    cases writeLoop fd os n c f with
    | ub => rfl
    | fuel => rfl
    | ok r =>
      simp only [Out.ok_bind, Bool.false_eq_true, if_false]
      rw [← ih]
      cases writeChunks os n cs r.2.1 ⟨some fd, false⟩ <;> rfl

end Verif.Handle
