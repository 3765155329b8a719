import Verif.Lemmas.Write

/-! # Lemmas about files -/

namespace Verif.File

open Verif Verif.Map Verif.Text Verif.Number Verif.Parser Verif.Doc Verif.Spec Verif.Write Verif.Props

variable {D : Type}

/-- The content after `q` was stored at an offset. -/
def stored (content : Bytes) (offset : Nat) (q : Bytes) : Bytes :=
  content.take offset ++ (q ++ content.drop (offset + q.length))

theorem stored_length {content : Bytes} {offset : Nat} (q : Bytes) (h : offset ≤ content.length) :
    offset + q.length ≤ (stored content offset q).length := by
  unfold stored
  simp only [List.length_append, List.length_take, List.length_drop]
  omega

theorem stored_nil (content : Bytes) (offset : Nat) : stored content offset [] = content := by
  simp [stored]

theorem stored_stored {content : Bytes} {offset : Nat} (q q' : Bytes) (h : offset ≤ content.length) :
    stored (stored content offset q) (offset + q.length) q' = stored content offset (q ++ q') := by
  unfold stored
  have h1 : (List.take offset content).length = offset := by simp; omega
  have e1 : List.take (offset + q.length) (List.take offset content ++ (q ++ List.drop (offset + q.length) content)) =
      List.take offset content ++ q := by
    rw [← List.append_assoc, List.take_left']
    simp; omega
  have e2 : List.drop (offset + q.length + q'.length)
      (List.take offset content ++ (q ++ List.drop (offset + q.length) content)) =
      List.drop (offset + q.length + q'.length) content := by
    rw [← List.append_assoc, List.drop_append, List.drop_eq_nil_of_le (by simp; omega)]
    simp only [List.nil_append, List.length_append, h1, List.drop_drop]
    congr 1
    omega
  rw [e1, e2]
  simp [Nat.add_assoc]

/-- Whatever the schedule, `WriteFile` stores a prefix of the buffer at the offset, and reports success exactly
when it is the whole buffer. -/
theorem writeFile_spec (os : Sched) (n : Nat) (p : Bytes) (f : WFile) (b : Bool) (f' : WFile)
    (h : writeFile os n p f = .ok (b, f')) (ho : f.offset ≤ f.content.length) :
    ∃ q r, p = q ++ r ∧ f'.content = stored f.content f.offset q ∧ f'.offset = f.offset + q.length ∧
      (b = true ↔ r = []) := by
  induction n generalizing p f with
  | zero =>
    cases p with
    | nil =>
      simp only [writeFile, Out.ok.injEq, Prod.mk.injEq] at h
      obtain ⟨rfl, rfl⟩ := h
      exact ⟨[], [], rfl, (stored_nil _ _).symm, rfl, by simp⟩
    | cons c p => simp [writeFile] at h
  | succ n ih =>
    cases p with
    | nil =>
      simp only [writeFile, Out.ok.injEq, Prod.mk.injEq] at h
      obtain ⟨rfl, rfl⟩ := h
      exact ⟨[], [], rfl, (stored_nil _ _).symm, rfl, by simp⟩
    | cons c p =>
      simp only [writeFile] at h
      split at h
      · simp only [Out.ok.injEq, Prod.mk.injEq] at h
        obtain ⟨rfl, rfl⟩ := h
        exact ⟨[], c :: p, rfl, (stored_nil _ _).symm, rfl, by simp⟩
      · rename_i k hk
        obtain ⟨q, r, e, h1, h2, h3⟩ := ih _ _ h (stored_length _ ho)
        refine ⟨(c :: p).take k ++ q, r, ?_, ?_, ?_, h3⟩
        · rw [List.append_assoc, ← e, List.take_append_drop]
        · rw [h1]; exact stored_stored _ _ ho
        · rw [h2]; simp [WFile.put, Nat.add_assoc]

/-- With a schedule that makes progress, `WriteFile` returns. -/
theorem writeFile_total (os : Sched) (hos : ∀ i, os i ≠ .done 0) (n : Nat) (p : Bytes) (f : WFile)
    (h : p.length ≤ n) : ∃ r, writeFile os n p f = .ok r := by
  induction n generalizing p f with
  | zero =>
    cases p with
    | nil => exact ⟨_, rfl⟩
    | cons c p => simp at h
  | succ n ih =>
    cases p with
    | nil => exact ⟨_, rfl⟩
    | cons c p =>
      simp only [writeFile]
      split
      · exact ⟨_, rfl⟩
      · rename_i k hk
        refine ih _ _ ?_
        have : k ≠ 0 := by rintro rfl; exact hos _ hk
        simp only [List.length_drop]; simp at h ⊢; omega

/-- Without failing calls everything is stored. -/
theorem writeFile_true (os : Sched) (hos : ∀ i, os i ≠ .fail) (n : Nat) (p : Bytes) (f : WFile) (b : Bool)
    (f' : WFile) (h : writeFile os n p f = .ok (b, f')) : b = true := by
  induction n generalizing p f with
  | zero =>
    cases p with
    | nil => simp [writeFile] at h; exact h.1.symm ▸ rfl
    | cons c p => simp [writeFile] at h
  | succ n ih =>
    cases p with
    | nil => simp [writeFile] at h; exact h.1.symm ▸ rfl
    | cons c p =>
      simp only [writeFile] at h
      split at h
      · rename_i hk; exact absurd hk (hos _)
      · exact ih _ _ h

theorem writeChunks_spec (os : Sched) (hos : ∀ i, os i ≠ .fail) (n : Nat) (cs : List Bytes) (f f' : WFile)
    (h : writeChunks os n cs f = .ok f') (ho : f.offset ≤ f.content.length) :
    f'.content = stored f.content f.offset cs.flatten ∧ f'.offset = f.offset + cs.flatten.length := by
  induction cs generalizing f with
  | nil =>
    simp only [writeChunks, Out.ok.injEq] at h
    subst h
    exact ⟨(stored_nil _ _).symm, rfl⟩
  | cons c cs ih =>
    simp only [writeChunks] at h
    rw [Out.bind_eq_ok] at h
    obtain ⟨⟨b, f1⟩, h1, h2⟩ := h
    have hb := writeFile_true os hos n c f b f1 h1
    obtain ⟨q, r, e, h3, h4, h5⟩ := writeFile_spec os n c f b f1 h1 ho
    have hr := h5.1 hb
    subst hr
    simp only [List.append_nil] at e
    subst e
    obtain ⟨h6, h7⟩ := ih f1 h2 (by rw [h3, h4]; exact stored_length _ ho)
    rw [h3, h4, stored_stored _ _ ho] at h6
    refine ⟨by simpa using h6, ?_⟩
    rw [h7, h4]; simp [Nat.add_assoc]

theorem writeChunks_fail (os : Sched) (hos : ∀ i, os i = .fail) (n : Nat) (hn : 0 < n) (cs : List Bytes) (f : WFile) :
    ∃ k, writeChunks os n cs f = .ok { f with calls := k } := by
  obtain ⟨n, rfl⟩ : ∃ m, n = m + 1 := ⟨n - 1, by omega⟩
  induction cs generalizing f with
  | nil => exact ⟨f.calls, rfl⟩
  | cons c cs ih =>
    cases c with
    | nil => simpa [writeChunks, writeFile] using ih f
    | cons x c =>
      obtain ⟨k, hk⟩ := ih { f with calls := f.calls + 1 }
      exact ⟨k, by simpa [writeChunks, writeFile, hos] using hk⟩

/-! ## Reading -/

/-- If one call delivers all that is missing, the buffer begins with it. -/
theorem readLoop_one (os : Sched) (file : Bytes) (n left : Nat) (buffer : Bytes) (offset calls k : Nat)
    (hl : left = (file.drop offset).length) (hk : os calls = .done k) (hkl : left ≤ k) (hb : left ≤ buffer.length)
    (hn : 0 < n) :
    readLoop os file n left buffer offset calls = .ok (true, file.drop offset ++ buffer.drop left) := by
  obtain ⟨n, rfl⟩ : ∃ m, n = m + 1 := ⟨n - 1, by omega⟩
  cases left with
  | zero =>
    have : file.drop offset = [] := List.length_eq_zero_iff.1 hl.symm
    simp [readLoop, this]
  | succ left =>
    have e : (file.drop offset).take (min k (left + 1)) = file.drop offset :=
      List.take_of_length_le (by omega)
    simp only [readLoop, hk, e]
    rw [if_neg (by omega), ← hl]
    simp [readLoop]

/-- Reading never leaves the buffer. -/
theorem readLoop_safe (os : Sched) (file : Bytes) (n left : Nat) (buffer : Bytes) (offset calls : Nat)
    (hb : left ≤ buffer.length) : readLoop os file n left buffer offset calls ≠ .ub := by
  induction n generalizing left buffer offset calls with
  | zero => cases left <;> simp [readLoop]
  | succ n ih =>
    cases left with
    | zero => simp [readLoop]
    | succ left =>
      simp only [readLoop]
      split
      · simp
      · rename_i k hk
        have hlen : ((file.drop offset).take (min k (left + 1))).length ≤ left + 1 := by
          simp only [List.length_take]; omega
        rw [if_neg (by omega)]
        refine ih _ _ _ _ ?_
        simp only [List.length_append, List.length_drop]
        omega

/-- When the file ends before `left` bytes have come and no call fails, the loop never ends. -/
theorem readLoop_hang (os : Sched) (hos : ∀ i, os i ≠ .fail) (file : Bytes) (n left : Nat) (buffer : Bytes)
    (offset calls : Nat) (hl : (file.drop offset).length < left) (hb : left ≤ buffer.length) :
    readLoop os file n left buffer offset calls = .fuel := by
  induction n generalizing left buffer offset calls with
  | zero =>
    cases left with
    | zero => simp at hl
    | succ left => rfl
  | succ n ih =>
    cases left with
    | zero => simp at hl
    | succ left =>
      simp only [readLoop]
      split
      · rename_i hk; exact absurd hk (hos _)
      · rename_i k hk
        have hlen : ((file.drop offset).take (min k (left + 1))).length ≤ left + 1 := by
          simp only [List.length_take]; omega
        rw [if_neg (by omega)]
        refine ih _ _ _ _ ?_ ?_
        · simp only [List.length_take, List.length_drop] at hl ⊢; omega
        · simp only [List.length_append, List.length_drop] at hlen ⊢
          omega

end Verif.File
