import Verif.Model.Windows
import Verif.Lemmas.File
import Verif.Lemmas.Wide
import Verif.Lemmas.DynString

/-! # Lemmas about the Windows branch -/

namespace Verif.Win

open Verif Verif.Map Verif.Text Verif.Number Verif.Parser Verif.Doc Verif.Spec Verif.Write Verif.File Verif.Wide

variable {D : Type}

/-! ## Writing -/

theorem writeFile_spec (os : Sched) (n : Nat) (p : Bytes) (f : WFile) (b : Bool) (f' : WFile)
    (h : writeFile os n p f = .ok (b, f')) (ho : f.offset ≤ f.content.length) :
    ∃ q r, p = q ++ r ∧ f'.content = stored f.content f.offset q ∧ f'.offset = f.offset + q.length ∧
      (b = true ↔ r = []) := by
  induction n generalizing p f with
  | zero =>
    cases p with
    | nil =>
      simp only [writeFile, Out.ok.injEq, Prod.mk.injEq] at h
      obtain ⟨rfl, rfl⟩ := h
      exact ⟨[], [], rfl, (stored_nil _ _).symm, rfl, by simp⟩
    | cons c p => simp [writeFile] at h
  | succ n ih =>
    cases p with
    | nil =>
      simp only [writeFile, Out.ok.injEq, Prod.mk.injEq] at h
      obtain ⟨rfl, rfl⟩ := h
      exact ⟨[], [], rfl, (stored_nil _ _).symm, rfl, by simp⟩
    | cons c p =>
      simp only [writeFile] at h
      split at h
      · simp only [Out.ok.injEq, Prod.mk.injEq] at h
        obtain ⟨rfl, rfl⟩ := h
        exact ⟨[], c :: p, rfl, (stored_nil _ _).symm, rfl, by simp⟩
      · rename_i k hk
        obtain ⟨q, r, e, h1, h2, h3⟩ := ih _ _ h (stored_length _ ho)
        refine ⟨(c :: p).take (min k ((c :: p).length % 2 ^ 32)) ++ q, r, ?_, ?_, ?_, h3⟩
        · rw [List.append_assoc, ← e, List.take_append_drop]
        · rw [h1]; exact stored_stored _ _ ho
        · rw [h2]; simp [WFile.put, Nat.add_assoc]

theorem writeFile_total (os : Sched) (hos : ∀ i, os i ≠ .done 0) (n : Nat) (p : Bytes) (f : WFile)
    (h : p.length ≤ n) (hp : p.length < 2 ^ 32) : ∃ r, writeFile os n p f = .ok r := by
  induction n generalizing p f with
  | zero =>
    cases p with
    | nil => exact ⟨_, rfl⟩
    | cons c p => simp at h
  | succ n ih =>
    cases p with
    | nil => exact ⟨_, rfl⟩
    | cons c p =>
      simp only [writeFile]
      split
      · exact ⟨_, rfl⟩
      · rename_i k hk
        have : k ≠ 0 := by rintro rfl; exact hos _ hk
        rw [Nat.mod_eq_of_lt hp]
        refine ih _ _ ?_ ?_
        · simp only [List.length_drop]; simp at h ⊢; omega
        · simp only [List.length_drop]; omega

theorem writeFile_true (os : Sched) (hos : ∀ i, os i ≠ .fail) (n : Nat) (p : Bytes) (f : WFile) (b : Bool)
    (f' : WFile) (h : writeFile os n p f = .ok (b, f')) : b = true := by
  induction n generalizing p f with
  | zero =>
    cases p with
    | nil => simp [writeFile] at h; exact h.1.symm ▸ rfl
    | cons c p => simp [writeFile] at h
  | succ n ih =>
    cases p with
    | nil => simp [writeFile] at h; exact h.1.symm ▸ rfl
    | cons c p =>
      simp only [writeFile] at h
      split at h
      · rename_i hk; exact absurd hk (hos _)
      · exact ih _ _ h

/-- With 4 GiB or more the loop never comes below a multiple of 4 GiB. -/
theorem writeFile_hang (os : Sched) (hos : ∀ i, os i ≠ .fail) (n : Nat) (p : Bytes) (f : WFile)
    (h : 2 ^ 32 ≤ p.length) : writeFile os n p f = .fuel := by
  induction n generalizing p f with
  | zero =>
    cases p with
    | nil => simp at h
    | cons c p => rfl
  | succ n ih =>
    cases p with
    | nil => simp at h
    | cons c p =>
      simp only [writeFile]
      split
      · rename_i hk; exact absurd hk (hos _)
      · rename_i k hk
        refine ih _ _ ?_
        simp only [List.length_drop]
        omega

theorem writeChunks_spec (os : Sched) (hos : ∀ i, os i ≠ .fail) (n : Nat) (cs : List Bytes) (f f' : WFile)
    (h : writeChunks os n cs f = .ok f') (ho : f.offset ≤ f.content.length) :
    f'.content = stored f.content f.offset cs.flatten ∧ f'.offset = f.offset + cs.flatten.length := by
  induction cs generalizing f with
  | nil =>
    simp only [writeChunks, Out.ok.injEq] at h
    subst h
    exact ⟨(stored_nil _ _).symm, rfl⟩
  | cons c cs ih =>
    simp only [writeChunks] at h
    rw [Out.bind_eq_ok] at h
    obtain ⟨⟨b, f1⟩, h1, h2⟩ := h
    have hb := writeFile_true os hos n c f b f1 h1
    obtain ⟨q, r, e, h3, h4, h5⟩ := writeFile_spec os n c f b f1 h1 ho
    have hr := h5.1 hb
    subst hr
    simp only [List.append_nil] at e
    subst e
    obtain ⟨h6, h7⟩ := ih f1 h2 (by rw [h3, h4]; exact stored_length _ ho)
    rw [h3, h4, stored_stored _ _ ho] at h6
    refine ⟨by simpa using h6, ?_⟩
    rw [h7, h4]; simp [Nat.add_assoc]

theorem writeChunks_total (os : Sched) (hos : ∀ i, os i ≠ .done 0) (n : Nat) (cs : List Bytes) (f : WFile)
    (h : ∀ c ∈ cs, c.length ≤ n ∧ c.length < 2 ^ 32) : ∃ f', writeChunks os n cs f = .ok f' := by
  induction cs generalizing f with
  | nil => exact ⟨_, rfl⟩
  | cons c cs ih =>
    obtain ⟨⟨b, f1⟩, h1⟩ := writeFile_total os hos n c f (h c (by simp)).1 (h c (by simp)).2
    obtain ⟨f', h2⟩ := ih f1 fun x hx => h x (List.mem_cons_of_mem _ hx)
    exact ⟨f', by simp only [writeChunks, h1, Out.ok_bind, h2]⟩

/-! ## Reading -/

theorem fill_ok {buffer data : Bytes} {pos : Nat} (h : pos + data.length ≤ buffer.length) :
    fill buffer pos data = .ok (stored buffer pos data) := by
  unfold fill; rw [if_neg (by omega)]; rfl

theorem stored_length_eq {content : Bytes} {offset : Nat} (q : Bytes) (h : offset + q.length ≤ content.length) :
    (stored content offset q).length = content.length := by
  unfold stored
  simp only [List.length_append, List.length_take, List.length_drop]
  omega

/-- What reading leaves in the buffer: whatever has been transferred is stored, in order, at the position. -/
theorem readLoop_spec (os : Sched) (file : Bytes) (n left : Nat) (buffer : Bytes) (pos offset calls : Nat)
    (hb : pos + left ≤ buffer.length) (okay : Bool) (b' : Bytes)
    (h : readLoop os file n left buffer pos offset calls = .ok (okay, b')) :
    ∃ q r, file.drop offset = q ++ r ∧ b' = stored buffer pos q ∧ q.length ≤ left ∧ (okay = true ↔ q.length = left) := by
  induction n generalizing left buffer pos offset calls with
  | zero =>
    cases left with
    | zero =>
      simp only [readLoop, Out.ok.injEq, Prod.mk.injEq] at h
      obtain ⟨rfl, rfl⟩ := h
      exact ⟨[], _, rfl, (stored_nil _ _).symm, by simp, by simp⟩
    | succ left => simp [readLoop] at h
  | succ n ih =>
    cases left with
    | zero =>
      simp only [readLoop, Out.ok.injEq, Prod.mk.injEq] at h
      obtain ⟨rfl, rfl⟩ := h
      exact ⟨[], _, rfl, (stored_nil _ _).symm, by simp, by simp⟩
    | succ left =>
      simp only [readLoop] at h
      split at h
      · simp only [Out.ok.injEq, Prod.mk.injEq] at h
        obtain ⟨rfl, rfl⟩ := h
        exact ⟨[], _, rfl, (stored_nil _ _).symm, by simp, by simp⟩
      · rename_i k hk
        generalize hd : (file.drop offset).take (min k ((left + 1) % 2 ^ 32)) = data at h
        have hlen : data.length ≤ left + 1 := by
          rw [← hd, List.length_take]; have := Nat.mod_le (left + 1) (2 ^ 32); omega
        rw [fill_ok (by omega), Out.ok_bind] at h
        obtain ⟨q, r, e, h1, h2, h3⟩ := ih _ _ _ _ _ (by
          rw [stored_length_eq _ (by omega)]; omega) h
        have hdrop : file.drop offset = data ++ file.drop (offset + data.length) := by
          rw [← List.drop_drop]
          have : data = (file.drop offset).take data.length := by
            rw [← hd, List.length_take, List.take_eq_take_iff]; omega
          conv => lhs; rw [← List.take_append_drop data.length (file.drop offset), ← this]
        refine ⟨data ++ q, r, ?_, ?_, ?_, ?_⟩
        · rw [hdrop, e, List.append_assoc]
        · rw [h1, stored_stored _ _ (by omega)]
        · rw [List.length_append]; omega
        · rw [h3, List.length_append]; omega

/-- It returns when there is enough in the file and every call makes progress. -/
theorem readLoop_total (os : Sched) (hos : ∀ i, os i ≠ .done 0) (file : Bytes) (n left : Nat) (buffer : Bytes)
    (pos offset calls : Nat) (hb : pos + left ≤ buffer.length) (hn : left ≤ n) (hf : left ≤ (file.drop offset).length)
    (hl : left < 2 ^ 32) : ∃ r, readLoop os file n left buffer pos offset calls = .ok r := by
  induction n generalizing left buffer pos offset calls with
  | zero =>
    cases left with
    | zero => exact ⟨_, rfl⟩
    | succ left => omega
  | succ n ih =>
    cases left with
    | zero => exact ⟨_, rfl⟩
    | succ left =>
      simp only [readLoop]
      split
      · exact ⟨_, rfl⟩
      · rename_i k hk
        have hk0 : k ≠ 0 := by rintro rfl; exact hos _ hk
        rw [Nat.mod_eq_of_lt hl]
        have hlen : ((file.drop offset).take (min k (left + 1))).length = min k (left + 1) := by
          rw [List.length_take]; omega
        rw [fill_ok (by omega), Out.ok_bind]
        refine ih _ _ _ _ _ ?_ ?_ ?_ ?_
        · rw [stored_length_eq _ (by omega)]; omega
        · omega
        · rw [List.length_drop] at hf ⊢; omega
        · omega

/-- Reading never leaves the buffer. -/
theorem readLoop_safe (os : Sched) (file : Bytes) (n left : Nat) (buffer : Bytes) (pos offset calls : Nat)
    (hb : pos + left ≤ buffer.length) : readLoop os file n left buffer pos offset calls ≠ .ub := by
  induction n generalizing left buffer pos offset calls with
  | zero => cases left <;> simp [readLoop]
  | succ n ih =>
    cases left with
    | zero => simp [readLoop]
    | succ left =>
      simp only [readLoop]
      split
      · simp
      · rename_i k hk
        have hlen : ((file.drop offset).take (min k ((left + 1) % 2 ^ 32))).length ≤ left + 1 := by
          rw [List.length_take]; have := Nat.mod_le (left + 1) (2 ^ 32); omega
        rw [fill_ok (by omega), Out.ok_bind]
        refine ih _ _ _ _ _ ?_
        rw [stored_length_eq _ (by omega)]; omega

/-- When the file ends before `left` bytes have come and no call fails, the loop never ends. -/
theorem readLoop_hang (os : Sched) (hos : ∀ i, os i ≠ .fail) (file : Bytes) (n left : Nat) (buffer : Bytes)
    (pos offset calls : Nat) (hl : (file.drop offset).length < left) (hb : pos + left ≤ buffer.length) :
    readLoop os file n left buffer pos offset calls = .fuel := by
  induction n generalizing left buffer pos offset calls with
  | zero =>
    cases left with
    | zero => simp at hl
    | succ left => rfl
  | succ n ih =>
    cases left with
    | zero => simp at hl
    | succ left =>
      simp only [readLoop]
      split
      · rename_i hk; exact absurd hk (hos _)
      · rename_i k hk
        have hlen : ((file.drop offset).take (min k ((left + 1) % 2 ^ 32))).length ≤ left + 1 := by
          rw [List.length_take]; have := Nat.mod_le (left + 1) (2 ^ 32); omega
        have hlen' : ((file.drop offset).take (min k ((left + 1) % 2 ^ 32))).length ≤ (file.drop offset).length := by
          rw [List.length_take]; omega
        rw [fill_ok (by omega), Out.ok_bind]
        refine ih _ _ _ _ _ ?_ ?_
        · rw [List.length_drop] at hl hlen' ⊢; omega
        · rw [stored_length_eq _ (by omega)]; omega

theorem readLoop_true (os : Sched) (hos : ∀ i, os i ≠ .fail) (file : Bytes) (n left : Nat) (buffer : Bytes)
    (pos offset calls : Nat) (okay : Bool) (b' : Bytes)
    (h : readLoop os file n left buffer pos offset calls = .ok (okay, b')) : okay = true := by
  induction n generalizing left buffer pos offset calls with
  | zero =>
    cases left with
    | zero => simp [readLoop] at h; exact h.1.symm ▸ rfl
    | succ left => simp [readLoop] at h
  | succ n ih =>
    cases left with
    | zero => simp [readLoop] at h; exact h.1.symm ▸ rfl
    | succ left =>
      simp only [readLoop] at h
      split at h
      · rename_i hk; exact absurd hk (hos _)
      · rw [Out.bind_eq_ok] at h
        obtain ⟨b1, -, h⟩ := h
        exact ih _ _ _ _ _ h

/-! ## `WCharBuffer` -/

theorem length_fresh16 (g : Nat → UInt16) (n : Nat) : (fresh16 g n).length = n := by simp [fresh16]

theorem zeroLoop_spec : ∀ (left : Nat) (pre old : Units), left ≤ old.length →
    zeroLoop left pre.length (pre ++ old) = .ok (pre ++ (List.replicate left 0 ++ old.drop left))
  | 0, pre, old, _ => by simp [zeroLoop]
  | left + 1, pre, [], h => by simp at h
  | left + 1, pre, o :: old, h => by
      rw [zeroLoop, wr16, if_pos (by simp), Out.ok_bind]
      have e : (pre ++ o :: old).set pre.length 0 = (pre ++ [0]) ++ old := by simp
      have := zeroLoop_spec left (pre ++ [0]) old (by simpa using h)
      rw [List.length_append, List.length_singleton] at this
      rw [e, this]; simp [List.replicate_succ]

theorem copyLoop_spec : ∀ (w : Units) (z : UInt16) (q : Units) (left : Nat) (pre old : Units), 0 ∉ w →
    (z = 0 ∨ left ≤ w.length) → left ≤ old.length →
    copyLoop (w ++ z :: q) left pre.length (pre ++ old) =
      .ok (pre ++ (w.take left ++ old.drop (min left w.length)), pre.length + min left w.length)
  | [], z, q, 0, pre, old, _, _, _ => by simp [copyLoop]
  | [], z, q, left + 1, pre, old, _, hz, _ => by
      have : z = 0 := by rcases hz with h | h; exact h; simp at h
      simp [copyLoop, this]
  | u :: w, z, q, 0, pre, old, _, _, _ => by simp [copyLoop]
  | u :: w, z, q, left + 1, pre, [], _, _, h => by simp at h
  | u :: w, z, q, left + 1, pre, o :: old, h0, hz, h => by
      have hu : u ≠ 0 := fun e => h0 (by simp [e])
      rw [List.cons_append, copyLoop, if_neg hu, wr16, if_pos (by simp), Out.ok_bind]
      have e : (pre ++ o :: old).set pre.length u = (pre ++ [u]) ++ old := by simp
      have := copyLoop_spec w z q left (pre ++ [u]) old (fun hm => h0 (by simp [hm]))
        (hz.imp id fun h => by simpa using h) (by simpa using h)
      rw [List.length_append, List.length_singleton] at this
      have hm : min (left + 1) (w.length + 1) = min left w.length + 1 := by omega
      rw [e, this, List.length_cons, hm]; simp; omega

/-- `SetStringLength` on a new string: room for the text and the terminator. -/
theorem setLength_new (g : Nat → Byte) (n : Nat) : ∃ s, Dyn.setLength g n Dyn.newEmpty = .ok s ∧
    s.logical = n + 1 ∧ s.data.length = s.physical ∧ s.loc.length = 16 ∧ n + 1 ≤ s.data.length := by
  unfold Dyn.setLength
  have hl : Dyn.newEmpty.logical = 1 := rfl
  have hp : Dyn.newEmpty.physical = 16 := rfl
  have hh : Dyn.newEmpty.heap = none := rfl
  by_cases h0 : n > 0
  · simp only [if_pos h0, hl, hp, hh]
    rw [if_pos (by omega)]
    by_cases h16 : n + 1 > 16
    · rw [if_pos h16, if_pos (by omega)]
      have hps := Dyn.physSize_ge (n + 1)
      have hm : min n (1 - 1) = 0 := by omega
      obtain ⟨b, hb, hlen⟩ : ∃ b, Dyn.copyIntoMax (.ext Dyn.newEmpty.data) 0 0 (Dyn.fresh g (Dyn.physSize (n + 1))) = .ok b ∧
          b.length = Dyn.physSize (n + 1) := by
        have hh : Texts.Holds Dyn.newEmpty.data [] := ⟨by simp, _, rfl⟩
        have := Dyn.copyIntoMax_ext (m := 0) (d := 0) (b := Dyn.fresh g (Dyn.physSize (n + 1))) hh (by
          rw [Dyn.length_fresh]; simp; omega)
        exact ⟨_, this, by rw [Str.length_put (by rw [Dyn.length_fresh]; simp; omega), Dyn.length_fresh]⟩
      rw [hm, hb]
      simp only [Out.ok_bind, Dyn.Dyn.data, Option.getD_some]
      rw [Str.wr_ok (by omega), Out.ok_bind]
      have hput : (Str.put b n [0]).length = Dyn.physSize (n + 1) := by
        rw [Str.length_put (by simp; omega), hlen]
      refine ⟨_, rfl, rfl, hput, rfl, ?_⟩
      simp only [Dyn.Dyn.store, Option.getD_some]
      omega
    · rw [if_neg h16]
      simp only [Out.ok_bind, Dyn.Dyn.data]
      have hlen : (Dyn.newEmpty.loc).length = 16 := rfl
      have hput : (Str.put Dyn.newEmpty.loc n [0]).length = 16 := by
        rw [Str.length_put (by simp; omega), hlen]
      rw [Option.getD_none, Str.wr_ok (by omega), Out.ok_bind]
      refine ⟨_, rfl, rfl, hput, hput, ?_⟩
      simp only [Dyn.Dyn.store, Option.getD_none]
      omega
  · rw [if_neg h0]
    have : n = 0 := by omega
    subst this
    exact ⟨_, rfl, rfl, rfl, rfl, by decide⟩

end Verif.Win
