import Verif.Lemmas.NotFinite

/-!
# Infinities and NaN in files (C179)
-/

namespace Verif.Props

open Verif Verif.Map Verif.Text Verif.Number Verif.Parser Verif.Doc Verif.Write Verif.Spec Verif.B64 Verif.Watch

/-- Infinity or NaN. -/
def NotFinite (x : Dbl) : Prop := (∃ s, x = .inf s) ∨ x = .nan

/-- Every number of the document is a value of the type `double`: finite, infinite or NaN. -/
def Doubles (v : Value Dbl) : Prop := ∀ path x, walk v path = some (.num x) → Finite x ∨ NotFinite x

theorem notFinite_iff {x : Dbl} (h : Finite x ∨ NotFinite x) : ¬ Finite x ↔ NotFinite x := by
  refine ⟨fun hx => h.resolve_left hx, ?_⟩
  rintro (⟨s, rfl⟩ | rfl) <;> exact id

theorem fmt_noticed {x : Dbl} (hx : Finite x ∨ NotFinite x) : Noticed (cText (ops.fmt x)) (¬ Finite x) := by
  by_cases h : Finite x
  · obtain ⟨d, hs, -⟩ := finite_safe h
    rw [cText_nul_free (rfcNum_nul_free hs.1)]
    exact (quiet_num (safeNum_dial hs)).iff (by simp [h])
  · rcases hx.resolve_left h with ⟨s, rfl⟩ | rfl
    · cases s <;> exact ⟨fun _ => by decide, fun e => absurd h e⟩
    · exact ⟨fun _ => by decide, fun e => absurd h e⟩

theorem readable_token {s : Bytes} (h : Serial.ReadableText s) : DialStr (0x22 :: (cText s ++ [0x22])) s := by
  rw [cText_nul_free (Serial.ReadableText.nul_free h)]
  obtain ⟨cps, hc, hs⟩ := h
  exact readable_str hc hs

/-- **C179.** A document with readable texts and an infinity or NaN among its numbers, at any depth, is written with success, and `Parse` refuses
the text. -/
theorem C179_lost (v : Value Dbl) (il : Nat) (ic : Byte) (hd : Doubles v) (h1 : ∃ path x, walk v path = some (.num x) ∧ NotFinite x)
    (h2 : ReadableTexts v) (hic : il = 0 ∨ Ws [ic]) :
    ∃ out, Emits ops il ic v out ∧ ∀ v', ¬ Accepts ops (out ++ [0]) v' := by
  have hg : ParserB.Good (id : Dbl → Dbl) Eq ops (fun t x => t = cText (ops.fmt x) ∧ (Finite x ∨ NotFinite x)) DialStr v := by
    intro path x hx
    obtain ⟨h3, h4⟩ := h2 path x hx
    cases x with
    | num y => exact ⟨y, ⟨rfl, hd path y hx⟩, rfl⟩
    | str s => exact readable_token (h3 s rfl)
    | obj t o => exact ⟨(h4 t o rfl).1, fun k hk => readable_token ((h4 t o rfl).2 k hk)⟩
    | null => trivial
    | bool b => trivial
    | arr l => trivial
  obtain ⟨chunks, j, e1, e2, e3⟩ := ParserB.writeValue_good (val := (id : Dbl → Dbl)) (rel := Eq) ops il ic hic _ v
    (Nat.le_refl _) hg [] Ws.nil
  refine ⟨_, ⟨_, _, e1, rfl, rfl⟩, fun v' hv => ?_⟩
  have hhas : Has (fun x => ¬ Finite x) j := by
    obtain ⟨path, x, hx, hf⟩ := h1
    rcases e3 path with ⟨h, -⟩ | ⟨y, y', h, h', ha⟩
    · rw [hx] at h; cases h
    · rw [hx] at h
      simp only [Option.some.injEq] at h
      subst h
      cases y' <;> simp only [ParserB.Alike] at ha
      subst ha
      exact has_of_walk path j _ h' ((notFinite_iff (.inr hf)).2 hf)
  have hw := (noticed_val (fun x => ¬ Finite x) (fun t x h => by rw [h.1]; exact fmt_noticed h.2) e2).1 hhas
  rw [accepts_iff ops b64_neg] at hv
  obtain ⟨-, -, j', hj, -⟩ := hv
  have hq := quiet_text hj
  rw [cstr_append (sval_nul_free (fun t x h => by rw [h.1]; exact cText_clean _) e2), hw] at hq
  cases hq

/-- The text of a document with readable texts, other than the numbers from 0 to 9, is accepted exactly if all numbers are finite. -/
theorem C179_exact (v : Value Dbl) (il : Nat) (ic : Byte) (hd : Doubles v) (h2 : ReadableTexts v) (hic : il = 0 ∨ Ws [ic])
    (hv : ∀ k, k ≤ 9 → v ≠ .num (B64.conv false k 0)) :
    (∃ out v', Emits ops il ic v out ∧ Accepts ops (out ++ [0]) v') ↔ FiniteNums v := by
  constructor
  · rintro ⟨out, v', h3, h4⟩ path x hx
    refine Classical.byContradiction fun hf => ?_
    obtain ⟨out', h5, h6⟩ := C179_lost v il ic hd ⟨path, x, hx, (hd path x hx).resolve_left hf⟩ h2 hic
    have := emits_det h3 h5
    subst this
    exact h6 v' h4
  · intro h1
    obtain ⟨out, v', h3, h4, -⟩ := C18_finite_partial v il ic h1 h2 hic hv
    exact ⟨out, v', h3, h4⟩

theorem nums_readable (l : List Dbl) : ReadableTexts (.arr (l.map .num)) := by
  intro path x hx
  rcases walk_nums hx with rfl | ⟨y, hy, rfl⟩
  · exact ⟨(fun _ e => nomatch e), (fun _ _ e => nomatch e)⟩
  · exact ⟨(fun _ e => nomatch e), (fun _ _ e => nomatch e)⟩

theorem nums_doubles {l : List Dbl} (h : ∀ x ∈ l, Finite x ∨ NotFinite x) : Doubles (.arr (l.map .num)) := by
  intro path x hx
  rcases walk_nums hx with e | ⟨y, hy, e⟩
  · cases e
  · injection e with e; subst e; exact h _ hy

/-- A saved array of doubles can be loaded exactly if all of them are finite: one NaN costs all the others. -/
theorem C179_array (l : List Dbl) (h : ∀ x ∈ l, Finite x ∨ NotFinite x) (il : Nat) (ic : Byte) (hic : il = 0 ∨ Ws [ic]) :
    (∃ out v', Emits ops il ic (.arr (l.map .num)) out ∧ Accepts ops (out ++ [0]) v') ↔ ∀ x ∈ l, Finite x := by
  rw [C179_exact _ il ic (nums_doubles h) (nums_readable l) hic (fun k _ e => by cases e)]
  constructor
  · intro hf x hx
    obtain ⟨i, hi⟩ := List.mem_iff_getElem?.1 hx
    exact hf [.index i] x (by simp [walk, step, hi])
  · intro hf path x hx
    rcases walk_nums hx with e | ⟨y, hy, e⟩
    · cases e
    · injection e with e; subst e; exact hf _ hy

/-- `[inf, nan, -inf]`: written as these words, and not accepted. -/
example : Emits ops 0 0x20 (.arr ([.inf false, .nan, .inf true].map .num))
      [0x5B, 0x0A, 0x69, 0x6E, 0x66, 0x2C, 0x0A, 0x6E, 0x61, 0x6E, 0x2C, 0x0A, 0x2D, 0x69, 0x6E, 0x66, 0x0A, 0x5D] ∧
    ∀ v', ¬ Accepts ops ([0x5B, 0x0A, 0x69, 0x6E, 0x66, 0x2C, 0x0A, 0x6E, 0x61, 0x6E, 0x2C, 0x0A, 0x2D, 0x69, 0x6E, 0x66, 0x0A, 0x5D] ++ [0])
      v' := by
  have h1 : Emits ops 0 0x20 (.arr ([.inf false, .nan, .inf true].map .num))
      [0x5B, 0x0A, 0x69, 0x6E, 0x66, 0x2C, 0x0A, 0x6E, 0x61, 0x6E, 0x2C, 0x0A, 0x2D, 0x69, 0x6E, 0x66, 0x0A, 0x5D] :=
    ⟨4, _, rfl, rfl, by decide⟩
  refine ⟨h1, fun v' h2 => ?_⟩
  exact (C179_array [.inf false, .nan, .inf true] (by
    intro x hx
    simp only [List.mem_cons, List.not_mem_nil, or_false] at hx
    rcases hx with rfl | rfl | rfl
    · exact .inr (.inl ⟨_, rfl⟩)
    · exact .inr (.inr rfl)
    · exact .inr (.inl ⟨_, rfl⟩)) 0 0x20 (.inl rfl)).1 ⟨_, v', h1, h2⟩ .nan (by simp)

/-- `{"a": [true, inf]}` is written with success too. -/
example : ∃ out, Emits ops 0 0x20 (.obj (.node 0 .nil [0x61] (.arr [.bool true, .num (.inf false)]) .nil) [[0x61]]) out ∧
    out = [0x7B, 0x0A, 0x22, 0x61, 0x22, 0x20, 0x3A, 0x20, 0x5B, 0x0A, 0x74, 0x72, 0x75, 0x65, 0x2C, 0x0A, 0x69, 0x6E, 0x66, 0x0A, 0x5D,
      0x0A, 0x7D] := by
  refine ⟨_, ⟨4, _, rfl, rfl, rfl⟩, ?_⟩
  decide

end Verif.Props
