import Verif.Lemmas.WriteBuiltin
import Verif.Props.ParserBuiltin
import Verif.Props.FloatText
import Verif.Props.Write
import Verif.Lemmas.SerialDoc

/-!
# Writing and parsing without the C library's conversions (C145)

Numbers are written with `Text::FloatToString` (`C4Json.cpp` 1223-1227), whose parameter is a `float`, and read by
`ReadDouble` (`C4Json.cpp` 843-988).
-/

namespace Verif.Props

open Verif Verif.Text Verif.Number Verif.Map Verif.Parser Verif.Spec Verif.Builtin Verif.Doc Verif.Texts Verif.FloatText

variable {D : Type}

/-- The text of a number `x` in this configuration: `nar` is the conversion of a `double` to the bits of a `float`. -/
def PrintsAs (e : Elem) (wrapv : Bool) (nar : D → Nat) (x : D) (t : Bytes) : Prop :=
  ∃ c', fixedSetFloat e wrapv 15 (nar x) (List.replicate 16 0) = .ok c' ∧ Holds c' t

/-- Parsing the buffer in this configuration gives `v`. -/
def BuiltinAccepts (A : Arith D) (neg : D → D) (buf : Bytes) (v : Value D) : Prop :=
  ∀ fuel, parseFuel buf ≤ fuel → ParserB.parseRoot (ParserB.parseNumberB A neg) fuel buf = .ok ⟨.kOk, some v, 0, 0⟩

/-- What becomes of a number: the value of the literal that was printed for it. -/
def ComesBack (A : Arith D) (neg : D → D) (N : NumOps D) (x y : D) : Prop :=
  ∃ s : SignedLit, SignedNum (N.fmt x) s ∧ LitValue A neg s y

/-- **C145**: whatever is written in this configuration is parsed back as the same document, if the strings and names are
harmless and the indentation is whitespace. -/
def C145_statement (e : Elem) (wrapv : Bool) (nar : D → Nat) (A : Arith D) (neg : D → D) : Prop :=
  ∀ (N : NumOps D) (v : Value D) (il : Nat) (ic : Byte) (out : Bytes), (il = 0 ∨ Ws [ic]) →
    (∀ path x, walk v path = some (.num x) → PrintsAs e wrapv nar x (N.fmt x)) →
    (∀ path x, walk v path = some x → (∀ s, x = .str s → Serial.ReadableText s) ∧
      ∀ t o, x = .obj t o → (∀ k, (findMapElement nameLt k t).isSome ↔ k ∈ o) ∧ ∀ k ∈ o, Serial.ReadableText k) →
    Emits N il ic v out → ∃ v', BuiltinAccepts A neg (out ++ [0]) v' ∧ ParserB.SameDoc (fun x y => y = x) v v'

/-- **C145 fails** whatever the arithmetic is, as soon as two numbers become zero or a subnormal float (for instance 0 and
1e-40): both are written as `0.0`. -/
theorem C145_violated (e : Elem) (wrapv : Bool) (nar : D → Nat) (A : Arith D) (neg : D → D) {x y : D} (hxy : x ≠ y)
    (hx : nar x / 2 ^ 23 % 256 = 0) (hy : nar y / 2 ^ 23 % 256 = 0) : ¬ C145_statement e wrapv nar A neg := by
  intro H
  let N : NumOps D := ⟨fun _ _ _ => x, id, fun _ => [48, 46, 48]⟩
  have key : ∀ z, nar z / 2 ^ 23 % 256 = 0 → ∃ v', BuiltinAccepts A neg [48, 46, 48, 0] v' ∧
      ParserB.SameDoc (fun x y => y = x) (.num z) v' := by
    intro z hz
    refine H N (.num z) 0 0x20 [48, 46, 48] (.inl rfl) ?_ ?_ ⟨1, _, rfl, rfl, rfl⟩
    · intro path w _
      cases path with
      | nil =>
        simp only [walk, Option.some.injEq, Value.num.injEq] at *
        subst_vars
        exact C79_zero e wrapv _ rfl _ hz
      | cons s p => simp [walk, step] at *
    · intro path w hw
      cases path with
      | nil =>
        simp only [walk, Option.some.injEq] at hw
        subst hw
        constructor <;> simp
      | cons s p => simp [walk, step] at hw
  obtain ⟨v1, a1, s1⟩ := key x hx
  obtain ⟨v2, a2, s2⟩ := key y hy
  have e12 := (a1 _ (Nat.le_refl _)).symm.trans (a2 _ (Nat.le_refl _))
  injection e12 with e12
  obtain rfl : v1 = v2 := by simpa using e12
  rcases s1 [] with ⟨h, -⟩ | ⟨p, q, h1, h2, h3⟩
  · simp [walk] at h
  rcases s2 [] with ⟨h, -⟩ | ⟨p', q', h1', h2', h3'⟩
  · simp [walk] at h
  simp only [walk, Option.some.injEq] at h1 h2 h1' h2'
  subst h1 h2 h1' h2'
  cases v1 <;> simp [ParserB.Alike] at h3 h3'
  exact hxy (h3.symm.trans h3')

/-- **C145, the part that holds**: if every number of the document is printed as an RFC 8259 number (C79 says when), what is written
is accepted, and shows the same structure, names, strings and truth values; each number is the value that the reader gives
to the literal printed for it. Missing: that this is the number that was written, and one-byte texts (which
`FloatToString` never prints). -/
theorem C145_builtin_round_trip_partial (A : Arith D) (neg : D → D) (N : NumOps D) (v : Value D) (il : Nat) (ic : Byte)
    (hic : il = 0 ∨ Ws [ic]) (hn : ∀ path x, walk v path = some (.num x) → ∃ d, RfcNum (N.fmt x) d)
    (hs : ∀ path x, walk v path = some x → (∀ s, x = .str s → Serial.ReadableText s) ∧
      ∀ t o, x = .obj t o → (∀ k, (findMapElement nameLt k t).isSome ↔ k ∈ o) ∧ ∀ k ∈ o, Serial.ReadableText k) :
    ∃ out, Emits N il ic v out ∧ (2 ≤ out.length →
      ∃ v', BuiltinAccepts A neg (out ++ [0]) v' ∧ ParserB.SameDoc (ComesBack A neg N) v v') := by
  have hk : ∀ s, Serial.ReadableText s → DialStr (0x22 :: (Write.cText s ++ [0x22])) s := by
    intro s h
    rw [Write.cText_nul_free h.nul_free]
    obtain ⟨cps, h1, h2⟩ := h
    exact readable_str h1 h2
  have hg : ParserB.Good (ParserB.litVal A neg) (ComesBack A neg N) N SignedNum DialStr v := by
    intro path x hx
    cases x with
    | num x =>
      obtain ⟨d, hd⟩ := hn path x hx
      obtain ⟨s, h1, -⟩ := rfc_signed hd
      refine ⟨s, ?_, s, h1, litVal_value A neg h1⟩
      rw [Write.cText_nul_free (rfcNum_nul_free hd)]; exact h1
    | str s => exact hk s ((hs path _ hx).1 s rfl)
    | obj t o => exact ⟨((hs path _ hx).2 t o rfl).1, fun k h => hk k (((hs path _ hx).2 t o rfl).2 k h)⟩
    | _ => trivial
  obtain ⟨chunks, j, h1, h2, h3⟩ := ParserB.writeValue_good N il ic hic (sizeOf v) v (Nat.le_refl _) hg [] Ws.nil
  refine ⟨_, ⟨_, _, h1, rfl, rfl⟩, fun hl => ⟨_, ?_, h3⟩⟩
  intro fuel hf
  have h0 := ParserB.val_nul_free (ParserB.readerOk A neg) h2
  refine ParserB.root_complete (ParserB.readerOk A neg) fuel _ (by simp; simp at hl; omega) (by simp) hf ?_
  rw [cstr_append h0 []]
  exact ⟨[], _, [], Ws.nil, h2, Ws.nil, by simp⟩

/-! ## Examples -/

/-- `[1.5, "a"]` (the number given by its float bits) is written as `[\n1.5,\n"a"\n]`. -/
def builtinExample : Value Nat := .arr [.num 0x3FC00000, .str [0x61]]

/-- A number operation that prints `1.5`. -/
def printOps : NumOps Nat := ⟨fun _ _ _ => 0, id, fun _ => [0x31, 0x2E, 0x35]⟩

example (e : Elem) (wrapv : Bool) : PrintsAs e wrapv id 0x3FC00000 (printOps.fmt 0x3FC00000) := by
  refine ⟨[0x31, 0x2E, 0x35] ++ 0 :: List.replicate 12 0, ?_, by decide, _, rfl⟩
  rw [id, fixed_mid (by decide) (by decide)]
  cases wrapv <;> decide +kernel

/-- The text is read back as the number the reader makes of `1.5`. -/
example (A : Arith Nat) : Emits printOps 0 0x20 builtinExample [0x5B, 0x0A, 0x31, 0x2E, 0x35, 0x2C, 0x0A, 0x22, 0x61, 0x22, 0x0A, 0x5D] ∧
    ∃ y, ParserB.parseRoot (ParserB.parseNumberB A id) 60
      [0x5B, 0x0A, 0x31, 0x2E, 0x35, 0x2C, 0x0A, 0x22, 0x61, 0x22, 0x0A, 0x5D, 0] = .ok ⟨.kOk, some (.arr [.num y, .str [0x61]]), 0, 0⟩ :=
  ⟨⟨3, _, rfl, rfl, by decide⟩, _, rfl⟩

/-- The floats 0 and 2^(-149) are both written as `0.0`. -/
example (e : Elem) (wrapv : Bool) (A : Arith Nat) : ¬ C145_statement e wrapv id A id :=
  C145_violated e wrapv id A id (x := 0) (y := 1) (by decide) (by decide) (by decide)

end Verif.Props
