import Verif.Lemmas.Shape
import Verif.Props.Elements
import Verif.Props.Binary64
import Verif.Lemmas.Nearest

/-!
# Documents keep their shape when they are saved and loaded (C186)
-/

namespace Verif.Props

open Verif Verif.Map Verif.Text Verif.Number Verif.Parser Verif.File Verif.Doc Verif.Write Verif.Serial Verif.Spec Verif.B64

variable {D : Type}

/-- **C186**: a document that was read, written and read again has the shape of before. -/
def C186_statement : Prop :=
  ∀ (buf : Bytes) (v : Value Dbl), Accepts ops buf v → ∀ (il : Nat) (ic : Byte), (il = 0 ∨ Ws [ic]) → ∀ (out : Bytes) (v' : Value Dbl),
    Emits ops il ic v out → Accepts ops (out ++ [0]) v' → SameShape v v'

/-- C186 for tame documents, whatever the numbers are. -/
theorem shape_kept (N : NumOps D) (hN : NegLaw N) (hfmt : ∀ x, (0 : Byte) ∉ N.fmt x) (buf : Bytes) (v : Value D) (h : Accepts N buf v)
    (j : J) (hj : DialText (cstr buf) j) (ht : j.Tame)
    (hn : ∀ d : Dec, IsNumber (N.fmt (N.conv d.neg d.mantissa d.exponent))) (il : Nat) (ic : Byte) (hic : il = 0 ∨ Ws [ic]) (out : Bytes) (v' : Value D) (he : Emits N il ic v out)
    (ha : Accepts N (out ++ [0]) v') : SameShape v v' := by
  have hv : v = interp N j := by
    obtain ⟨h3, hl, -⟩ := (accepts_iff N hN buf v).1 h
    exact accepts_det h ((accepts_iff N hN buf _).2 ⟨h3, hl, j, hj, rfl⟩)
  subst hv
  have hs : ∀ s ∈ j.strs, (0 : Byte) ∉ s := by
    intro s hs
    obtain ⟨w1, t, w2, -, hv, -, -⟩ := hj
    obtain ⟨tok, items, hi, -, rfl⟩ := val_strs hv s hs
    simp only [utf8s, plainCodes, List.map_map, List.mem_flatten, List.mem_map, not_exists, not_and]
    rintro l ⟨i, hx, rfl⟩
    obtain ⟨c, e, h1, h2⟩ := (hi i hx).code
    simp only [Function.comp_apply, e, Option.getD_some]
    exact utf8_nul_free _ h1 h2
  obtain ⟨chunks, h1, h2⟩ := writeValue_lays N il ic _ j (Nat.le_refl _) hs []
  have hr : reprint N = fun d => N.fmt (N.conv d.neg d.mantissa d.exponent) := by
    funext d; exact cText_nul_free (hfmt _)
  rw [hr] at h2
  have ho := emits_det he ⟨_, _, h1, rfl, h2.symm⟩
  have hF := fits_layout N _ hn (ws_replicate hic) j Ws.nil ht hs
  rw [← ho] at hF
  obtain ⟨-, -, j', hj', rfl⟩ := (accepts_iff N hN _ v').1 ha
  rw [cstr_append hF.nul] at hj'
  obtain ⟨w1, tok, w2, k1, kv, k2, e⟩ := hj'
  obtain ⟨c, s, hc', hc, -⟩ := hF.head
  obtain ⟨c2, s2, hd', hd, -⟩ := val_head kv
  obtain ⟨rfl, -, -⟩ := ws_first (a := []) (b := w1) (x := c) (y := c2) (l := s) (m := s2 ++ w2) Ws.nil k1 (nws hc) (nws hd)
    (by rw [List.nil_append, ← hc', e, hd']; simp)
  exact (hF.fit tok j' (w2 ++ [0x0A]) [0x0A] kv (by rw [e]; simp) ⟨[], [], rfl, .inl rfl⟩
    (ends_blank k2 (by simp [NumChar, Digit]) [])).2

/-- The doubles that are read are printed as numbers, or as `inf` and `-inf`. -/
theorem printed_isNumber (d : Dec) : IsNumber (ops.fmt (ops.conv d.neg d.mantissa d.exponent)) := by
  have h := conv_nearest d
  rw [ops_conv]
  generalize conv d.neg d.mantissa d.exponent = x at h
  cases x with
  | nan => exact h.elim
  | inf s => cases s <;> simp [IsNumber, ops, fmt]
  | fin s m q =>
    obtain ⟨d, ⟨hr, hz⟩, -⟩ := finite_safe (x := .fin s m q) h.2.1
    refine .inl ⟨?_, d, safeNum_dial ⟨hr, hz⟩⟩
    generalize ops.fmt (.fin s m q) = t at hr
    cases hr with
    | pos hi hf he => exact (rfc_run hi hf he).1
    | neg hi hf he =>
      intro c hc
      rcases List.mem_cons.1 hc with rfl | hc
      · simp [NumChar]
      · exact (rfc_run hi hf he).1 c hc

/-- **C186 for tame documents**: all documents whose texts are without quotation marks (with any backslashes and control characters) and whose
names need no escapes. Missing: texts with quotation marks, and names with quotation marks, backslashes or control characters. -/
theorem C186_partial (buf : Bytes) (v : Value Dbl) (h : Accepts ops buf v) (j : J) (hj : DialText (cstr buf) j) (ht : j.Tame)
    (il : Nat) (ic : Byte) (hic : il = 0 ∨ Ws [ic]) (out : Bytes) (v' : Value Dbl) (he : Emits ops il ic v out)
    (ha : Accepts ops (out ++ [0]) v') : SameShape v v' :=
  shape_kept ops b64_neg (fun x hx => fmt_nul_free x (List.mem_of_mem_take hx)) buf v h j hj ht printed_isNumber il ic hic out v' he ha

/-- The code does otherwise: `["\",\""]` is saved and loaded as an array of two elements. -/
theorem C186_violated : ¬ C186_statement := by
  intro h
  have := h [0x5B, 0x22, 0x5C, 0x22, 0x2C, 0x5C, 0x22, 0x22, 0x5D, 0] (.arr [.str [0x22, 0x2C, 0x22]]) (fun _ => rfl) 0 0x20 (.inl rfl)
    [0x5B, 0x0A, 0x22, 0x22, 0x2C, 0x22, 0x22, 0x0A, 0x5D] (.arr [.str [], .str []]) ⟨3, _, rfl, rfl, rfl⟩ (fun _ => rfl)
  cases this with
  | arr hl _ => simp at hl

/-- Names matter too: in `{"\\\\n":1}` the name is `\n`, without quotation marks, and is loaded as a line break. -/
theorem C186_names : ∃ (m m' : Tree Bytes (Value Dec)) (out : Bytes),
    Accepts natOps [0x7B, 0x22, 0x5C, 0x5C, 0x6E, 0x22, 0x3A, 0x31, 0x7D, 0] (.obj m [[0x5C, 0x6E]]) ∧
    Emits natOps 0 0x20 (.obj m [[0x5C, 0x6E]]) out ∧ Accepts natOps (out ++ [0]) (.obj m' [[0x0A]]) ∧
    ¬ SameShape (.obj m [[0x5C, 0x6E]]) (.obj m' [[0x0A]]) :=
  ⟨_, _, _, fun _ => rfl, ⟨3, _, rfl, rfl, rfl⟩, fun _ => rfl, fun h => nomatch h⟩

/-- `{"a":["\\\\n",1]}`: the text `\n` is loaded as a line break, the shape stays. -/
example : ∃ v out v', Accepts natOps
      [0x7B, 0x22, 0x61, 0x22, 0x3A, 0x5B, 0x22, 0x5C, 0x5C, 0x6E, 0x22, 0x2C, 0x31, 0x5D, 0x7D, 0] v ∧
    Emits natOps 1 0x09 v out ∧ Accepts natOps (out ++ [0]) v' ∧
    walk v [.member [0x61], .index 0] = some (.str [0x5C, 0x6E]) ∧ walk v' [.member [0x61], .index 0] = some (.str [0x0A]) :=
  ⟨_, _, _, fun _ => rfl, ⟨4, _, rfl, rfl, rfl⟩, fun _ => rfl, rfl, rfl⟩

/-- The document of this text is tame. -/
example : (J.obj (.cons [0x61] (.arr (.cons (.str [0x5C, 0x6E]) (.cons (.num ⟨false, 1, 0⟩) .nil))) .nil)).Tame := by
  simp only [J.Tame, JM.Tame, JL.Tame]
  exact ⟨⟨[0x61], by simp, by decide⟩, ⟨by decide, trivial, trivial⟩, trivial⟩

/-- `[null]` and `[true]` are of different shapes. -/
example : ¬ SameShape (D := Dec) (.arr [.null]) (.arr [.bool true]) := by
  intro h
  cases h with
  | arr _ h => exact nomatch h 0 _ _ rfl rfl

end Verif.Props
