import Verif.Props.Serial
import Verif.Lemmas.Nearest

/-!
# Properties of doubles: C25, C63, C64

The conversions of the C library for binary64 (`B64.ops`) in place of the parameter of the other modules.
-/

namespace Verif.Props

open Verif Verif.Text Verif.Number Verif.Map Verif.Spec Verif.Parser Verif.Doc Verif.Write Verif.File Verif.B64

/-- Negating a double flips the sign of the decimal. -/
theorem b64_neg : NegLaw ops := by
  intro b m e
  show negate (B64.conv b m e) = B64.conv (!b) m e
  unfold B64.conv B64.round pack
  split <;> split <;> rfl

theorem ops_conv (s : Bool) (m : Nat) (e : Int) : ops.conv s m e = B64.conv s m e := by unfold ops; rfl

attribute [local irreducible] B64.conv B64.fmt ofBits ops

/-- A finite double is printed as a number that is read as this double. -/
theorem finite_safe {x : Dbl} (h : Finite x) : ∃ d : Dec, SafeNum (ops.fmt x) d ∧ x = ops.conv d.neg d.mantissa d.exponent := by
  cases x with
  | fin s m q => exact fmt_conv s h
  | inf _ => exact h.elim
  | nan => exact h.elim

theorem finite_readable {x : Dbl} (h : Finite x) : ReadableDoc ops (.num x) :=
  Serial.readable_leaf (finite_safe h) (by intro s; cases s <;> rfl)

theorem finite_emits {x : Dbl} (h : Finite x) (il : Nat) (ic : Byte) : Emits ops il ic (.num x) (ops.fmt x) := by
  obtain ⟨d, hs, -⟩ := finite_safe h
  refine ⟨1, _, rfl, rfl, ?_⟩
  show _ = List.flatten [cText (ops.fmt x)]
  have : cText (ops.fmt x) = ops.fmt x := cText_nul_free (dialNum_nul_free (safeNum_dial hs))
  simp [this]

/-- A number of one character is a digit. -/
theorem rfcNum_one {t : Bytes} {d : Dec} (h : RfcNum t d) (hl : t.length < 2) : ∃ k, k ≤ 9 ∧ d = ⟨false, k, 0⟩ := by
  have hint : ∀ {i : Bytes}, RfcInt i → 1 ≤ i.length := by
    intro i h
    cases h <;> simp
  cases h with
  | pos hi hf he =>
      rename_i i ft fd et e
      have h1 := hint hi
      rw [List.length_append, List.length_append] at hl
      have h2 : ft = [] := List.length_eq_zero_iff.1 (by omega)
      have h3 : et = [] := List.length_eq_zero_iff.1 (by omega)
      subst h2 h3
      cases hf
      cases he
      cases hi with
      | zero => exact ⟨0, by decide, rfl⟩
      | @pos c ds hc _ _ =>
          have h4 : ds = [] := by
            apply List.length_eq_zero_iff.1
            rw [List.length_cons] at hl
            omega
          subst h4
          refine ⟨c.toNat - 48, by unfold Digit at hc; omega, ?_⟩
          simp [decimal]
  | neg hi _ _ =>
      have h1 := hint hi
      rw [List.length_cons, List.length_append] at hl
      omega

/-! ## C25 -/

/-- **C25**: every finite double, given by its bits, is written and read back as the same double. -/
def C25_statement : Prop :=
  ∀ b, b < 2 ^ 64 → b / 2 ^ 52 % 2048 ≠ 2047 → ∀ il ic,
    ∃ out, Emits ops il ic (.num (ofBits b)) out ∧ Accepts ops (out ++ [0]) (.num (ofBits b))

/-- **C25 fails** for a document that is the number 7 (`0x401C000000000000`): its text has one byte, and `Parse` wants two. -/
theorem C25_violated : ¬ C25_statement := by
  intro h
  obtain ⟨out, h1, h2⟩ := h 0x401C000000000000 (by decide) (by decide) 0 0x20
  have hf : Finite (ofBits 0x401C000000000000) := ofBits_finite (by decide)
  have e : ops.fmt (ofBits 0x401C000000000000) = [0x37] := by decide +kernel
  have := emits_det h1 (finite_emits hf 0 0x20)
  rw [e] at this
  subst this
  rw [accepts_iff ops b64_neg] at h2
  exact absurd h2.1 (by decide)

/-- **C25, the part that holds**: every finite double other than the numbers from 0 to 9 is written and read back as the same
double; different bits give different doubles. Missing: the ten numbers, as a whole document. -/
theorem C25_round_trip_partial {b : Nat} (hb : b < 2 ^ 64) (hf : b / 2 ^ 52 % 2048 ≠ 2047) (il : Nat) (ic : Byte) :
    ∃ out, Emits ops il ic (.num (ofBits b)) out ∧
      ((∀ k, k ≤ 9 → ofBits b ≠ B64.conv false k 0) →
        Accepts ops (out ++ [0]) (.num (ofBits b)) ∧
        ∀ c, c < 2 ^ 64 → Accepts ops (out ++ [0]) (.num (ofBits c)) → c = b) := by
  have hfin : Finite (ofBits b) := ofBits_finite hf
  obtain ⟨d, hs, he⟩ := finite_safe hfin
  refine ⟨_, finite_emits hfin il ic, fun hk => ?_⟩
  have hlen : 2 ≤ (ops.fmt (ofBits b)).length := by
    apply Nat.le_of_not_lt
    intro hl
    obtain ⟨k, hk9, hd⟩ := rfcNum_one hs.1 hl
    subst hd
    exact hk k hk9 (he.trans (ops_conv _ _ _))
  have ha : Accepts ops (ops.fmt (ofBits b) ++ [0]) (.num (ofBits b)) := by
    have := accepts_of_dial ops b64_neg (t := ops.fmt (ofBits b)) (j := .num d)
      ⟨[], _, [], Ws.nil, .num (safeNum_dial hs), Ws.nil, by simp⟩ hlen
    have e : interp ops (.num d) = .num (ofBits b) := by rw [interp, numVal, ← he]
    rwa [e] at this
  refine ⟨ha, fun c hc hc' => ?_⟩
  have := ha none
  rw [hc' none] at this
  simp only [Out.ok.injEq, Prod.mk.injEq, Option.some.injEq, Value.num.injEq, true_and] at this
  exact (ofBits_injective hb hc hf this.symm).symm

/-- 0.1, the smallest double, the largest double and minus zero are read back. -/
example : ∀ b ∈ [0x3FB999999999999A, 1, 0x7FEFFFFFFFFFFFFF, 0x8000000000000000],
    ∃ out, Emits ops 1 0x09 (.num (ofBits b)) out ∧ Accepts ops (out ++ [0]) (.num (ofBits b)) := by
  intro b hb
  have h : b < 2 ^ 64 ∧ b / 2 ^ 52 % 2048 ≠ 2047 ∧ ∀ k, k < 10 → ofBits b ≠ B64.conv false k 0 := by
    simp only [List.mem_cons, List.not_mem_nil, or_false] at hb
    rcases hb with rfl | rfl | rfl | rfl <;> decide +kernel
  obtain ⟨out, h1, h2⟩ := C25_round_trip_partial h.1 h.2.1 1 0x09
  exact ⟨out, h1, (h2 fun k hk => h.2.2 k (by omega)).1⟩

/-- Their texts are `0.10000000000000001`, `4.9406564584124654e-324`, `1.7976931348623157e+308` and `-0`. -/
example : ops.fmt (ofBits 0x3FB999999999999A) = "0.10000000000000001".toUTF8.data.toList ∧
    ops.fmt (ofBits 1) = "4.9406564584124654e-324".toUTF8.data.toList ∧
    ops.fmt (ofBits 0x7FEFFFFFFFFFFFFF) = "1.7976931348623157e+308".toUTF8.data.toList ∧
    ops.fmt (ofBits 0x8000000000000000) = "-0".toUTF8.data.toList := by decide +kernel

/-! ## Documents of finite numbers -/

/-- Every number of the document is finite. -/
def FiniteNums (v : Value Dbl) : Prop := ∀ path x, walk v path = some (.num x) → Finite x

/-- Every string and name of the document survives writing and parsing, and the insertion order of its objects lists their
members. -/
def ReadableTexts (v : Value Dbl) : Prop :=
  ∀ path x, walk v path = some x →
    (∀ s, x = .str s → Serial.ReadableText s) ∧
    ∀ t o, x = .obj t o → (∀ k, (findMapElement nameLt k t).isSome ↔ k ∈ o) ∧ ∀ k ∈ o, Serial.ReadableText k

theorem readable_of_finite {v : Value Dbl} (h1 : FiniteNums v) (h2 : ReadableTexts v) : ReadableDoc ops v := by
  intro path x hx
  obtain ⟨h3, h4⟩ := h2 path x hx
  cases x with
  | num y => exact finite_safe (h1 path y hx)
  | str s => exact h3 s rfl
  | obj t o => exact h4 t o rfl
  | null => trivial
  | bool b => trivial
  | arr l => trivial

/-- **C17 for doubles**: a document whose numbers are finite and whose texts are plain is written as an RFC 8259 text of the
same document. Missing: texts that need escapes, infinities and NaN, indentation by other characters. -/
theorem C17_finite_partial (v : Value Dbl) (il : Nat) (ic : Byte) (h1 : FiniteNums v)
    (h2 : ∀ path x, walk v path = some x → (∀ s, x = .str s → PlainText s) ∧
      ∀ t o, x = .obj t o → (∀ k, (findMapElement nameLt k t).isSome ↔ k ∈ o) ∧ ∀ k ∈ o, PlainText k)
    (hic : il = 0 ∨ Ws [ic]) :
    ∃ out j, Emits ops il ic v out ∧ RfcText out j ∧ SameDoc v (interp ops j) := by
  refine C17_writes_rfc_partial ops v il ic ?_ hic
  intro path x hx
  obtain ⟨h3, h4⟩ := h2 path x hx
  cases x with
  | num y =>
      obtain ⟨d, hs, he⟩ := finite_safe (h1 path y hx)
      exact ⟨d, hs.1, he⟩
  | str s => exact h3 s rfl
  | obj t o => exact h4 t o rfl
  | null => trivial
  | bool b => trivial
  | arr l => trivial

theorem val_short {t : Bytes} {j : J} (h : Val DialNum DialStr t j) (hl : t.length < 2) : ∃ d, j = .num d := by
  cases h with
  | num _ => exact ⟨_, rfl⟩
  | str h =>
      obtain ⟨items, -, rfl, -⟩ := h
      simp at hl
      omega
  | null => simp at hl
  | true => simp at hl
  | false => simp at hl
  | arrEmpty _ => simp at hl; omega
  | arr _ => simp at hl; omega
  | objEmpty _ => simp at hl; omega
  | obj _ => simp at hl; omega

theorem written_dial {D : Type} {N : NumOps D} {v : Value D} (il : Nat) (ic : Byte) (h : ReadableDoc N v) (hic : il = 0 ∨ Ws [ic]) :
    ∃ out j, Emits N il ic v out ∧ Val DialNum DialStr out j ∧ SameDoc v (interp N j) := by
  obtain ⟨chunks, j, h1, h2, h3⟩ :=
    writeValue_good N il ic hic (sizeOf v) v (Nat.le_refl _) (readable_good h) [] Ws.nil
  exact ⟨_, j, ⟨_, _, h1, rfl, rfl⟩, h2, h3⟩

/-- **C18 for doubles**: a document whose numbers are finite and whose texts are readable is written and parsed back as the
same document, unless it is one of the numbers from 0 to 9. Missing: those numbers, texts that need escapes, DEL, infinities
and NaN, indentation by other characters. -/
theorem C18_finite_partial (v : Value Dbl) (il : Nat) (ic : Byte) (h1 : FiniteNums v) (h2 : ReadableTexts v)
    (hic : il = 0 ∨ Ws [ic]) (hv : ∀ k, k ≤ 9 → v ≠ .num (B64.conv false k 0)) :
    ∃ out v', Emits ops il ic v out ∧ Accepts ops (out ++ [0]) v' ∧ SameDoc v v' := by
  have hr := readable_of_finite h1 h2
  obtain ⟨out, j, hem, e2, e3⟩ := written_dial il ic hr hic
  have hlen : 2 ≤ out.length := by
    apply Nat.le_of_not_lt
    intro hl
    obtain ⟨d, rfl⟩ := val_short e2 hl
    have ha := Serial.sameDoc_alike e3
    cases v with
    | num x =>
        have hx := h1 [] x rfl
        obtain ⟨d', hs, he⟩ := finite_safe hx
        have := emits_det hem (finite_emits hx il ic)
        rw [this] at hl
        obtain ⟨k, hk, rfl⟩ := rfcNum_one hs.1 hl
        exact hv k hk (congrArg Value.num (he.trans (ops_conv _ _ _)))
    | _ => exact ha.elim
  exact ⟨_, _, hem, accepts_of_dial ops b64_neg ⟨[], out, [], Ws.nil, e2, Ws.nil, by simp⟩ hlen, e3⟩

theorem walk_nums {l : List Dbl} {path : List Step} {x : Value Dbl} (h : walk (.arr (l.map .num)) path = some x) :
    x = .arr (l.map .num) ∨ ∃ y ∈ l, x = .num y := by
  cases path with
  | nil => left; simpa [walk] using h.symm
  | cons s p =>
      cases s with
      | member k => simp [walk, step] at h
      | index i =>
          simp only [walk, step, List.getElem?_map, Option.bind_eq_some_iff, Option.map_eq_some_iff] at h
          obtain ⟨z, ⟨y, hy, rfl⟩, hz⟩ := h
          cases p with
          | nil =>
              simp only [walk, Option.some.injEq] at hz
              exact .inr ⟨y, List.mem_of_getElem? hy, hz.symm⟩
          | cons s p => cases s <;> simp [walk, step] at hz

/-- **C25 in arrays**: an array of finite doubles, single digits included, is read back as the identical array. -/
theorem C25_array_partial (l : List Dbl) (h : ∀ x ∈ l, Finite x) (il : Nat) (ic : Byte) (hic : il = 0 ∨ Ws [ic]) :
    ∃ out, Emits ops il ic (.arr (l.map .num)) out ∧ Accepts ops (out ++ [0]) (.arr (l.map .num)) := by
  obtain ⟨out, v', h1, h2, h3⟩ := C18_finite_partial (.arr (l.map .num)) il ic
    (by
      intro path x hx
      rcases walk_nums hx with e | ⟨y, hy, e⟩
      · cases e
      · injection e with e; subst e; exact h _ hy)
    (by
      intro path x hx
      rcases walk_nums hx with rfl | ⟨y, hy, rfl⟩
      · exact ⟨(fun _ e => nomatch e), (fun _ _ e => nomatch e)⟩
      · exact ⟨(fun _ e => nomatch e), (fun _ _ e => nomatch e)⟩)
    hic (fun k _ e => by cases e)
  refine ⟨out, h1, ?_⟩
  have e : v' = .arr (l.map .num) := by
    have ha := Serial.sameDoc_alike h3
    cases v' with
    | arr l' =>
        congr 1
        apply List.ext_getElem?
        intro i
        rcases Serial.sameDoc_step h3 (.index i) with ⟨e1, e2⟩ | ⟨x, x', e1, e2, e3⟩
        · simp only [step] at e1 e2
          rw [e1, e2]
        · simp only [step] at e1 e2
          rw [e1, e2]
          have hx : ∃ y, x = .num y := by
            simp only [List.getElem?_map, Option.map_eq_some_iff] at e1
            obtain ⟨y, -, rfl⟩ := e1
            exact ⟨y, rfl⟩
          obtain ⟨y, rfl⟩ := hx
          have := Serial.sameDoc_alike e3
          cases x' with
          | num y' => rw [show y' = y from this]
          | _ => exact this.elim
    | _ => exact ha.elim
  rwa [e] at h2

/-- `[7, 0.1]`. -/
example : ∃ out, Emits ops 1 0x09 (.arr [.num (ofBits 0x401C000000000000), .num (ofBits 0x3FB999999999999A)]) out ∧
    Accepts ops (out ++ [0]) (.arr [.num (ofBits 0x401C000000000000), .num (ofBits 0x3FB999999999999A)]) :=
  C25_array_partial [ofBits 0x401C000000000000, ofBits 0x3FB999999999999A] (by
    intro x hx
    simp only [List.mem_cons, List.not_mem_nil, or_false] at hx
    rcases hx with rfl | rfl <;> exact ofBits_finite (by decide)) 1 0x09 (.inr (by simp [Ws]))

/-- **C17 and C18 fail for infinities**, which `Parse` makes: the text `1e999` is accepted, the infinity is written as
`inf`, and this is not accepted. -/
theorem C18_violated_overflow : ∃ x, Accepts ops [0x31, 0x65, 0x39, 0x39, 0x39, 0] (.num x) ∧
    Emits ops 0 0x20 (.num x) [0x69, 0x6E, 0x66] ∧ Rejects ops [0x69, 0x6E, 0x66, 0] := by
  refine ⟨.inf false, ?_, ⟨1, _, rfl, rfl, by decide +kernel⟩, fun r => ⟨_, _, rfl, by decide⟩⟩
  have hnum : SafeNum [0x31, 0x65, 0x39, 0x39, 0x39] ⟨false, 1, 999⟩ := by
    refine ⟨RfcNum.pos (i := [0x31]) (ft := []) (fd := []) (et := [0x65, 0x39, 0x39, 0x39]) (.pos (by simp [Digit]) (by decide)
      (by simp)) .none (.unsigned (.inl rfl) (by simp) (by simp [Digit])), ?_⟩
    rintro ⟨sg, c, r, rfl | rfl, -, h⟩ <;> simp at h
  have := accepts_of_dial ops b64_neg (t := [0x31, 0x65, 0x39, 0x39, 0x39]) (j := .num ⟨false, 1, 999⟩)
    ⟨[], _, [], Ws.nil, .num (safeNum_dial hnum), Ws.nil, by simp⟩ (by decide)
  have e : interp ops (.num ⟨false, 1, 999⟩) = .num (.inf false) := by
    rw [interp, numVal, ops_conv, show B64.conv false 1 999 = .inf false by decide +kernel]
  rwa [e] at this

/-! ## C63 -/

/-- **C63**: the text of every double has at most 24 characters, so the buffer of 32 bytes holds it with its terminator and
`snprintf` cuts nothing off. -/
theorem C63_fits (x : Dbl) : (fmt x).length ≤ 24 ∧ ops.fmt x = fmt x ∧ (0 : Byte) ∉ fmt x :=
  ⟨fmt_length x, ops_fmt x, fmt_nul_free x⟩

/-- The bound is attained: `-2.2250738585072014e-308`, the smallest normal number negated. -/
example : fmt (ofBits 0x8010000000000000) = "-2.2250738585072014e-308".toUTF8.data.toList ∧
    (fmt (ofBits 0x8010000000000000)).length = 24 := by decide +kernel

/-! ## C64 -/

/-- **C64**: every RFC 8259 number is read as the double nearest to it. -/
def C64_statement : Prop := ∀ t d, RfcNum t d → ∃ x, Accepts ops (t ++ [0]) (.num x) ∧ NearestDouble d x

/-- **C64 fails** for `0e5`, which is refused. -/
theorem C64_violated : ¬ C64_statement := by
  intro h
  obtain ⟨x, h1, -⟩ := h [0x30, 0x65, 0x35] _ (RfcNum.pos (i := [0x30]) (ft := []) (et := [0x65, 0x35]) .zero .none
    (.unsigned (.inl rfl) (by simp) (by simp [Digit])))
  have h2 := h1 none
  have h3 : parseBuffer ops none ([0x30, 0x65, 0x35] ++ [0]) = .ok (⟨.kNumbersCannotHaveLeadingZeros, 1, 1⟩, none) := rfl
  rw [h3] at h2
  simp at h2

/-- **C64, the part that holds**: every RFC 8259 number of at least two characters that is not a zero followed by an exponent
is read as the nearest double. Missing: `0e...`, `0E...`, and single digits as a whole document. -/
theorem C64_nearest_partial {t : Bytes} {d : Dec} (h : SafeNum t d) (hl : 2 ≤ t.length) :
    ∃ x, Accepts ops (t ++ [0]) (.num x) ∧ NearestDouble d x := by
  have ha := accepts_of_dial ops b64_neg (j := .num d) ⟨[], t, [], Ws.nil, .num (safeNum_dial h), Ws.nil, by simp⟩ hl
  rw [interp, numVal, ops_conv] at ha
  exact ⟨_, ha, conv_nearest d⟩

/-- `0.1` is read as `0x3FB999999999999A`, `1e23` as `0x44B52D02C7E14AF6` (the even one below). -/
example : B64.conv false 1 (-1) = ofBits 0x3FB999999999999A ∧ B64.conv false 1 23 = ofBits 0x44B52D02C7E14AF6 ∧
    B64.conv true 1 309 = .inf true ∧ B64.conv false 9007199254740993 0 = ofBits 0x4340000000000000 := by decide +kernel

end Verif.Props
