import Verif.Lemmas.Vectors
import Verif.Props.Serial

/-!
# Which data survive: C176

`C27_violated` and `C31_violated` show data with vectors and NULs that are not recovered. Here the outcome is determined for data with vectors
and NULs in any place.
-/

namespace Verif.Props

open Verif Verif.Text Verif.Map Verif.Spec Verif.Parser Verif.Write Verif.Serial

variable {D : Type}

/-- **C176, the outcome.** For all types with distinct field names and all data: `SerializeFrom` has no undefined behaviour, it reports a
failure exactly if the data is a vector, or an array or a map with such an element; and `Deserialize` into fresh data gives
`t.back d`, or `kInvalidValueType` where that is `none`. -/
theorem C176_outcome (init : D) (dflt : (t : Ty) → t.Den D) (hd : ∀ t : Ty, t.Fresh (dflt t)) (t : Ty) (hl : t.Listed)
    (d : t.Den D) (hw : t.Ordered d) :
    ∃ v, serializeFrom init t d = .ok (if t.fails d then .kInvalidValueType else .kOk, v) ∧
      ∀ old, t.Fresh old →
        (∀ k, t.back d = some k → deserialize dflt t v old = (.kOk, k)) ∧
        (t.back d = none → (deserialize dflt t v old).1 = .kInvalidValueType) := by
  obtain ⟨v, h1, h2⟩ := ser_back init dflt hd t hl d hw
  refine ⟨v, h1, fun old ho => ⟨fun k hk => ?_, fun hk => ?_⟩⟩
  · have := h2 old ho
    rw [hk] at this
    exact this
  · have := h2 old ho
    rw [hk] at this
    exact this

/-- **C176, who survives.** The data come back unchanged, with status `kOk`, exactly if there is no vector in them, not even an
empty one, and no NUL in a `std::string` or a key of a `std::map`. -/
theorem C176_survives (init : D) (dflt : (t : Ty) → t.Den D) (hd : ∀ t : Ty, t.Fresh (dflt t)) (t : Ty) (hl : t.Listed)
    (d : t.Den D) (hw : t.Ordered d) :
    ∃ s v, serializeFrom init t d = .ok (s, v) ∧
      ∀ old, t.Fresh old → (deserialize dflt t v old = (.kOk, d) ↔ ¬ t.HasVector d ∧ ¬ t.HasNul d) := by
  obtain ⟨v, h1, h2⟩ := C176_outcome init dflt hd t hl d hw
  refine ⟨_, v, h1, fun old ho => ?_⟩
  obtain ⟨h3, h4⟩ := h2 old ho
  rw [← back_self t d hw]
  constructor
  · intro e
    cases hb : t.back d with
    | none => rw [e] at h4; exact absurd (h4 hb) (by simp)
    | some k =>
      rw [h3 k hb] at e
      simp only [Prod.mk.injEq, true_and] at e
      rw [e]
  · intro e; exact h3 d e

/-- **C176, silent losses.** Both calls report `kOk` and the data is another one exactly if saving does not fail, and what comes back
is something else. -/
theorem C176_silent (init : D) (dflt : (t : Ty) → t.Den D) (hd : ∀ t : Ty, t.Fresh (dflt t)) (t : Ty) (hl : t.Listed)
    (d : t.Den D) (hw : t.Ordered d) (old : t.Den D) (ho : t.Fresh old) :
    (∃ v k, serializeFrom init t d = .ok (.kOk, v) ∧ deserialize dflt t v old = (.kOk, k) ∧ k ≠ d) ↔
      (t.fails d = false ∧ (t.HasVector d ∨ t.HasNul d) ∧ (t.back d).isSome) := by
  obtain ⟨v, h1, h2⟩ := C176_outcome init dflt hd t hl d hw
  obtain ⟨h3, h4⟩ := h2 old ho
  constructor
  · rintro ⟨w, k, e1, e2, e3⟩
    rw [h1] at e1
    simp only [Out.ok.injEq, Prod.mk.injEq] at e1
    obtain ⟨e0, rfl⟩ := e1
    have hf : t.fails d = false := by
      cases hx : t.fails d with
      | false => rfl
      | true => simp [hx] at e0
    cases hb : t.back d with
    | none => rw [e2] at h4; exact absurd (h4 hb) (by simp)
    | some k' =>
      rw [h3 k' hb] at e2
      simp only [Prod.mk.injEq, true_and] at e2
      refine ⟨hf, ?_, rfl⟩
      refine Classical.byContradiction fun hc => e3 ?_
      have := (back_self t d hw).2 (not_or.1 hc)
      rw [hb, e2] at this
      exact Option.some.inj this
  · rintro ⟨hf, hv, hs⟩
    obtain ⟨k, hk⟩ := Option.isSome_iff_exists.1 hs
    refine ⟨v, k, by rw [h1, hf]; rfl, h3 k hk, ?_⟩
    rintro rfl
    exact not_or.2 ((back_self t k hw).1 hk) hv

/-- **C176, once is enough.** What comes back has no vectors and no NULs, so that it comes back unchanged from then on. -/
theorem C176_stable (t : Ty) (d k : t.Den D) (ho : t.Ordered d) (h : t.back d = some k) :
    ¬ t.HasVector k ∧ ¬ t.HasNul k ∧ t.Ordered k ∧ t.back k = some k := by
  have h1 := back_clean t d k h
  have h2 := back_ordered t d k ho h
  exact ⟨h1.1, h1.2, h2, (back_self t k h2).2 h1⟩

/-- **C176 extends C27**: the types and data of `C27_round_trip_partial` are among these types and data, without vectors and NULs. -/
theorem C176_plain (t : Ty) (h : t.Plain) : t.Listed ∧ ∀ d : t.Den D, t.Wf d → t.Ordered d ∧ ¬ t.HasVector d ∧ ¬ t.HasNul d :=
  ⟨(plain_listed (D := D) t h).1, fun d hw => ⟨(wf_ordered t d hw).1, (plain_listed t h).2 d, (wf_ordered t d hw).2⟩⟩

/-- A user type with the fields `"a"`, an array of vectors, and `"b"`, a number. -/
def vectorsTy : Ty := .struct 2 (.named false [0x61] (.arr (.vec .bool)) (.named false [0x62] .num .nil))

/-- Saving and loading `{{{true}, {}}, 7}` succeed, and the array is empty afterwards. -/
example : vectorsTy.Listed ∧ vectorsTy.fails (D := Dec) ([[true], []], ⟨false, 7, 0⟩, ()) = false ∧
    vectorsTy.back (D := Dec) ([[true], []], ⟨false, 7, 0⟩, ()) = some ([], ⟨false, 7, 0⟩, ()) := by
  refine ⟨by simp [vectorsTy, Ty.Listed, Fields.Listed, Fields.names], rfl, rfl⟩

/-- An array of vectors on its own fails to be saved; a vector in a field fails to be loaded; an array with a user type whose field is a
vector, too. -/
example : (Ty.arr (.vec .bool)).fails (D := Dec) [[]] = true ∧
    (vectorField .bool).fails (D := Dec) ([true], ()) = false ∧ (vectorField .bool).back (D := Dec) ([true], ()) = none ∧
    (Ty.arr (vectorField .bool)).back (D := Dec) [([], ())] = none ∧
    (Ty.arr (vectorField .bool)).back (D := Dec) [] = some [] := ⟨rfl, rfl, rfl, rfl, rfl⟩

/-- Keys of a `std::map` that are equal up to a NUL: the first entry stays, with its text cut. -/
example : (Ty.stdMap .stdString).Ordered (D := Dec) [([0x61, 0, 0x62], [0x78, 0, 0x79]), ([0x61, 0, 0x63], []), ([0x62], [])] ∧
    (Ty.stdMap .stdString).back (D := Dec) [([0x61, 0, 0x62], [0x78, 0, 0x79]), ([0x61, 0, 0x63], []), ([0x62], [])] =
      some [([0x61], [0x78]), ([0x62], [])] := by
  refine ⟨⟨?_, fun _ _ => trivial⟩, rfl⟩
  simp [Sorted, nameLt]

end Verif.Props
