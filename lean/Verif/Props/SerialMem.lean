import Verif.Lemmas.SerialMem
import Verif.Props.Reload

/-!
# Deserialize when memory runs out (C171)
-/

namespace Verif.Props

open Verif Verif.Map Verif.Text Verif.Parser Verif.Write Verif.Serial Verif.Spec Verif.SerialMem

variable {D : Type} (M : Nat → Bool) (dflt : (t : Ty) → t.Den D)

/-- C171: if no exception is reported the status and the data are those of a run in which no request for memory fails. -/
theorem C171_result (hd : ∀ t, Ty.Ordered t (dflt t)) (h0 : ∀ t, elems t (dflt t) = 0) (t : Ty) (v : Value D) (old : t.Den D) (s : St)
    (ho : t.Ordered old) (h : (desM M dflt t v old s).status ≠ .kException) :
    ((desM M dflt t v old s).status, (desM M dflt t v old s).data) = deserialize dflt t v old :=
  (fine_des dflt hd h0 t v old s ho).pure h

/-- C171: an exception is reported exactly if one of the requests that were made failed. -/
theorem C171_exception (hd : ∀ t, Ty.Ordered t (dflt t)) (h0 : ∀ t, elems t (dflt t) = 0) (t : Ty) (v : Value D) (old : t.Den D) (s : St)
    (ho : t.Ordered old) :
    (desM M dflt t v old s).status = .kException ↔ ∃ i, s.next ≤ i ∧ i < (desM M dflt t v old s).st.next ∧ M i = true :=
  (fine_des dflt hd h0 t v old s ho).exc

/-- C171: whatever fails, the maps in the data stay maps: in order and without a name twice. -/
theorem C171_ordered (hd : ∀ t, Ty.Ordered t (dflt t)) (h0 : ∀ t, elems t (dflt t) = 0) (t : Ty) (v : Value D) (old : t.Den D) (s : St)
    (ho : t.Ordered old) : t.Ordered (desM M dflt t v old s).data :=
  (fine_des dflt hd h0 t v old s ho).ordered

/-- C171, all of it: whatever fails, the elements that are alive are the ones in the data. -/
def C171_statement (D : Type) : Prop :=
  ∀ (M : Nat → Bool) (dflt : (t : Ty) → t.Den D), (∀ t, Ty.Ordered t (dflt t)) → (∀ t, elems t (dflt t) = 0) →
    ∀ (t : Ty) (v : Value D) (old : t.Den D) (s : St), t.Ordered old →
      (desM M dflt t v old s).st.live - s.live = elems t (desM M dflt t v old s).data - elems t old

/-- C171, the part that holds: that is so if no exception is reported, and otherwise at most one element is lost. -/
theorem C171_objects_partial (hd : ∀ t, Ty.Ordered t (dflt t)) (h0 : ∀ t, elems t (dflt t) = 0) (t : Ty) (v : Value D) (old : t.Den D)
    (s : St) (ho : t.Ordered old) :
    let r := desM M dflt t v old s
    let lost := (r.st.live - s.live) - (elems t r.data - elems t old)
    (r.status ≠ .kException → lost = 0) ∧ (lost = 0 ∨ lost = 1) := by
  obtain ⟨leak, h1, h2⟩ := (fine_des (M := M) dflt hd h0 t v old s ho).ledger
  dsimp only
  refine ⟨fun h => ?_, ?_⟩
  · have := h2.resolve_right fun h' => h h'.2
    omega
  · rcases h2 with h2 | ⟨h2, -⟩ <;> omega

/-- C171: if no request fails, the call is the one of C30 to C170 and no element is lost. -/
theorem C171_enough (hd : ∀ t, Ty.Ordered t (dflt t)) (h0 : ∀ t, elems t (dflt t) = 0) (hM : ∀ i, M i = false) (t : Ty) (v : Value D)
    (old : t.Den D) (s : St) (ho : t.Ordered old) :
    let r := desM M dflt t v old s
    (r.status, r.data) = deserialize dflt t v old ∧ r.st.live - s.live = elems t r.data - elems t old := by
  have hne : (desM M dflt t v old s).status ≠ .kException := by
    rw [Ne, C171_exception M dflt hd h0 t v old s ho]
    rintro ⟨i, -, -, h⟩
    rw [hM i] at h
    cases h
  refine ⟨C171_result M dflt hd h0 t v old s ho hne, ?_⟩
  have := (C171_objects_partial M dflt hd h0 t v old s ho).1 hne
  omega

mutual
theorem blank_elems (z : D) : ∀ t : Ty, elems t (blank z t) = 0
  | .str => rfl
  | .num => rfl
  | .bool => rfl
  | .null => rfl
  | .stdString => rfl
  | .arr _ => rfl
  | .map _ => rfl
  | .vec _ => rfl
  | .stdMap _ => rfl
  | .struct _ fs => blankF_elems z fs
theorem blankF_elems (z : D) : ∀ fs : Fields, elemsF fs (blankF z fs) = 0
  | .nil => rfl
  | .here t rest => by
    show elems t (blank z t) + elemsF rest (blankF z rest) = 0
    rw [blank_elems z t, blankF_elems z rest]; rfl
  | .named _ _ t rest => by
    show elems t (blank z t) + elemsF rest (blankF z rest) = 0
    rw [blank_elems z t, blankF_elems z rest]; rfl
end

/-- `{"k": true}`. -/
def oneMember : Value Dec := .obj (.node 0 .nil [0x6B] (.bool true) .nil) [[0x6B]]

/-- C171 does not hold in full: if the copy of the name throws, the element just made is in no map and is not destroyed. -/
theorem C171_violated : ¬ C171_statement Dec := by
  intro h
  have := h (fun i => i == 1) (blank ⟨false, 0, 0⟩) (blank_ordered _) (blank_elems _) (.map .bool) oneMember [] ⟨0, 0⟩
    ⟨List.Pairwise.nil, by intro e he; cases he⟩
  revert this
  show ¬ ((desM (fun i => i == 1) (blank ⟨false, 0, 0⟩) (.map .bool) oneMember [] ⟨0, 0⟩).st.live - 0 = _)
  decide +kernel

/-- Runs into a map of booleans, and into an array of such maps. -/
def runMap (M : Nat → Bool) (v : Value Dec) (old : List (Bytes × Bool)) : Status × List (Bytes × Bool) × St :=
  let r := desM M (blank ⟨false, 0, 0⟩) (.map .bool) v old ⟨0, old.length⟩
  (r.status, r.data, r.st)
def runArr (M : Nat → Bool) (v : Value Dec) (old : List (List (Bytes × Bool))) : Status × List (List (Bytes × Bool)) × St :=
  let r := desM M (blank ⟨false, 0, 0⟩) (.arr (.map .bool)) v old ⟨0, (old.map List.length).sum⟩
  (r.status, r.data, r.st)

/-- `{"k": true}` into a map: with enough memory, without memory for the element, and without memory for the name. -/
example : runMap (fun _ => false) oneMember [] = (.kOk, [([0x6B], true)], ⟨2, 1⟩) ∧
    runMap (fun i => i == 0) oneMember [] = (.kException, [], ⟨1, 0⟩) ∧
    runMap (fun i => i == 1) oneMember [] = (.kException, [], ⟨2, 1⟩) := ⟨rfl, rfl, rfl⟩

/-- `[{"k": true}, {"k": true}]` into an array of maps that has an element: the ninth request is the second copy of `temp`; what was read
stays, and nothing is lost. -/
example : runArr (fun i => i == 8) (.arr [oneMember, oneMember]) [[([0x6A], false)]] = (.kException, [[([0x6B], true)]], ⟨9, 1⟩) ∧
    runArr (fun _ => false) (.arr [oneMember, oneMember]) [[([0x6A], false)]] =
      (.kOk, [[([0x6B], true)], [([0x6B], true)]], ⟨9, 2⟩) := ⟨rfl, rfl⟩

end Verif.Props
