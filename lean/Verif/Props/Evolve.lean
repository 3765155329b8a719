import Verif.Lemmas.Evolve
import Verif.Props.Serial

/-!
# Two versions of a program: C168, C169

`Ev` (`Spec/Evolve`) is a type in two versions; the later one has further optional fields in its user types, at any depth.
-/

namespace Verif.Props

open Verif Verif.Text Verif.Number Verif.Map Verif.Spec Verif.Parser Verif.Doc Verif.Write Verif.File Verif.Serial

variable {D : Type}

mutual
theorem blank_proj (z : D) : ∀ e : Ev, proj e (blank z e.new) = blank z e.old
  | .str => rfl
  | .num => rfl
  | .bool => rfl
  | .null => rfl
  | .stdString => rfl
  | .arr _ => rfl
  | .map _ => rfl
  | .vec _ => rfl
  | .stdMap _ => rfl
  | .struct _ fs => blankF_proj z fs
theorem blankF_proj (z : D) : ∀ fs : EvF, projF fs (blankF z fs.new) = blankF z fs.old
  | .nil => rfl
  | .here e rest => by
    change (proj e (blank z e.new), projF rest (blankF z rest.new)) = (blank z e.old, blankF z rest.old)
    rw [blank_proj z e, blankF_proj z rest]
  | .named _ _ e rest => by
    change (proj e (blank z e.new), projF rest (blankF z rest.new)) = (blank z e.old, blankF z rest.old)
    rw [blank_proj z e, blankF_proj z rest]
  | .added _ _ rest => blankF_proj z rest
end

/-- Default-initialised variables that hold nothing fit together. -/
theorem blank_compatible (z : D) : Compatible (blank z) := blank_proj z

/-- `struct { double a; }` with field `"a"`; later with `bool b` and optional field `"b"` before it. -/
def twoVersions : Ev := .struct 0 (.added [0x62] .bool (.named false [0x61] .num .nil))

/-- A list of them in a field `"l"`, and a later field `"n"`. -/
def twoLists : Ev := .struct 1 (.named false [0x6C] (.arr twoVersions) (.added [0x6E] .num .nil))

/-- The document `{"a": 7, "b": true}`. -/
def laterDoc : Value Dec :=
  .obj (.node 1 .nil [0x61] (.num ⟨false, 7, 0⟩) (.node 0 .nil [0x62] (.bool true) .nil)) [[0x61], [0x62]]

/-! ## C168 -/

/-- **C168.** The earlier version of a program reads every document which the later version reads, and gets the same data
without the added fields - from any document, into any target. It also reports the same status when the document lacks
something. -/
theorem C168_earlier_reads (dflt : (t : Ty) → t.Den D) (hd : Compatible dflt) (e : Ev) (v : Value D) (old : e.new.Den D) :
    ((deserialize dflt e.new v old).1 = .kOk →
      deserialize dflt e.old v (proj e old) = (.kOk, proj e (deserialize dflt e.new v old).2)) ∧
    ((deserialize dflt e.new v old).1 = .kNameNotPresent →
      deserialize dflt e.old v (proj e old) = (.kNameNotPresent, proj e (deserialize dflt e.new v old).2)) := by
  constructor <;> intro h
  · have := des_proj dflt hd e v old (by rw [h]; decide)
    rwa [h] at this
  · have := des_proj dflt hd e v old (by rw [h]; decide)
    rwa [h] at this

/-- Whatever the target of the earlier version holds. -/
theorem C168_any_target (dflt : (t : Ty) → t.Den D) (hd : Compatible dflt) (e : Ev) (v : Value D) (o : e.old.Den D)
    (h : validate e.new v = .kOk) :
    deserialize dflt e.old v o = (.kOk, proj e (deserialize dflt e.new v (graft dflt e o (dflt e.new))).2) := by
  have h1 : (deserialize dflt e.new v (graft dflt e o (dflt e.new))).1 = .kOk := by rw [des_status, h]
  have := (C168_earlier_reads dflt hd e v _).1 h1
  rwa [proj_graft] at this

/-- Only a wrong type in an added field separates the two versions. -/
theorem C168_statuses (e : Ev) (z : D) (v : Value D) (h : validate e.new v ≠ .kInvalidValueType) :
    validate e.old v = validate e.new v := by
  have := des_proj (blank z) (blank_compatible z) e v (blank z e.new) (by rwa [des_status])
  have h1 := congrArg Prod.fst this
  rwa [des_status, des_status] at h1

/-- `{"a": 7, "b": true}` read by both; with `"b": 7` the later version refuses it and the earlier one does not. -/
example :
    deserialize (blank ⟨false, 0, 0⟩) twoVersions.new laterDoc (false, ⟨false, 0, 0⟩, ()) = (.kOk, true, ⟨false, 7, 0⟩, ()) ∧
    deserialize (blank ⟨false, 0, 0⟩) twoVersions.old laterDoc (⟨false, 0, 0⟩, ()) = (.kOk, ⟨false, 7, 0⟩, ()) ∧
    validate twoVersions.new (.obj (.node 1 .nil [0x61] (.num ⟨false, 7, 0⟩) (.node 0 .nil [0x62] (.num ⟨false, 7, 0⟩) .nil)) [] :
      Value Dec) = .kInvalidValueType ∧
    validate twoVersions.old (.obj (.node 1 .nil [0x61] (.num ⟨false, 7, 0⟩) (.node 0 .nil [0x62] (.num ⟨false, 7, 0⟩) .nil)) [] :
      Value Dec) = .kOk := ⟨rfl, rfl, rfl, rfl⟩

/-! ## C169 -/

/-- **C169, upgrade.** What the earlier version serialized, the later version reads with status `kOk`: it gets the data, and
the added fields keep what the target held (in the elements of containers: what a default-initialised variable holds). -/
theorem C169_upgrade (init : D) (dflt : (t : Ty) → t.Den D) (hd : ∀ t : Ty, t.Fresh (dflt t)) (e : Ev) (hp : e.new.Plain)
    (d : e.old.Den D) (hw : e.old.Wf d) :
    ∃ v, serializeFrom init e.old d = .ok (.kOk, v) ∧
      ∀ old, e.new.Fresh old → deserialize dflt e.new v old = (.kOk, graft dflt e d old) :=
  ser_graft dflt init hd e hp d hw

/-- **C169, downgrade.** What the later version serialized, the earlier version reads with status `kOk`, and gets the data
without the added fields. -/
theorem C169_downgrade (init : D) (dflt : (t : Ty) → t.Den D) (hd : ∀ t : Ty, t.Fresh (dflt t)) (hc : Compatible dflt) (e : Ev)
    (hp : e.new.Plain) (d : e.new.Den D) (hw : e.new.Wf d) :
    ∃ v, serializeFrom init e.new d = .ok (.kOk, v) ∧
      ∀ old, e.old.Fresh old → deserialize dflt e.old v old = (.kOk, proj e d) := by
  obtain ⟨v, h1, h2⟩ := ser_des init dflt hd e.new hp d hw
  refine ⟨v, h1, fun old ho => ?_⟩
  have h3 := h2 (graft dflt e old (dflt e.new)) (graft_fresh dflt e old _ ho (hd _))
  have := (C168_earlier_reads dflt hc e v _).1 (by rw [h3])
  rwa [proj_graft, h3] at this

/-- The later version accepts a document without the added fields exactly if the earlier one does, with the same status. -/
theorem C169_accepts (e : Ev) (v : Value D) (h : Lacks e v) : validate e.new v = validate e.old v := validate_lacks e v h

/-- The data of the earlier version are in the data the later version gets. -/
theorem C169_nothing_changed (dflt : (t : Ty) → t.Den D) (e : Ev) (d : e.old.Den D) (o : e.new.Den D) :
    proj e (graft dflt e d o) = d := proj_graft dflt e d o

example : twoLists.new.Plain ∧ twoLists.old.Wf (D := Dec) ([(⟨false, 1, 0⟩, ()), (⟨false, 2, 0⟩, ())], ()) := by
  simp [twoLists, twoVersions, Ty.Plain, Fields.Plain, Fields.names, Ty.Wf, Fields.Wf]

/-- The list `1, 2` of the earlier version, read by the later one into a variable with `n = 9`. -/
example : ∃ v, serializeFrom (⟨false, 0, 0⟩ : Dec) twoLists.old ([(⟨false, 1, 0⟩, ()), (⟨false, 2, 0⟩, ())], ()) = .ok (.kOk, v) ∧
    deserialize (blank ⟨false, 0, 0⟩) twoLists.new v ([], ⟨false, 9, 0⟩, ()) =
      (.kOk, [(false, ⟨false, 1, 0⟩, ()), (false, ⟨false, 2, 0⟩, ())], ⟨false, 9, 0⟩, ()) := ⟨_, rfl, rfl⟩

/-- And back. -/
example : ∃ v, serializeFrom (⟨false, 0, 0⟩ : Dec) twoLists.new ([(true, ⟨false, 1, 0⟩, ())], ⟨false, 9, 0⟩, ()) = .ok (.kOk, v) ∧
    deserialize (blank ⟨false, 0, 0⟩) twoLists.old v ([], ()) = (.kOk, [(⟨false, 1, 0⟩, ())], ()) := ⟨_, rfl, rfl⟩

/-- The condition on documents: a user type without fields accepts anything; with one optional field it refuses an array. -/
example : validate (.struct 0 .nil) (.arr [] : Value Dec) = .kOk ∧
    validate (.struct 0 (.named true [0x62] .bool .nil)) (.arr [] : Value Dec) = .kInvalidValueType ∧
    validate (.struct 0 (.named true [0x62] .bool .nil)) (.obj .nil [] : Value Dec) = .kOk := ⟨rfl, rfl, rfl⟩

/-- The added field must be optional. -/
example : validate (.struct 0 (.named false [0x62] .bool .nil)) (.obj .nil [] : Value Dec) = .kNameNotPresent := rfl

end Verif.Props
