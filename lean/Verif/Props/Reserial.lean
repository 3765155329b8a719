import Verif.Lemmas.Reserial
import Verif.Props.Failure
import Verif.Props.Parser

/-!
# Serializing onto documents that have contents: C164 - C166

The values a program can hold are those it has parsed or serialized, the values below them, and those with a value below
them exchanged for such a value (`History`).
-/

namespace Verif.Props

open Verif Verif.Text Verif.Number Verif.Map Verif.Spec Verif.Parser Verif.Doc Verif.Write Verif.File Verif.Serial

variable {D : Type}

/-- The values a program can have made with `Parse`, `SerializeFrom` and `Serialize`. If `calm` holds the program serializes
only types in which no field list puts a map into its own value, and it serializes a map to a new value only. -/
inductive History (N : NumOps D) (init : D) (calm : Prop) : Value D → Prop
  /-- `Parse`. -/
  | parsed {buf : Bytes} {v : Value D} : Accepts N buf v → History N init calm v
  /-- `SerializeFrom`. -/
  | made {t : Ty} {d : t.Den D} {st : Status} {v : Value D} : (calm → t.Calm) →
      serializeFrom init t d = .ok (st, v) → History N init calm v
  /-- `Serialize(value, data)`. -/
  | onto {t : Ty} {d : t.Den D} {st : Status} {v v' : Value D} : (calm → t.Calm ∧ t.Onto) → History N init calm v →
      serialize init t d v = .ok (st, v') → History N init calm v'
  /-- `Serialize(value, name, data)`. -/
  | named {t : Ty} {d : t.Den D} {name : Bytes} {st : Status} {v v' : Value D} : (calm → t.Calm) → History N init calm v →
      serNamed (serialize init t d (createValueFor init t)) v name = .ok (st, v') → History N init calm v'
  /-- A value below. -/
  | inside {s : Step} {v x : Value D} : History N init calm v → step v s = some x → History N init calm x
  /-- A value below has changed. -/
  | changed {s : Step} {v x : Value D} : History N init calm v → History N init calm x →
      History N init calm (replaceChild v s x)

theorem history_deep {N : NumOps D} (hN : NegLaw N) {init : D} {calm : Prop} {v : Value D} (h : History N init calm v) :
    Deep calm v := by
  induction h with
  | parsed h =>
    obtain ⟨-, -, j, -, rfl⟩ := (accepts_iff N hN _ _).1 h
    exact interp_deep N j
  | @made t d st v hc h =>
    obtain ⟨st', v', e, -, hd⟩ := serialize_done (full := calm) init t d _ (deep_create init t)
      fun hf => ⟨hc hf, .inr (unlisted_create init t)⟩
    have := h.symm.trans e
    simp only [Out.ok.injEq, Prod.mk.injEq] at this
    rw [this.2]; exact hd
  | @onto t d st v v' hc _ h ih =>
    obtain ⟨st', v'', e, -, hd⟩ := serialize_done (full := calm) init t d v ih fun hf => ⟨(hc hf).1, .inl (hc hf).2⟩
    have := h.symm.trans e
    simp only [Out.ok.injEq, Prod.mk.injEq] at this
    rw [this.2]; exact hd
  | @named t d name st v v' hc _ h ih =>
    obtain ⟨st', v'', e, -, hd⟩ := serNamed_done (serialize_done (full := calm) init t d _ (deep_create init t)
      fun hf => ⟨hc hf, .inr (unlisted_create init t)⟩) v ih name
    have := h.symm.trans e
    simp only [Out.ok.injEq, Prod.mk.injEq] at this
    rw [this.2]; exact hd
  | inside _ h ih => exact ih.child h
  | changed _ _ ih ih' => exact deep_replace ih ih' _

/-- A user type with one field, for examples. -/
abbrev fieldTy : Ty := .struct 0 (.named false [0x78] .bool .nil)

/-- What `SerializeFrom` makes of `{true}`. -/
def fieldDoc : Value D := .obj (.node 0 .nil [0x78] (.bool true) .nil) [[0x78]]

theorem fieldDoc_made (init : D) : serializeFrom init fieldTy (true, ()) = .ok (.kOk, fieldDoc) := rfl

/-! ## C164 -/

/-- **C164.** `Serialize(value, data)` and `Serialize(value, name, data)` are defined for every type, all data, every name and
every value of a document however it was made, and return `kOk` or `kInvalidValueType`. -/
theorem C164_defined (N : NumOps D) (hN : NegLaw N) (init : D) (v : Value D) (h : History N init False v) (t : Ty)
    (d : t.Den D) :
    (∃ st v', serialize init t d v = .ok (st, v') ∧ (st = .kOk ∨ st = .kInvalidValueType)) ∧
    (∀ name, ∃ st v', serNamed (serialize init t d (createValueFor init t)) v name = .ok (st, v') ∧
      (st = .kOk ∨ st = .kInvalidValueType)) ∧
    (∃ st v', serializeFrom init t d = .ok (st, v') ∧ (st = .kOk ∨ st = .kInvalidValueType)) := by
  have hd := history_deep hN h
  have hf := serialize_done (full := False) init t d _ (deep_create init t) (fun hf => hf.elim)
  obtain ⟨st, v', e, hs, -⟩ := serialize_done init t d v hd (fun hf => hf.elim)
  refine ⟨⟨st, v', e, hs⟩, fun name => ?_, ?_⟩
  · obtain ⟨st, v', e, hs, -⟩ := serNamed_done hf v hd name
    exact ⟨st, v', e, hs⟩
  · obtain ⟨st, v', e, hs, -⟩ := hf
    exact ⟨st, v', e, hs⟩

/-- A field `"x"` and then a field `"a"` in the same object. -/
example (init : D) : serNamed (serialize init .null () (createValueFor init .null)) fieldDoc [0x61] =
    .ok (.kOk, .obj (.node (-1) (.node 0 .nil [0x61] .null .nil) [0x78] (.bool true) .nil) [[0x78], [0x61]]) := rfl

/-! ## C165 -/

/-- The full statement of C165: serializing new data over the document of old data of the type gives the document of
the new data. -/
def C165_statement (D : Type) : Prop :=
  ∀ (init : D) (t : Ty) (old new : t.Den D) (v v' : Value D), serializeFrom init t old = .ok (.kOk, v) →
    serializeFrom init t new = .ok (.kOk, v') → serialize init t new v = .ok (.kOk, v')

/-- **C165 is violated**: serializing `{false}` over the document of `{true}` returns `kOk`, leaves `true` and lists the
member twice. -/
theorem C165_violated (z : D) : ¬ C165_statement D := by
  intro H
  have := H z fieldTy (true, ()) (false, ()) _ _ rfl rfl
  simp [serialize, serProto, serNamed, insertAccounted, insertMapElement, descend, createValueFor, findMapElement,
    show nameLt [0x78] [0x78] = false from rfl] at this

/-- Reading the document back gives the old data, and `Write` prints the member twice. -/
theorem C165_violated_effect (N : NumOps D) (init : D) (dflt : (t : Ty) → t.Den D) (data : fieldTy.Den D) :
    ∃ v, serialize init fieldTy (false, ()) fieldDoc = .ok (.kOk, v) ∧ deserialize dflt fieldTy v data = (.kOk, (true, ())) ∧
      ∃ r, writeValue N 0 0x20 2 [] v = .ok r ∧ r.status = .kOk ∧
        r.chunks.flatten = [0x7B, 0x0A] ++ [0x22, 0x78, 0x22, 0x20, 0x3A, 0x20, 0x74, 0x72, 0x75, 0x65, 0x2C, 0x0A] ++
          [0x22, 0x78, 0x22, 0x20, 0x3A, 0x20, 0x74, 0x72, 0x75, 0x65, 0x0A] ++ [0x7D] :=
  ⟨.obj (.node 0 .nil [0x78] (.bool true) .nil) [[0x78], [0x78]], rfl, rfl, _, rfl, rfl, rfl⟩

/-- For every user type with named fields the members of the document are those of the first data, whatever is serialized
over it, and the names are listed once for every call. -/
theorem C165_first_data_stay (init : D) (id : Nat) (fs : Fields) (hf : fs.Members) (old : fs.Den D) :
    ∃ m, serializeFrom init (.struct id fs) old = .ok (.kOk, .obj m fs.names) ∧
      ∀ (new : fs.Den D) (o : List Bytes), serialize init (.struct id fs) new (.obj m o) = .ok (.kOk, .obj m (o ++ fs.names)) := by
  obtain ⟨m, e, -, -, h⟩ := serProto_makes init fs hf old .nil [] treeOk_nil
  refine ⟨m, by simpa [serializeFrom, createValueFor, serialize] using e, fun new o => ?_⟩
  simp only [serialize]
  exact serProto_present init fs hf new m o h

/-- **C165, the part that holds**: for types other than user types the document is that of the new data.
Missing: user types. -/
theorem C165_again_partial (init : D) (t : Ty) (ht : ∀ id fs, t ≠ .struct id fs) (old new : t.Den D) (v v' : Value D)
    (h : serializeFrom init t old = .ok (.kOk, v)) (h' : serializeFrom init t new = .ok (.kOk, v')) :
    serialize init t new v = .ok (.kOk, v') := by
  cases t with
  | struct id fs => exact absurd rfl (ht id fs)
  | str => simp [serializeFrom, serialize, createValueFor] at h h' ⊢; subst h; simpa using h'
  | num => simp [serializeFrom, serialize, createValueFor] at h h' ⊢; subst h; simpa using h'
  | bool => simp [serializeFrom, serialize, createValueFor] at h h' ⊢; subst h; simpa using h'
  | null => simp [serializeFrom, serialize, createValueFor] at h h' ⊢; subst h; simpa using h'
  | stdString => simp [serializeFrom, serialize, createValueFor] at h h' ⊢; subst h; simpa using h'
  | vec t => simp [serializeFrom, serialize, createValueFor] at h
  | arr t =>
    change serElems _ old [] = _ at h
    obtain ⟨l, rfl⟩ := serElems_arr _ _ _ h
    exact h'
  | map t =>
    change serEntries _ _ [] old .nil = _ at h
    obtain ⟨m, rfl⟩ := serEntries_order _ _ _ _ _ h
    exact h'
  | stdMap t =>
    change serEntries _ _ [] old .nil = _ at h
    obtain ⟨m, rfl⟩ := serEntries_order _ _ _ _ _ h
    exact h'

/-- An array of two elements over an array of one. -/
example (init : D) : serialize init (.arr .bool) [true, false] (.arr [.bool false]) =
    .ok (.kOk, .arr [.bool true, .bool false]) := rfl

/-! ## C166 -/

/-- The full statement of C166: a document made with `Parse`, `SerializeFrom` and `Serialize` can be written. -/
def C166_statement (N : NumOps D) : Prop :=
  ∀ init v, History N init False v → ∀ os n old il ic st f,
    writeDoc N os n true old (some v) il ic = .ok (st, f) → st = .kOk

/-- **C166 is violated**: serializing an empty map over a document with a member returns `kOk` and removes the member, but not
its name from the list of names; writing the document then fails. -/
theorem C166_violated (N : NumOps D) (z : D) : ¬ C166_statement N := by
  intro H
  have h1 : History N z False (fieldDoc : Value D) := .made (fun h => h.elim) (fieldDoc_made z)
  have h2 : History N z False (.obj .nil [[0x78]] : Value D) :=
    .onto (t := .map .bool) (d := []) (fun h => h.elim) h1 rfl
  exact absurd (H z _ h2 (fun _ => .done 65536) 2 [] 0 0x20 .kMissingObjectElement _ rfl) (by decide)

theorem deep_not_lacks {v : Value D} (h : Lacks v) : ¬ Deep True v := by
  induction h with
  | elem hx _ ih => exact fun hd => ih (deep_arr.1 hd _ hx)
  | here hn hf =>
    intro hd
    have := (deep_obj.1 hd).2.1 trivial _ hn
    rw [hf] at this; simp at this
  | under hn hf _ ih => exact fun hd => ih ((deep_obj.1 hd).2.2 _ _ hf)

/-- **C166, the part that holds**: the document can be written if no map has been serialized over a value, neither by the
program nor by a field list that puts a map into its own value.
Missing: maps serialized over existing values. -/
theorem C166_writable_partial (N : NumOps D) (hN : NegLaw N) (init : D) (v : Value D) (h : History N init True v) (os : Sched)
    (n : Nat) (old : Bytes) (il : Nat) (ic : Byte) (st : Status) (f : Option WFile)
    (hw : writeDoc N os n true old (some v) il ic = .ok (st, f)) : st = .kOk :=
  (C56_missing_member N os n old v il ic st f hw).2.2 fun hl => deep_not_lacks hl (history_deep hN h)

/-- A document to which a named map has been added. -/
example (N : NumOps D) (init : D) : History N init True (.obj (.node (-1) (.node 0 .nil [0x61] (.obj (.node 0 .nil [0x62]
    .null .nil) []) .nil) [0x78] (.bool true) .nil) [[0x78], [0x61]]) :=
  .named (t := .map .null) (d := [([0x62], ())]) (name := [0x61]) (fun _ => trivial)
    (.made (t := fieldTy) (d := (true, ())) (fun _ => ⟨trivial, trivial⟩) (fieldDoc_made init)) rfl

/-- The same violation inside one call: a user type with a field `"x"` and, in the same value, a map. -/
theorem C166_violated_struct (N : NumOps D) (init : D) :
    ∃ v, serializeFrom init (.struct 0 (.named false [0x78] .bool (.here (.map .bool) .nil)) : Ty) (true, [], ()) =
        .ok (.kOk, v) ∧
      ∃ f, writeDoc N (fun _ => .done 65536) 2 true [] (some v) 0 0x20 = .ok (.kMissingObjectElement, f) :=
  ⟨.obj .nil [[0x78]], rfl, _, rfl⟩

end Verif.Props
