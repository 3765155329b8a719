import Verif.Lemmas.SerialFields

/-!
# Properties of the serialization framework: C26 - C34

Data types are elements of the universe `Ty`; `t.Den D` is the data of type `t`. A "fresh" target has empty maps.
`dflt` is what a default-initialised local variable holds.
-/

namespace Verif.Props

open Verif Verif.Text Verif.Number Verif.Map Verif.Spec Verif.Parser Verif.Doc Verif.Write Verif.File Verif.Serial

variable {D : Type}

/-! ## Example data -/

mutual
/-- Data holding `z` for numbers and nothing else. -/
def blank (z : D) : (t : Ty) → t.Den D
  | .str => []
  | .num => z
  | .bool => false
  | .null => ()
  | .stdString => []
  | .arr _ => []
  | .map _ => []
  | .vec _ => []
  | .stdMap _ => []
  | .struct _ fs => blankF z fs
/-- The same for field lists. -/
def blankF (z : D) : (fs : Fields) → fs.Den D
  | .nil => ()
  | .here t rest => (blank z t, blankF z rest)
  | .named _ _ t rest => (blank z t, blankF z rest)
end

mutual
theorem blank_fresh (z : D) : ∀ t : Ty, t.Fresh (blank z t)
  | .str => trivial
  | .num => trivial
  | .bool => trivial
  | .null => trivial
  | .stdString => trivial
  | .arr _ => trivial
  | .map _ => rfl
  | .vec _ => trivial
  | .stdMap _ => rfl
  | .struct _ fs => blankF_fresh z fs
theorem blankF_fresh (z : D) : ∀ fs : Fields, fs.Fresh (blankF z fs)
  | .nil => trivial
  | .here t rest => ⟨blank_fresh z t, blankF_fresh z rest⟩
  | .named _ _ t rest => ⟨blank_fresh z t, blankF_fresh z rest⟩
end

/-- `struct { double a; std::string s; Array<bool> l; }` with fields `"a"`, optional `"s"`, `"l"`. -/
def sampleTy : Ty :=
  .struct 0 (.named false [0x61] .num (.named true [0x73] .stdString (.named false [0x6C] (.arr .bool) .nil)))

/-- Its data `{7, "x", {true, false}}`. -/
def sampleData : sampleTy.Den Dec := (⟨false, 7, 0⟩, [0x78], [true, false], ())

/-- The document `{"a": 7, "l": [true]}`. -/
def sampleDoc : Value Dec :=
  .obj (.node 1 .nil [0x61] (.num ⟨false, 7, 0⟩) (.node 0 .nil [0x6C] (.arr [.bool true]) .nil)) [[0x61], [0x6C]]

/-! ## C26 -/

/-- **C26.** `Validate` returns exactly the status `Deserialize` returns, for every type, value, target and default
contents. -/
theorem C26_validate_agrees (dflt : (t : Ty) → t.Den D) (t : Ty) (v : Value D) (old : t.Den D) :
    (deserialize dflt t v old).1 = validate t v := des_status dflt t v old

/-- Accepted without the optional field; rejected when `"l"` holds a number. -/
example : validate sampleTy sampleDoc = .kOk ∧
    validate sampleTy (.obj (.node 1 .nil [0x61] (.num ⟨false, 7, 0⟩) (.node 0 .nil [0x6C] (.num ⟨false, 7, 0⟩) .nil)) [] :
      Value Dec) = .kInvalidValueType := ⟨rfl, rfl⟩

/-! ## C27, C31 -/

/-- The full statement of C27. -/
def C27_statement (D : Type) : Prop :=
  ∀ (init : D) (dflt : (t : Ty) → t.Den D), (∀ t : Ty, t.Fresh (dflt t)) → ∀ (t : Ty) (d : t.Den D), t.Wf d →
    ∃ v, serializeFrom init t d = .ok (.kOk, v) ∧ ∀ old, t.Fresh old → deserialize dflt t v old = (.kOk, d)

/-- **C27 is violated**: a `std::vector` is given an object as its value, and serializing it fails, whatever it
contains. -/
theorem C27_violated (z : D) : ¬ C27_statement D := by
  intro H
  obtain ⟨v, h, -⟩ := H z (blank z) (blank_fresh z) (.vec .bool) [] (by intro x hx; simp at hx)
  simp [serializeFrom, createValueFor, serialize] at h

/-- Serializing any vector fails. -/
theorem C27_violated_every_vector (init : D) (t : Ty) (d : (Ty.vec t).Den D) :
    serializeFrom init (.vec t) d = .ok (.kInvalidValueType, .obj .nil []) := rfl

/-- **C27, the part that holds**: for types without `std::vector`, whose field names are distinct, data survives
serialization and deserialization into a fresh target. Missing: vectors, repeated field names, unnamed entries that
are not user types, and embedded NUL characters in `std::string`. -/
theorem C27_round_trip_partial (init : D) (dflt : (t : Ty) → t.Den D) (hd : ∀ t : Ty, t.Fresh (dflt t)) (t : Ty) (hp : t.Plain)
    (d : t.Den D) (hw : t.Wf d) :
    ∃ v, serializeFrom init t d = .ok (.kOk, v) ∧ ∀ old, t.Fresh old → deserialize dflt t v old = (.kOk, d) :=
  ser_des init dflt hd t hp d hw

example : sampleTy.Plain ∧ sampleTy.Wf sampleData := by
  simp [sampleTy, sampleData, Ty.Plain, Fields.Plain, Fields.names, Ty.Wf, Fields.Wf]

/-- Nested maps are allowed: a map of user types survives. -/
example : (Ty.map sampleTy).Plain ∧ (Ty.map sampleTy).Wf [([0x6B], sampleData), ([0x6C], sampleData)] := by
  simp only [sampleTy, sampleData, Ty.Plain, Fields.Plain, Fields.names, Ty.Wf, Fields.Wf, Sorted]
  refine ⟨by simp, by simp; decide, ?_⟩
  intro e he
  cases he with
  | head => simp
  | tail _ he =>
    cases he with
    | head => simp
    | tail _ he => cases he

/-- The full statement of C31: what `SerializeFrom` accepted can be recovered from the tree. -/
def C31_statement (D : Type) : Prop :=
  ∀ (init : D) (dflt : (t : Ty) → t.Den D), (∀ t : Ty, t.Fresh (dflt t)) → ∀ (t : Ty) (d : t.Den D), t.Wf d →
    ∀ v, serializeFrom init t d = .ok (.kOk, v) → ∀ old, t.Fresh old → deserialize dflt t v old = (.kOk, d)

/-- A user type with a single vector field `"v"`. -/
def vectorField (t : Ty) : Ty := .struct 1 (.named false [0x76] (.vec t) .nil)

/-- Whatever the vector contains, the result is `kOk` and the tree for `{"v": {}}`. -/
theorem C31_violated_collapse (init : D) (t : Ty) (l : (Ty.vec t).Den D) :
    serializeFrom init (vectorField t) (l, ()) =
      .ok (.kOk, .obj (.node 0 .nil [0x76] (.obj .nil []) .nil) [[0x76]]) := rfl

/-- **C31 is violated** by a vector in a field. -/
theorem C31_violated (z : D) : ¬ C31_statement D := by
  intro H
  have := H z (blank z) (blank_fresh z) (vectorField .bool) ([true], ())
    (by simp [vectorField, Ty.Wf, Fields.Wf]) _ (C31_violated_collapse z .bool [true]) ([], ())
    (by simp [vectorField, Ty.Fresh, Fields.Fresh])
  have h1 : Status.kInvalidValueType = Status.kOk := congrArg Prod.fst this
  simp at h1

/-- **C31 is violated** by two keys of a `std::map` that agree up to a NUL: the second entry is lost, with status `kOk`. -/
theorem C31_violated_keys (init : D) :
    serializeFrom init (.stdMap .bool) [([0x61, 0, 0x62], true), ([0x61, 0, 0x63], false)] =
      .ok (.kOk, .obj (.node 0 .nil [0x61] (.bool true) .nil) []) := rfl

/-- **C31, the part that holds**: for the types of `C27_round_trip_partial` an accepted datum can be recovered; in
particular different data give different trees. Missing: as there. -/
theorem C31_nothing_lost_partial (init : D) (dflt : (t : Ty) → t.Den D) (hd : ∀ t : Ty, t.Fresh (dflt t)) (t : Ty) (hp : t.Plain)
    (d : t.Den D) (hw : t.Wf d) (v : Value D) (h : serializeFrom init t d = .ok (.kOk, v)) :
    (∀ old, t.Fresh old → deserialize dflt t v old = (.kOk, d)) ∧
    ∀ d', t.Wf d' → serializeFrom init t d' = .ok (.kOk, v) → d' = d := by
  have key : ∀ d, t.Wf d → serializeFrom init t d = .ok (.kOk, v) →
      ∀ old, t.Fresh old → deserialize dflt t v old = (.kOk, d) := by
    intro d hw h
    obtain ⟨w, h1, h2⟩ := C27_round_trip_partial init dflt hd t hp d hw
    rw [h] at h1
    simp only [Out.ok.injEq, Prod.mk.injEq, true_and] at h1
    subst h1
    exact h2
  refine ⟨key d hw h, fun d' hw' h' => ?_⟩
  have a := key d hw h (dflt t) (hd t)
  have b := key d' hw' h' (dflt t) (hd t)
  rw [a] at b
  simp only [Prod.mk.injEq, true_and] at b
  exact b.symm

example : ∃ v, serializeFrom (⟨false, 0, 0⟩ : Dec) sampleTy sampleData = .ok (.kOk, v) ∧
    deserialize (blank ⟨false, 0, 0⟩) sampleTy v (blank ⟨false, 0, 0⟩ sampleTy) = (.kOk, sampleData) := ⟨_, rfl, rfl⟩

/-! ## C28 -/

/-- The full statement of C28, for a disk on which every call transfers what it is asked for. -/
def C28_statement (N : NumOps D) : Prop :=
  ∀ os, (∀ i, ∃ k, os i = .done k ∧ 65536 ≤ k) → ∀ (init : D) (dflt : (t : Ty) → t.Den D), (∀ t : Ty, t.Fresh (dflt t)) →
    ∀ (t : Ty) (d : t.Den D), t.Wf d →
    ∃ v n f v', serializeFrom init t d = .ok (.kOk, v) ∧
      writeDoc N os n true [] (some v) 1 0x09 = .ok (.kOk, some f) ∧
      parseFile N os n none (some f.content) f.content.length = .ok (⟨.kOk, 0, 0⟩, some v') ∧
      ∀ old, t.Fresh old → deserializeTo dflt (some v') t old = .ok (.kOk, d)

/-- The file written for a map is the text of an empty object. -/
theorem map_written_empty (N : NumOps D) (os : Sched) (n : Nat) (m : Tree Bytes (Value D)) (st : Status) (f : WFile)
    (hos : NoFailure os) (h : writeDoc N os n true [] (some (.obj m [])) 1 0x09 = .ok (st, some f)) :
    f.content = [0x7B, 0x0A, 0x7D] ∧ 0 < n := by
  have he : Emits N 1 0x09 (.obj m []) [0x7B, 0x0A, 0x7D] := ⟨1, _, rfl, rfl, rfl⟩
  have hn : 0 < n := by
    cases n with
    | zero => simp [writeDoc, writeValue] at h
    | succ n => omega
  have hst : st = .kOk := by
    cases n with
    | zero => omega
    | succ n =>
      simp only [writeDoc, writeValue, writeMembers, Bool.true_eq_false, if_false] at h
      rw [Out.bind_eq_ok] at h
      obtain ⟨r, h1, h2⟩ := h
      rw [Out.bind_eq_ok] at h2
      obtain ⟨g, h3, h4⟩ := h2
      simp only [Out.ok_bind, Out.ok.injEq, Prod.mk.injEq, Option.some.injEq] at h1 h4
      rw [if_neg (by simp)] at h1
      simp only [Out.ok.injEq] at h1
      rw [← h4.1, ← h1]
  subst hst
  refine ⟨?_, hn⟩
  have := writeDoc_content N hos he h
  simpa using this

/-- **C28 is violated**: `ObjectMap<bool>` with one entry is written as an empty object and read back empty. -/
theorem C28_violated (N : NumOps D) (z : D) : ¬ C28_statement N := by
  intro H
  have hos : NoFailure (fun _ => .done 65536) := by intro i; simp
  obtain ⟨v, n, f, v', h1, h2, h3, h4⟩ := H (fun _ => .done 65536) (fun _ => ⟨65536, rfl, Nat.le_refl _⟩) z (blank z) (blank_fresh z)
    (.map .bool) [([0x61], true)] (by simp [Ty.Wf, Sorted])
  have e : v = .obj (.node 0 .nil [0x61] (.bool true) .nil) [] := by
    have : serializeFrom z (.map .bool) [([0x61], true)] =
        .ok (.kOk, .obj (.node 0 .nil [0x61] (.bool true) .nil) []) := rfl
    rw [this] at h1
    simp only [Out.ok.injEq, Prod.mk.injEq, true_and] at h1
    exact h1.symm
  subst e
  obtain ⟨hc, hn⟩ := map_written_empty N _ n _ _ f hos h2
  rw [hc, parseFile_small N _ n hn 65536 rfl none _ (by decide) (by decide)] at h3
  have h5 : parseBuffer N none ([0x7B, 0x0A, 0x7D] ++ [0]) = .ok (⟨.kOk, 0, 0⟩, some (.obj .nil [])) := rfl
  rw [h5] at h3
  simp only [Out.ok.injEq, Prod.mk.injEq, Option.some.injEq, true_and] at h3
  subst h3
  have h6 := h4 [] rfl
  have h7 : deserializeTo (blank z) (some (.obj .nil [])) (.map .bool) [] = .ok (.kOk, []) := rfl
  rw [h7] at h6
  simp at h6

theorem writeChunks_total (os : Sched) (hos : ∀ i, os i ≠ .done 0) (n : Nat) (cs : List Bytes) (f : WFile)
    (h : ∀ c ∈ cs, c.length ≤ n) : ∃ f', writeChunks os n cs f = .ok f' := by
  induction cs generalizing f with
  | nil => exact ⟨_, rfl⟩
  | cons c cs ih =>
    obtain ⟨⟨b, f1⟩, h1⟩ := writeFile_total os hos n c f (h c (by simp))
    obtain ⟨f', h2⟩ := ih f1 (fun c hc => h c (by simp [hc]))
    exact ⟨f', by simp [writeChunks, h1, h2]⟩

theorem length_le_flatten (cs : List Bytes) (c : Bytes) (h : c ∈ cs) : c.length ≤ cs.flatten.length := by
  induction cs with
  | nil => simp at h
  | cons a cs ih =>
    rcases List.mem_cons.1 h with rfl | h
    · simp
    · have := ih h; rw [List.flatten_cons, List.length_append]; omega

/-- **C28, the part that holds**: for types without maps and vectors and data whose texts need no escaping and whose
numbers are printed and read back exactly, saving and loading succeeds and reproduces the datum, if the text has between
2 and 65534 bytes. Missing: maps, vectors, texts with quotes, backslashes, control characters or DEL, longer and
one-byte texts. -/
theorem C28_save_load_partial (N : NumOps D) (hN : NegLaw N) (os : Sched) (hos : ∀ i, ∃ k, os i = .done k ∧ 65536 ≤ k)
    (init : D) (dflt : (t : Ty) → t.Den D) (hd : ∀ t : Ty, t.Fresh (dflt t)) (t : Ty) (hp : t.Plain) (hm : t.NoMaps)
    (d : t.Den D) (hs : t.Savable N d) (il : Nat) (ic : Byte) (hic : il = 0 ∨ Ws [ic]) :
    ∃ v n f, serializeFrom init t d = .ok (.kOk, v) ∧ writeDoc N os n true [] (some v) il ic = .ok (.kOk, some f) ∧
      (2 ≤ f.content.length → f.content.length ≤ 65534 → ∀ root,
        ∃ v', parseFile N os n root (some f.content) f.content.length = .ok (⟨.kOk, 0, 0⟩, some v') ∧
          ∀ old, t.Fresh old → deserializeTo dflt (some v') t old = .ok (.kOk, d)) := by
  obtain ⟨v, h1, h2⟩ := C27_round_trip_partial init dflt hd t hp d (savable_wf N t d hs)
  obtain ⟨w, h1', hr⟩ := ser_readable N init t hp d hs
  have : w = v := by
    have h1'' : serializeFrom init t d = .ok (.kOk, w) := h1'
    rw [h1] at h1''
    simp only [Out.ok.injEq, Prod.mk.injEq, true_and] at h1''
    exact h1''.symm
  subst this
  obtain ⟨out, ⟨n0, r, he, hst, rfl⟩, -⟩ := C18_round_trip_partial N hN w il ic hr hic
  have hprog : ∀ i, os i ≠ .done 0 := by
    intro i hi
    obtain ⟨k, hk, hk'⟩ := hos i
    rw [hi] at hk
    simp only [Call.done.injEq] at hk
    omega
  obtain ⟨f, hf⟩ := writeChunks_total os hprog (n0 + r.chunks.flatten.length + 1) r.chunks (openCreate [])
    (fun c hc => by have := length_le_flatten r.chunks c hc; omega)
  have hw : writeDoc N os (n0 + r.chunks.flatten.length + 1) true [] (some w) il ic = .ok (.kOk, some f) := by
    unfold writeDoc
    have := writeValue_mono N il ic (m := n0 + r.chunks.flatten.length + 1) (by omega) w [] r he
    simp only [Bool.true_eq_false, if_false, this, Out.ok_bind, hf, hst]
  refine ⟨w, _, f, h1, hw, fun hl hmax root => ?_⟩
  obtain ⟨-, -, h3⟩ := C24_files_partial N hN os hos (n0 + r.chunks.flatten.length + 1) (by omega)
  obtain ⟨v', hp', hsame⟩ := h3 w il ic f root hr hic hw hl hmax
  refine ⟨v', hp', fun old ho => ?_⟩
  have := des_same dflt t hm w v' old hsame
  simp only [deserializeTo, ← this, h2 old ho]

theorem seven_safe : SafeNum (natOps.fmt ⟨false, 7, 0⟩) ⟨false, 7, 0⟩ := by
  have e : natOps.fmt ⟨false, 7, 0⟩ = [0x37] ++ ([] ++ []) := by decide
  rw [e]
  refine ⟨?_, ?_⟩
  · have := RfcNum.pos (.pos (c := 0x37) (ds := []) (by simp [Digit]) (by decide) (by simp)) .none .none
    simpa [decimal] using this
  · rintro ⟨sg, c, r, rfl | rfl, -, h⟩ <;> simp at h

/-- `{"a": 7, "s": "x", "l": [true, false]}` can be saved. -/
example : sampleTy.NoMaps ∧ sampleTy.Savable natOps sampleData := by
  have hx : ∀ b : Nat, 0x61 ≤ b → b < 0x7F → ReadableText (utf8s [b]) := fun b h1 h2 =>
    ⟨[b], by intro cp hcp; simp only [List.mem_singleton] at hcp; subst hcp; omega, rfl⟩
  refine ⟨by simp [sampleTy, Ty.NoMaps, Fields.NoMaps], ?_, ?_, ?_, ?_, ?_, ?_, trivial⟩
  · exact hx 0x61 (by decide) (by decide)
  · exact ⟨⟨false, 7, 0⟩, seven_safe, rfl⟩
  · exact hx 0x73 (by decide) (by decide)
  · exact hx 0x78 (by decide) (by decide)
  · exact hx 0x6C (by decide) (by decide)
  · intro x _; trivial

/-! ## C29, C30 -/

/-- The full statement of C29: a list with an optional field accepts an object without the field, leaving its data
unchanged, and accepts an object with the field only if its content conforms. -/
def C29_statement (D : Type) : Prop :=
  ∀ (dflt : (t : Ty) → t.Den D) (name : Bytes) (t : Ty) (fs : Fields) (l : Loc true name t fs) (m : Tree Bytes (Value D))
    (o : List Bytes) (old : fs.Den D),
    (findMapElement nameLt name m = none →
      (desProto dflt fs (.obj m o) old).1 = validateProto l.erase (.obj m o) ∧
      l.read (desProto dflt fs (.obj m o) old).2 = l.read old) ∧
    (∀ e, findMapElement nameLt name m = some e → (desProto dflt fs (.obj m o) old).1 = .kOk → validate t e.2 = .kOk)

/-- A user type with a required field `"b"`. -/
def inner : Ty := .struct 2 (.named false [0x62] .num .nil)

/-- **C29 is violated**: an optional field whose content lacks a required member is accepted. -/
theorem C29_violated (z : D) : ¬ C29_statement D := by
  intro H
  obtain ⟨-, h⟩ := H (blank z) [0x61] inner (.named true [0x61] inner .nil) (.head _)
    (.node 0 .nil [0x61] (.obj .nil []) .nil) [] (blankF z _)
  have := h ([0x61], .obj .nil []) rfl rfl
  have e : validate inner (.obj .nil [] : Value D) = .kNameNotPresent := rfl
  rw [e] at this
  simp at this

/-- **C29, the part that holds**: an absent optional field has no influence on the status and keeps its data; a present
one is accepted only if its content conforms or lacks a required member, and then it holds what deserializing its content
gives. Missing: rejection of contents lacking a required member. -/
theorem C29_optional_partial (dflt : (t : Ty) → t.Den D) (name : Bytes) (t : Ty) (fs : Fields) (l : Loc true name t fs)
    (m : Tree Bytes (Value D)) (o : List Bytes) (old : fs.Den D) :
    (findMapElement nameLt name m = none →
      (desProto dflt fs (.obj m o) old).1 = validateProto l.erase (.obj m o) ∧
      l.read (desProto dflt fs (.obj m o) old).2 = l.read old) ∧
    (∀ e, findMapElement nameLt name m = some e → (desProto dflt fs (.obj m o) old).1 = .kOk →
      (validate t e.2 = .kOk ∨ validate t e.2 = .kNameNotPresent) ∧
      l.read (desProto dflt fs (.obj m o) old).2 = (deserialize dflt t e.2 (l.read old)).2) := by
  refine ⟨fun h => ?_, fun e h hk => ?_⟩
  · rw [desProto_status]
    exact optional_absent dflt h o l old
  · rw [desProto_status] at hk
    have := field_of_accepted dflt l old hk
    simp only [validateNamed, desNamed, h, true_and] at this
    exact this

/-- `"s"` of the sample type is absent: the document is accepted and the field keeps its contents. -/
example : deserialize (blank (⟨false, 0, 0⟩ : Dec)) sampleTy sampleDoc ((⟨false, 1, 0⟩ : Dec), [0x7A], [], ()) =
    (.kOk, ((⟨false, 7, 0⟩ : Dec), [0x7A], [true], ())) := rfl

/-- Required fields: (1) acceptance means that the value is an object in which every required field is present and
conforms; (2) a missing required field gives `kNameNotPresent` if everything before it conforms; (3) a value that is not
an object is rejected by a named field; (4) the first failing entry determines the status. -/
theorem C30_required (dflt : (t : Ty) → t.Den D) :
    (∀ opt name t fs, Loc opt name t fs → ∀ (v : Value D) old, (desProto dflt fs v old).1 = .kOk →
      ∃ m o, v = .obj m o ∧
        (opt = false → ∃ e, findMapElement nameLt name m = some e ∧ validate t e.2 = .kOk)) ∧
    (∀ pre name t rest (m : Tree Bytes (Value D)) o old, validateProto pre (.obj m o) = .kOk →
      findMapElement nameLt name m = none →
      (desProto dflt (pre.append (.named false name t rest)) (.obj m o) old).1 = .kNameNotPresent) ∧
    (∀ opt name t rest (v : Value D) old, (∀ m o, v ≠ .obj m o) →
      (desProto dflt (.named opt name t rest) v old).1 = .kInvalidValueType) ∧
    (∀ pre post (v : Value D) old, (desProto dflt (pre.append post) v old).1 =
      if validateProto pre v = .kOk then validateProto post v else validateProto pre v) := by
  refine ⟨?_, ?_, ?_, ?_⟩
  · intro opt name t fs l v old h
    rw [desProto_status] at h
    have := (field_of_accepted dflt l old h).1
    cases v with
    | obj m o =>
      refine ⟨m, o, rfl, ?_⟩
      rintro rfl
      simp only [validateNamed, Bool.false_eq_true, false_and, or_false] at this
      cases hf : findMapElement nameLt name m with
      | none => simp [hf] at this
      | some e => rw [hf] at this; exact ⟨e, rfl, this⟩
    | _ => simp [validateNamed] at this
  · intro pre name t rest m o old hp hf
    rw [desProto_status, validateProto_append, if_pos hp, validateProto_named]
    simp [validateNamed, hf]
  · intro opt name t rest v old hv
    rw [desProto_status, validateProto_named]
    cases v with
    | obj m o => exact absurd rfl (hv m o)
    | _ => simp [validateNamed]
  · intro pre post v old
    rw [desProto_status, validateProto_append]

/-- `"l"` is missing. -/
example : (deserialize (blank (⟨false, 0, 0⟩ : Dec)) sampleTy (.obj (.node 0 .nil [0x61] (.num ⟨false, 7, 0⟩) .nil) [[0x61]])
    (blank ⟨false, 0, 0⟩ sampleTy)).1 = .kNameNotPresent := rfl

/-! ## C32, C33 -/

/-- The full statement of C32. -/
def C32_statement (D : Type) : Prop :=
  ∀ (dflt : (t : Ty) → t.Den D) (t : Ty) (v : Value D), t.Covered v → validate t v = .kOk →
    ∀ old old' : t.Den D, (deserialize dflt t v old).2 = (deserialize dflt t v old').2

/-- **C32 is violated**: entries that a map already holds survive `Deserialize`. -/
theorem C32_violated (z : D) : ¬ C32_statement D := by
  intro H
  have := H (blank z) (.map .bool) (.obj .nil []) trivial rfl [] [([0x61], true)]
  simp [deserialize, toList, desMap] at this

/-- **C32, the part that holds**: without maps outside of arrays, and with all optional fields present, the result of an
accepted `Deserialize` does not depend on the previous contents. Missing: maps. -/
theorem C32_target_equals_document_partial (dflt : (t : Ty) → t.Den D) (t : Ty) (hn : t.NoMerge) (v : Value D)
    (hc : t.Covered v) (hv : validate t v = .kOk) (old old' : t.Den D) :
    deserialize dflt t v old = deserialize dflt t v old' := des_indep dflt t hn v hc hv old old'

/-- What maps do instead: members of the document are deserialized onto the previous entry, if there is one, and all
other entries stay. -/
theorem C32_maps_merge_partial (dflt : (t : Ty) → t.Den D) (t : Ty) (m : Tree Bytes (Value D)) (hm : TreeOk m)
    (o : List Bytes) (old : (Ty.map t).Den D) (h : validate (.map t) (.obj m o) = .kOk) (k : Bytes) :
    Serial.get k (deserialize dflt (.map t) (.obj m o) old).2 =
      match findMapElement nameLt k m with
      | some e => some (deserialize dflt t e.2 ((Serial.get k old).getD (dflt t))).2
      | none => Serial.get k old := by
  obtain ⟨A, hA⟩ := hm
  have hs : (desMap (deserialize dflt t) (dflt t) (toList m) old).1 = .kOk := by
    rw [← h]; exact des_status dflt (.map t) (.obj m o) old
  have := desMap_merge (deserialize dflt t) (dflt t) (toList m) old hA.sorted hs k
  have hf := mapInv_find nameLt_strict hA k
  cases hk : A k with
  | none =>
    rw [hk] at hf
    rw [hf]
    exact this.2 (fun v hv => by rw [hA.mem] at hv; rw [hk] at hv; simp at hv)
  | some x =>
    rw [hk] at hf
    rw [hf]
    exact this.1 x ((hA.mem k x).2 hk)

example : sampleTy.NoMerge ∧ inner.Covered (.obj (.node 0 .nil [0x62] (.num 5) .nil) [[0x62]] : Value Nat) ∧
    validate inner (.obj (.node 0 .nil [0x62] (.num 5) .nil) [[0x62]] : Value Nat) = .kOk := by
  refine ⟨by simp [sampleTy, Ty.NoMerge, Fields.NoMerge], ?_, rfl⟩
  simp [inner, Ty.Covered, Fields.Covered]

/-- `{"a": true}` read into a map holding `"b"`. -/
example : deserialize (blank (0 : Nat)) (.map .bool) (.obj (.node 0 .nil [0x61] (.bool true) .nil) [[0x61]])
    [([0x61], false), ([0x62], false)] = (.kOk, [([0x61], true), ([0x62], false)]) := rfl

/-- **C33.** `Deserialize` into a field list depends only on the members the list names: two objects with the same
members under those names give the same status and the same data, whatever else they contain and in whatever order. -/
theorem C33_only_named_members (dflt : (t : Ty) → t.Den D) (fs : Fields) (hc : fs.Closed) (m m' : Tree Bytes (Value D))
    (o o' : List Bytes)
    (h : ∀ n ∈ fs.names, (findMapElement nameLt n m).map (·.2) = (findMapElement nameLt n m').map (·.2))
    (old : fs.Den D) : desProto dflt fs (.obj m o) old = desProto dflt fs (.obj m' o') old :=
  desProto_named_only dflt fs hc h old

/-- Two objects that agree on `"b"` only. -/
example : (Fields.named false [0x62] .num .nil).Closed ∧
    (findMapElement nameLt [0x62] (.node 1 .nil [0x62] (.num 5) (.node 0 .nil [0x63] .null .nil) : Tree Bytes (Value Nat))).map (·.2)
      = (findMapElement nameLt [0x62] (.node 0 .nil [0x62] (.num 5) .nil : Tree Bytes (Value Nat))).map (·.2) :=
  ⟨trivial, rfl⟩

/-! ## C34 -/

/-- The full statement of C34: without a document none of the three calls has undefined behaviour. -/
def C34_statement (N : NumOps D) : Prop :=
  ∀ (dflt : (t : Ty) → t.Den D) (t : Ty) (old : t.Den D) os n oldFile il ic,
    deserializeTo dflt none t old ≠ .ub ∧ validateRoot (none : Option (Value D)) t ≠ .ub ∧
    writeDoc N os n true oldFile none il ic ≠ .ub

/-- **C34 is violated**: `DeserializeTo` and `Validate` dereference the null root, also after a failed `Parse`. -/
theorem C34_violated (N : NumOps D) (z : D) :
    ¬ C34_statement N ∧
    ∃ r root, parseBuffer N none [0x5B, 0x5B, 0] = .ok (r, root) ∧ r.status ≠ .kOk ∧
      deserializeTo (blank z) root .num z = .ub ∧ validateRoot root .num = .ub := by
  refine ⟨fun H => ?_, ⟨.kExpectedJsonValue, 1, 3⟩, none, rfl, by simp, rfl, rfl⟩
  exact (H (blank z) .num z (fun _ => .done 1) 1 [] 0 0x20).1 rfl

mutual
/-- A type whose value is dereferenced is one that does not accept every document. -/
theorem dereferences_iff : ∀ t : Ty, dereferences t = true ↔ ∃ v : Value D, validate t v ≠ .kOk
  | .str => ⟨fun _ => ⟨.null, by simp [validate]⟩, fun _ => rfl⟩
  | .num => ⟨fun _ => ⟨.null, by simp [validate]⟩, fun _ => rfl⟩
  | .bool => ⟨fun _ => ⟨.null, by simp [validate]⟩, fun _ => rfl⟩
  | .null => ⟨fun _ => ⟨.bool true, by simp [validate]⟩, fun _ => rfl⟩
  | .stdString => ⟨fun _ => ⟨.null, by simp [validate]⟩, fun _ => rfl⟩
  | .arr _ => ⟨fun _ => ⟨.null, by simp [validate]⟩, fun _ => rfl⟩
  | .map _ => ⟨fun _ => ⟨.null, by simp [validate]⟩, fun _ => rfl⟩
  | .vec _ => ⟨fun _ => ⟨.null, by simp [validate]⟩, fun _ => rfl⟩
  | .stdMap _ => ⟨fun _ => ⟨.null, by simp [validate]⟩, fun _ => rfl⟩
  | .struct _ fs => by
    simp only [dereferences, validate]
    exact dereferencesL_iff fs
/-- The same for field lists. -/
theorem dereferencesL_iff : ∀ fs : Fields, dereferencesL fs = true ↔ ∃ v : Value D, validateProto fs v ≠ .kOk
  | .nil => by simp [dereferencesL, validateProto]
  | .here t rest => by
    simp only [dereferencesL, Bool.or_eq_true, validateProto]
    rw [dereferences_iff t, dereferencesL_iff rest]
    constructor
    · rintro (⟨v, h⟩ | ⟨v, h⟩)
      · exact ⟨v, by rw [if_pos h]; exact h⟩
      · refine ⟨v, ?_⟩
        split
        · next h' => exact h'
        · exact h
    · rintro ⟨v, h⟩
      split at h
      · next h' => exact .inl ⟨v, h'⟩
      · exact .inr ⟨v, h⟩
  | .named opt name t rest => by
    refine ⟨fun _ => ⟨.null, ?_⟩, fun _ => rfl⟩
    simp [validateProto, validateNamed]
end

/-- **C34, the part that holds**: `Write` reports a missing document, types without fields are accepted, and with a
document there is no undefined behaviour; exactly the types that some document does not conform to are affected.
Missing: `DeserializeTo` and `Validate` of those types without a document. -/
theorem C34_empty_partial (N : NumOps D) (dflt : (t : Ty) → t.Den D) :
    (∀ os n old il ic, ∃ f, writeDoc N os n true old none il ic = .ok (.kInvalidStructuredData, some f) ∧ f.content = old) ∧
    (∀ id, deserializeTo dflt none (.struct id .nil) () = .ok (.kOk, ()) ∧
      validateRoot (none : Option (Value D)) (.struct id .nil) = .ok .kOk) ∧
    (∀ v t old, deserializeTo dflt (some v) t old ≠ .ub ∧ validateRoot (some v) t ≠ .ub) ∧
    (∀ t old, deserializeTo dflt none t old = .ub ↔ ∃ v : Value D, validate t v ≠ .kOk) := by
  refine ⟨fun _ _ _ _ _ => ⟨_, rfl, rfl⟩, fun _ => ⟨rfl, rfl⟩, fun v t old => ⟨by simp [deserializeTo], by simp [validateRoot]⟩, ?_⟩
  intro t old
  rw [← dereferences_iff t]
  by_cases h : dereferences t = true <;> simp [deserializeTo, h]

example : validateRoot (some sampleDoc) sampleTy = .ok .kOk := rfl

end Verif.Props
