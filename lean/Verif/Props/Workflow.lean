import Verif.Lemmas.Workflow
import Verif.Lemmas.Evolve
import Verif.Props.Suite

/-!
# Load, change, save (C172): the programs of Code/Examples
-/

namespace Verif.Props

open Verif Verif.Map Verif.Text Verif.Parser Verif.Doc Verif.Write Verif.Serial Verif.Spec Verif.B64

/-- C172: a program that loads data of a user type from a text without backslashes, changes them and saves them, finds the changed data when
it loads them again. -/
def C172_statement : Prop :=
  ∀ (dflt : (t : Ty) → t.Den Dbl), (∀ t : Ty, t.Fresh (dflt t)) → (∀ t : Ty, t.Storable (dflt t)) →
  ∀ (id : Nat) (fs : Fields), (Ty.struct id fs).Tidy → fs.NamesOk →
  ∀ (text : Bytes) (v : Value Dbl), Accepts ops text v → (0x5C : Byte) ∉ text → FiniteNums v →
  ∀ d : fs.Den Dbl, deserialize dflt (.struct id fs) v (dflt (.struct id fs)) = (.kOk, d) →
  ∀ edit : fs.Den Dbl → fs.Den Dbl, (∀ x, fs.Storable x → fs.Storable (edit x)) →
  ∀ (il : Nat) (ic : Byte), (il = 0 ∨ Ws [ic]) → SavedAndLoaded dflt (.struct id fs) (edit d) il ic

/-- Storable data of a user type without maps and vectors are found again. -/
theorem C172_save_partial (dflt : (t : Ty) → t.Den Dbl) (hd : ∀ t : Ty, t.Fresh (dflt t)) (id : Nat) (fs : Fields)
    (hp : (Ty.struct id fs).Plain) (hm : fs.NoMaps) (hn : fs.NamesOk) (d : fs.Den Dbl) (hs : fs.Storable d) (il : Nat) (ic : Byte)
    (hic : il = 0 ∨ Ws [ic]) : SavedAndLoaded dflt (.struct id fs) d il ic := by
  have hsav := storable_savableF fs hp.1 hm hn d hs
  obtain ⟨m', o', h1, -, -, hr⟩ := serProto_readable ops (B64.conv false 0 0) fs hp.1 hp.2 d hsav .nil [] treeOk_nil
    (by intro n _; rfl) ⟨by simp [findMapElement], by simp, by simp [findMapElement]⟩
  have hser : serializeFrom (B64.conv false 0 0) (.struct id fs) d = .ok (.kOk, .obj m' o') := h1
  obtain ⟨w, e1, e2⟩ := C27_round_trip_partial (B64.conv false 0 0) dflt hd (.struct id fs) hp d
    (savable_wf ops (.struct id fs) d hsav)
  have : w = .obj m' o' := by
    rw [hser] at e1
    simp only [Out.ok.injEq, Prod.mk.injEq, true_and] at e1
    exact e1.symm
  subst this
  obtain ⟨out, j, hem, e3, e4⟩ := written_dial il ic hr.doc hic
  have hlen : 2 ≤ out.length := by
    apply Nat.le_of_not_lt
    intro hl
    obtain ⟨x, rfl⟩ := val_short e3 hl
    exact (Serial.sameDoc_alike e4).elim
  have hdes : ∀ old : fs.Den Dbl, fs.Fresh old → deserialize dflt (.struct id fs) (interp ops j) old = (.kOk, d) := by
    intro old ho
    rw [← des_same dflt (.struct id fs) hm _ _ old e4]
    exact e2 old ho
  refine ⟨_, out, _, hser, hem, accepts_of_dial ops b64_neg ⟨[], out, [], Ws.nil, e3, Ws.nil, by simp⟩ hlen, ?_, hdes⟩
  have := des_status dflt (.struct id fs) (interp ops j) (dflt (.struct id fs))
  rw [hdes _ (hd (.struct id fs))] at this
  exact this.symm

/-- **C172, the part that holds**: for user types without maps and vectors. -/
theorem C172_edit_partial (dflt : (t : Ty) → t.Den Dbl) (hd : ∀ t : Ty, t.Fresh (dflt t)) (hs : ∀ t : Ty, t.Storable (dflt t)) (id : Nat)
    (fs : Fields) (hp : (Ty.struct id fs).Plain) (hm : fs.NoMaps) (hn : fs.NamesOk) (text : Bytes) (v : Value Dbl) (h : Accepts ops text v)
    (hb : (0x5C : Byte) ∉ text) (hf : FiniteNums v) (old : fs.Den Dbl) (ho : fs.Storable old) (edit : fs.Den Dbl → fs.Den Dbl)
    (he : ∀ x, fs.Storable x → fs.Storable (edit x)) (il : Nat) (ic : Byte) (hic : il = 0 ∨ Ws [ic]) :
    SavedAndLoaded dflt (.struct id fs) (edit (deserialize dflt (.struct id fs) v old).2) il ic :=
  C172_save_partial dflt hd id fs hp hm hn _ (he _ (proto_storable dflt hs fs hm v old (accepts_decent h hb hf) ho)) il ic hic

/-- Saving what was loaded from a saved file gives the same file. -/
theorem C172_saved_again (dflt : (t : Ty) → t.Den Dbl) (hd : ∀ t : Ty, t.Fresh (dflt t)) (id : Nat) (fs : Fields)
    (hp : (Ty.struct id fs).Plain) (hm : fs.NoMaps) (hn : fs.NamesOk) (d : fs.Den Dbl) (hs : fs.Storable d) (il : Nat) (ic : Byte)
    (hic : il = 0 ∨ Ws [ic]) :
    ∃ w out v, serializeFrom (B64.conv false 0 0) (.struct id fs) d = .ok (.kOk, w) ∧ Emits ops il ic w out ∧ Accepts ops (out ++ [0]) v ∧
      ∀ old : fs.Den Dbl, fs.Fresh old → ∃ w', serializeFrom (B64.conv false 0 0) (.struct id fs) (deserialize dflt (.struct id fs) v old).2 = .ok (.kOk, w') ∧
        ∀ out', Emits ops il ic w' out' ↔ out' = out := by
  obtain ⟨w, out, v, h1, h2, h3, -, h5⟩ := C172_save_partial dflt hd id fs hp hm hn d hs il ic hic
  refine ⟨w, out, v, h1, h2, h3, fun old ho => ⟨w, by rw [h5 old ho]; exact h1, fun out' => ⟨fun h => emits_det h h2, ?_⟩⟩⟩
  rintro rfl
  exact h2

mutual
theorem blank_storable (z : Dbl) (hz : Finite z) : ∀ t : Ty, t.Storable (blank z t)
  | .str => ⟨[], by simp, rfl⟩
  | .num => hz
  | .bool => trivial
  | .null => trivial
  | .stdString => ⟨[], by simp, rfl⟩
  | .arr _ => by intro x hx; cases hx
  | .map _ => ⟨List.Pairwise.nil, by intro x hx; cases hx⟩
  | .vec _ => by intro x hx; cases hx
  | .stdMap _ => ⟨List.Pairwise.nil, by intro x hx; cases hx⟩
  | .struct _ fs => blankF_storable z hz fs
theorem blankF_storable (z : Dbl) (hz : Finite z) : ∀ fs : Fields, fs.Storable (blankF z fs)
  | .nil => trivial
  | .here t rest => ⟨blank_storable z hz t, blankF_storable z hz rest⟩
  | .named _ _ t rest => ⟨blank_storable z hz t, blankF_storable z hz rest⟩
end

theorem zero64_finite : Finite (ofBits 0) := ofBits_finite (by decide)

/-- **C172 is violated**: a user type with a `std::vector`, loaded from `{"l":[]}` and saved unchanged. The file cannot be loaded. -/
theorem C172_violated : ¬ C172_statement := by
  intro H
  have hx : ReadableText [0x6C] := ⟨[0x6C], by intro cp hcp; simp only [List.mem_singleton] at hcp; subst hcp; omega, rfl⟩
  have hfin : FiniteNums (.obj (.node 0 .nil [0x6C] (.arr []) .nil) [[0x6C]]) := by
    intro path x hx
    cases path with
    | nil => simp [walk] at hx
    | cons s p =>
      cases s with
      | index i => simp [walk, step] at hx
      | member k =>
        simp only [walk, step, Option.bind_eq_some_iff, Option.map_eq_some_iff] at hx
        obtain ⟨y, ⟨z, hz, rfl⟩, hw⟩ := hx
        have : z.2 = .arr [] := by
          simp only [findMapElement] at hz
          split at hz
          · cases hz
          · split at hz
            · cases hz
            · cases hz; rfl
        rw [this] at hw
        cases p with
        | nil => simp [walk] at hw
        | cons s p => cases s <;> simp [walk, step] at hw
  obtain ⟨z, hz⟩ : ∃ z, Finite z := ⟨_, zero64_finite⟩
  obtain ⟨w, out, v, h1, h2, h3, h4, -⟩ := H (blank z) (blank_fresh z) (blank_storable z hz) 0
    (.named false [0x6C] (.vec .num) .nil) (by simp [Ty.Tidy, Fields.Tidy, Fields.names]) ⟨hx, trivial, trivial⟩
    [0x7B, 0x22, 0x6C, 0x22, 0x3A, 0x5B, 0x5D, 0x7D, 0] _ (fun _ => rfl) (by decide) hfin ([], ()) rfl (fun x => x) (fun _ h => h) 0 0x20
    (.inl rfl)
  have e1 : serializeFrom (B64.conv false 0 0) (.struct 0 (.named false [0x6C] (.vec .num) .nil)) (([], ()) : List Dbl × Unit) =
      .ok (.kOk, .obj (.node 0 .nil [0x6C] (.obj .nil []) .nil) [[0x6C]]) := rfl
  have ew : w = .obj (.node 0 .nil [0x6C] (.obj .nil []) .nil) [[0x6C]] := by
    have := e1.symm.trans h1
    simp only [Out.ok.injEq, Prod.mk.injEq, true_and] at this
    exact this.symm
  subst ew
  have e2 : Emits ops 0 0x20 (.obj (.node 0 .nil [0x6C] (.obj .nil []) .nil) [[0x6C]])
      [0x7B, 0x0A, 0x22, 0x6C, 0x22, 0x20, 0x3A, 0x20, 0x7B, 0x0A, 0x7D, 0x0A, 0x7D] := ⟨4, _, rfl, rfl, rfl⟩
  have := emits_det h2 e2
  subst this
  have e3 : parseBuffer ops none ([0x7B, 0x0A, 0x22, 0x6C, 0x22, 0x20, 0x3A, 0x20, 0x7B, 0x0A, 0x7D, 0x0A, 0x7D] ++ [0]) =
      .ok (⟨.kOk, 0, 0⟩, some (.obj (.node 0 .nil [0x6C] (.obj .nil []) .nil) [[0x6C]])) := rfl
  have ev := (h3 none).symm.trans e3
  simp only [Out.ok.injEq, Prod.mk.injEq, Option.some.injEq, true_and] at ev
  subst ev
  have e4 : validate (.struct 0 (.named false [0x6C] (.vec .num) .nil)) (.obj (.node 0 .nil [0x6C] (.obj .nil []) .nil) [[0x6C]] : Value Dbl) =
      .kInvalidValueType := rfl
  rw [e4] at h4
  cases h4

/-! ## Example 6 -/

/-- `TextBox` of Code/Examples/Example06_std_data_structures/main.cpp:39-51. -/
def textBox6 : Fields :=
  .named false [116, 101, 120, 116] .stdString (.named false [119, 105, 100, 116, 104] .num (.named false [104, 101, 105, 103, 104, 116] .num
    (.named false [108, 105, 110, 101, 115, 112, 101, 99] (.vec .num) .nil)))

/-- The data that are loaded, with `linespec[0]` as given: `Color`, 5, 10, and 0.5, 0.2, 0.4, 0.1. -/
def box6 (x : Dbl) : textBox6.Den Dbl :=
  ([67, 111, 108, 111, 114], B64.conv false 5 0, B64.conv false 10 0,
    [x, B64.conv false 2 (-1), B64.conv false 4 (-1), B64.conv false 1 (-1)], ())

/-- Main of Example 6, lines 58 to 105: load, set `linespec[0]`, save. -/
def example6 (data : Bytes) : Option (Status × Bytes) :=
  match Suite.document data with
  | none => none
  | some v =>
    let r := Suite.load (.struct 6 textBox6) v
    if r.1 ≠ .kOk then none
    else
      let d : textBox6.Den Dbl := (r.2.1, r.2.2.1, r.2.2.2.1, r.2.2.2.2.1.set 0 (B64.conv false 2 (-2)), ())
      match serializeFrom (B64.conv false 0 0) (.struct 6 textBox6) d with
      | .ok (st, w) =>
        match Write.writeValue B64.ops 1 9 100 [] w with
        | .ok o => some (st, o.chunks.flatten)
        | _ => none
      | _ => none

/-- It says `kOk` and writes `"linespec" : {` `}`; the file cannot be loaded any more. -/
example : ∃ out, example6 Suite.simpleArray = some (.kOk, out) ∧
    out = "{\n\t\"text\" : \"Color\",\n\t\"width\" : 5,\n\t\"height\" : 10,\n\t\"linespec\" : {\n\t}\n}".toUTF8.data.toList ∧
    (Suite.document (out ++ [0])).map (validate (.struct 6 textBox6)) = some .kInvalidValueType :=
  ⟨[123, 10, 9, 34, 116, 101, 120, 116, 34, 32, 58, 32, 34, 67, 111, 108, 111, 114, 34, 44, 10, 9, 34, 119, 105, 100, 116, 104, 34, 32, 58, 32,
    53, 44, 10, 9, 34, 104, 101, 105, 103, 104, 116, 34, 32, 58, 32, 49, 48, 44, 10, 9, 34, 108, 105, 110, 101, 115, 112, 101, 99, 34, 32, 58,
    32, 123, 10, 9, 125, 10, 125], by decide +kernel, by decide +kernel, by decide +kernel⟩

/-! ## Examples 2 and 3 -/

/-- `Mechanical` and `Car` of Code/Examples/Example02_non_trivial_data_structure/main.cpp:39-72. -/
def mechanical2 : Fields :=
  .named false [104, 111, 114, 115, 101, 112, 111, 119, 101, 114] .num
    (.named false [103, 101, 97, 114, 82, 97, 116, 105, 111, 115] (.arr .num)
      (.named false [97, 117, 116, 111, 109, 97, 116, 105, 99] .bool .nil))
def car2 : Fields :=
  .named false [109, 97, 107, 101] .str (.named false [109, 111, 100, 101, 108] .str
    (.named false [114, 103, 98, 67, 111, 108, 111, 114] (.arr .num) (.named false [108, 101, 110, 103, 116, 104] .num
      (.named false [119, 105, 100, 116, 104] .num (.named false [109, 101, 99, 104, 97, 110, 105, 99, 97, 108] (.struct 20 mechanical2)
        (.named false [112, 114, 105, 99, 101, 36] .num .nil))))))

/-- The theorems above apply to it. -/
example : (Ty.struct 2 car2).Plain ∧ car2.NoMaps ∧ (0x5C : Byte) ∉ Suite.car := by
  refine ⟨?_, ?_, by decide⟩
  · simp [car2, mechanical2, Ty.Plain, Fields.Plain, Fields.names]
  · simp [car2, mechanical2, Ty.NoMaps, Fields.NoMaps]

instance : DecidableEq (mechanical2.Den Dbl) := inferInstanceAs (DecidableEq (Dbl × List Dbl × Bool × Unit))
instance : DecidableEq (List Dbl × Dbl × Dbl × mechanical2.Den Dbl × Dbl × Unit) := inferInstance
instance : DecidableEq (car2.Den Dbl) :=
  inferInstanceAs (DecidableEq (Bytes × Bytes × List Dbl × Dbl × Dbl × mechanical2.Den Dbl × Dbl × Unit))
instance : DecidableEq ((Ty.struct 2 car2).Den Dbl) := inferInstanceAs (DecidableEq (car2.Den Dbl))

/-- The car with the given price: `Colorado`, `M3000`, [0.3, 0.1, 0.6], 4702, 2032, 2450, [3.2, 2.5, 1.7, 1.2, 0.6], automatic. -/
def theCar (price : Dbl) : (Ty.struct 2 car2).Den Dbl :=
  ([67, 111, 108, 111, 114, 97, 100, 111], [77, 51, 48, 48, 48], [B64.conv false 3 (-1), B64.conv false 1 (-1), B64.conv false 6 (-1)],
    B64.conv false 4702 0, B64.conv false 2032 0,
    (B64.conv false 2450 0, [B64.conv false 32 (-1), B64.conv false 25 (-1), B64.conv false 17 (-1), B64.conv false 12 (-1), B64.conv false 6 (-1)],
      true, ()), price, ())

/-- The text saved for a car. -/
def savedCar (d : (Ty.struct 2 car2).Den Dbl) : Option Bytes :=
  match serializeFrom (B64.conv false 0 0) (.struct 2 car2) d with
  | .ok (.kOk, v) =>
    match Write.writeValue B64.ops 1 9 100 [] v with
    | .ok w => if w.status = .kOk then some w.chunks.flatten else none
    | _ => none
  | _ => none

/-- The file is valid, the price is `DBL_MIN` ("Accurate double parsing."), and the car saved with the price 1 is loaded with the price 1. -/
example : (Suite.document Suite.car).map (validate (.struct 2 car2)) = some .kOk ∧
    Suite.Loads (.struct 2 car2) (Suite.document Suite.car) (theCar (ofBits 0x0010000000000000)) ∧
    Suite.Loads (.struct 2 car2) ((savedCar (theCar (B64.conv false 1 0))).bind fun t => Suite.document (t ++ [0]))
      (theCar (B64.conv false 1 0)) :=
  ⟨by decide +kernel, Suite.loads_spec (by decide +kernel), Suite.loads_spec (by decide +kernel)⟩

end Verif.Props
