import Verif.Lemmas.Layers
import Verif.Props.Reload

/-!
# Documents in layers: C173
-/

namespace Verif.Props

open Verif Verif.Text Verif.Number Verif.Map Verif.Spec Verif.Parser Verif.Doc Verif.Write Verif.File Verif.Serial

variable {D : Type}

theorem accepts_below (N : NumOps D) (hN : NegLaw N) {buf : Bytes} {v : Value D} (h : Accepts N buf v) : Below false v :=
  ⟨history_deep hN (.parsed h : History N (N.conv false 0 0) False v), fun _ => parsed_names N hN h⟩

/-- **C173.** A program that deserializes a text of settings and then a second one into the same variable gets, with `kOk`, what it
gets from one text in which the settings of the second replace those of the first (`Layered`: member by member in maps and user
types, as a whole otherwise). For all types and all documents of the right shape. -/
theorem C173_layers (N : NumOps D) (hN : NegLaw N) (dflt : (t : Ty) → t.Den D) (hd : ∀ t : Ty, t.Ordered (dflt t))
    {lower upper both : Bytes} {v w u : Value D} (hv : Accepts N lower v) (hw : Accepts N upper w) (hu : Accepts N both u) (t : Ty)
    (cv : Conforms t v) (cw : Conforms t w) (hl : Layered t v w u) (o : t.Den D) (ho : t.Ordered o) :
    ∃ o₁ o₂, deserialize dflt t v o = (.kOk, o₁) ∧ deserialize dflt t w o₁ = (.kOk, o₂) ∧ deserialize dflt t u o = (.kOk, o₂) := by
  have bv := accepts_below N hN hv
  have bw := accepts_below N hN hw
  have bu := accepts_below N hN hu
  have e := des_layers dflt hd t v w u o bv bw bu cv cw hl ho
  have s1 := (des_status dflt t v o).trans (conforms_ok t v false bv cv)
  have s2 := (des_status dflt t w (deserialize dflt t v o).2).trans (conforms_ok t w false bw cw)
  exact ⟨_, _, Prod.ext s1 rfl, Prod.ext s2 rfl, e.trans (Prod.ext s2 rfl)⟩

/-- What has the right shape passes `Validate`. -/
theorem C173_validates (N : NumOps D) (hN : NegLaw N) {buf : Bytes} {v : Value D} (hv : Accepts N buf v) (t : Ty) (cv : Conforms t v) :
    validate t v = .kOk := conforms_ok t v false (accepts_below N hN hv) cv

/-- In particular every document of the right shape laid over itself changes nothing, and the last of two documents without maps
and optional fields decides alone. -/
theorem C173_last (N : NumOps D) (hN : NegLaw N) (dflt : (t : Ty) → t.Den D) (hd : ∀ t : Ty, t.Ordered (dflt t))
    {lower upper : Bytes} {v w : Value D} (hv : Accepts N lower v) (hw : Accepts N upper w) (t : Ty)
    (cv : Conforms t v) (cw : Conforms t w) (hl : Layered t v w w) (o : t.Den D) (ho : t.Ordered o) :
    (deserialize dflt t w (deserialize dflt t v o).2).2 = (deserialize dflt t w o).2 := by
  obtain ⟨o₁, o₂, h1, h2, h3⟩ := C173_layers N hN dflt hd hv hw hw t cv cw hl o ho
  rw [h1, h2, h3]

/-- A type of settings: `"v"`, optional; `"w"`, optional; `"m"`, a map. -/
def settings : Ty :=
  .struct 0 (.named true [0x76] .bool (.named true [0x77] .stdString (.named true [0x6D] (.stdMap (.arr .bool)) .nil)))

/-- `{"v":true,"w":"a","m":{"x":[true,true],"y":[]}}` -/
def lowerDoc : Value Dec :=
  .obj (.node 0 (.node 0 .nil [0x6D] (.obj (.node 1 .nil [0x78] (.arr [.bool true, .bool true]) (.node 0 .nil [0x79] (.arr []) .nil)) [[0x78], [0x79]]) .nil)
    [0x76] (.bool true) (.node 0 .nil [0x77] (.str [0x61]) .nil)) [[0x76], [0x77], [0x6D]]

/-- `{"w":"b","m":{"x":[false]}}` -/
def upperDoc : Value Dec :=
  .obj (.node (-1) (.node 0 .nil [0x6D] (.obj (.node 0 .nil [0x78] (.arr [.bool false]) .nil) [[0x78]]) .nil) [0x77] (.str [0x62]) .nil)
    [[0x77], [0x6D]]

/-- `{"m":{"x":[false],"y":[]},"v":true,"w":"b"}` -/
def bothDoc : Value Dec :=
  .obj (.node 0 (.node 0 .nil [0x6D] (.obj (.node 1 .nil [0x78] (.arr [.bool false]) (.node 0 .nil [0x79] (.arr []) .nil)) [[0x78], [0x79]]) .nil)
    [0x76] (.bool true) (.node 0 .nil [0x77] (.str [0x62]) .nil)) [[0x6D], [0x76], [0x77]]

example : deserialize (blank ⟨false, 0, 0⟩) settings upperDoc (deserialize (blank ⟨false, 0, 0⟩) settings lowerDoc (blank ⟨false, 0, 0⟩ settings)).2
      = (.kOk, (true, [0x62], [([0x78], [false]), ([0x79], [])], ())) ∧
    deserialize (blank ⟨false, 0, 0⟩) settings bothDoc (blank ⟨false, 0, 0⟩ settings)
      = (.kOk, (true, [0x62], [([0x78], [false]), ([0x79], [])], ())) := ⟨rfl, rfl⟩

/-- The documents of the example have the shape of the type, and the third is the second laid over the first. -/
example : Layered settings lowerDoc upperDoc bothDoc := by
  refine ⟨⟨_, _, rfl⟩, rfl, ⟨_, _, rfl⟩, ⟨_, rfl, rfl⟩, ⟨_, _, rfl⟩, ⟨_, rfl, ⟨_, _, rfl⟩, fun k => ?_⟩, trivial⟩
  simp only [look, findMapElement]
  split <;> rename_i h <;> (try split) <;> simp_all [Over, Layered, findMapElement]

/-- They are what `Parse` makes of the texts. -/
example : Accepts decOps
    [0x7B, 0x22, 0x76, 0x22, 0x3A, 0x74, 0x72, 0x75, 0x65, 0x2C, 0x22, 0x77, 0x22, 0x3A, 0x22, 0x61, 0x22, 0x2C, 0x22, 0x6D, 0x22, 0x3A, 0x7B, 0x22, 0x78, 0x22, 0x3A, 0x5B, 0x74, 0x72, 0x75, 0x65, 0x2C, 0x74, 0x72, 0x75, 0x65, 0x5D, 0x2C, 0x22, 0x79, 0x22, 0x3A, 0x5B, 0x5D, 0x7D, 0x7D, 0x00] lowerDoc ∧
    Accepts decOps [0x7B, 0x22, 0x77, 0x22, 0x3A, 0x22, 0x62, 0x22, 0x2C, 0x22, 0x6D, 0x22, 0x3A, 0x7B, 0x22, 0x78, 0x22, 0x3A, 0x5B, 0x66, 0x61, 0x6C, 0x73, 0x65, 0x5D, 0x7D, 0x7D, 0x00] upperDoc ∧
    Accepts decOps
    [0x7B, 0x22, 0x6D, 0x22, 0x3A, 0x7B, 0x22, 0x78, 0x22, 0x3A, 0x5B, 0x66, 0x61, 0x6C, 0x73, 0x65, 0x5D, 0x2C, 0x22, 0x79, 0x22, 0x3A, 0x5B, 0x5D, 0x7D, 0x2C, 0x22, 0x76, 0x22, 0x3A, 0x74, 0x72, 0x75, 0x65, 0x2C, 0x22, 0x77, 0x22, 0x3A, 0x22, 0x62, 0x22, 0x7D, 0x00] bothDoc :=
  ⟨fun _ => rfl, fun _ => rfl, fun _ => rfl⟩

/-- `{"a":{"q":true}}`, `{"a":{"p":true}}`, and both. -/
def halfQ : Value Dec := .obj (.node 0 .nil [0x61] (.obj (.node 0 .nil [0x71] (.bool true) .nil) [[0x71]]) .nil) [[0x61]]
def halfP : Value Dec := .obj (.node 0 .nil [0x61] (.obj (.node 0 .nil [0x70] (.bool true) .nil) [[0x70]]) .nil) [[0x61]]
def halfPQ : Value Dec :=
  .obj (.node 0 .nil [0x61] (.obj (.node 1 .nil [0x70] (.bool true) (.node 0 .nil [0x71] (.bool true) .nil)) [[0x70], [0x71]]) .nil) [[0x61]]

/-- `Validate` alone does not suffice: it passes an optional user type of which required fields are missing, and `Deserialize` stops
reading it at the first that is missing. Here `"q"` is set in the first document, but stays false. -/
theorem C173_shape_needed : let t : Ty := .struct 1 (.named true [0x61] (.struct 0 (.named false [0x70] .bool (.named false [0x71] .bool .nil))) .nil)
    validate t halfQ = .kOk ∧ validate t halfP = .kOk ∧ validate t halfPQ = .kOk ∧ Layered t halfQ halfP halfPQ ∧
    deserialize (blank ⟨false, 0, 0⟩) t halfP (deserialize (blank ⟨false, 0, 0⟩) t halfQ ((false, false, ()), ())).2 = (.kOk, ((true, false, ()), ())) ∧
    deserialize (blank ⟨false, 0, 0⟩) t halfPQ ((false, false, ()), ()) = (.kOk, ((true, true, ()), ())) :=
  ⟨rfl, rfl, rfl, ⟨⟨_, _, rfl⟩, ⟨_, rfl, ⟨_, _, rfl⟩, rfl, ⟨_, _, rfl⟩, rfl, trivial⟩, trivial⟩, rfl, rfl⟩

end Verif.Props
