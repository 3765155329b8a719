import Verif.Lemmas.Filed
import Verif.Props.Kept
import Verif.Props.Vectors

/-!
# What a file gives back (C178)
-/

namespace Verif.Props

open Verif Verif.Map Verif.Text Verif.Number Verif.Parser Verif.File Verif.Doc Verif.Write Verif.Serial Verif.Spec Verif.B64

variable {D : Type}

/-- **C178.** Data of a user type, with vectors, maps and NULs in any place, is saved with success in a file, and the file is accepted by
`Parse`. Loading gives exactly the data `fileBack`, or is refused if there is none. -/
theorem C178_file (dflt : (t : Ty) → t.Den Dbl) (hd : ∀ t : Ty, t.Fresh (dflt t)) (id : Nat) (fs : Fields)
    (hl : (Ty.struct id fs).Listed) (hn : fs.NamesOk) (d : fs.Den Dbl) (ho : fs.Ordered d) (hs : fs.Writable d) (il : Nat) (ic : Byte)
    (hic : il = 0 ∨ Ws [ic]) :
    ∃ w out v, serializeFrom (B64.conv false 0 0) (.struct id fs) d = .ok (.kOk, w) ∧ Emits ops il ic w out ∧ Accepts ops (out ++ [0]) v ∧
      ∀ old, fs.Fresh old →
        (∀ k, fs.fileBack d = some k → deserialize dflt (.struct id fs) v old = (.kOk, k)) ∧
        (fs.fileBack d = none → (deserialize dflt (.struct id fs) v old).1 = .kInvalidValueType) := by
  obtain ⟨w, b, o, h1, h3, hr, hdp, -, h4⟩ := serProto_file dflt il ic (B64.conv false 0 0) hd fs hl.1 hl.2 hn d ho hs .nil .nil []
    treeOk_nil (fun k => .inl ⟨rfl, rfl⟩) ⟨by simp [findMapElement], by simp, by simp [findMapElement]⟩ deep_empty (by intro n _; rfl)
  obtain ⟨out, j, hem, e3, e4⟩ := written_dial il ic hr.doc hic
  have hlen : 2 ≤ out.length := by
    apply Nat.le_of_not_lt
    intro hl
    obtain ⟨x, rfl⟩ := val_short e3 hl
    exact (Serial.sameDoc_alike e4).elim
  obtain ⟨n, r, g1, g2, g3⟩ := hem
  refine ⟨.obj w o, out, _, h1, ⟨n, r, (obj_alike h3 o n []).trans g1, g2, g3⟩,
    accepts_of_dial ops b64_neg ⟨[], out, [], Ws.nil, e3, Ws.nil, by simp⟩ hlen, fun old hf => ?_⟩
  rw [← des_same_deep dflt (.struct id fs) _ _ old hdp (interp_deep ops j) (similar_of_sameDoc e4)]
  have h5 := h4 b o (fun _ _ => rfl) old hf
  refine ⟨fun k hk => ?_, fun hk => ?_⟩
  · rw [hk] at h5; exact h5
  · rw [hk] at h5; exact h5

/-- The data comes back unchanged from the file exactly if it has no vector, no NUL in a `std::string`, and no map with entries. -/
theorem C178_survives (t : Ty) (d : t.Den D) (ho : t.Ordered d) :
    t.fileBack d = some d ↔ ¬ t.HasVector d ∧ ¬ t.HasNul d ∧ ¬ t.HasEntry d := by
  constructor
  · intro h
    have := fileBack_noEntry t d d h
    exact ⟨this.2.1, this.2.2, this.1⟩
  · rintro ⟨h1, h2, h3⟩
    have := fileBack_of_back t d d ((back_self t d ho).2 ⟨h1, h2⟩)
    rw [(emptied_self t d).2 h3] at this
    exact this

/-- What comes back without a file (C176) also comes back from the file, but for the entries of maps. -/
theorem C178_memory (t : Ty) (d k : t.Den D) (h : t.back d = some k) : t.fileBack d = some (t.emptied k) := fileBack_of_back t d k h

/-- What came back from a file once comes back unchanged ever after. -/
theorem C178_stable (t : Ty) (d k : t.Den D) (h : t.fileBack d = some k) : t.fileBack k = some k := by
  have := fileBack_noEntry t d k h
  exact (C178_survives t k (noEntry_ordered t k this.1)).2 ⟨this.2.1, this.2.2, this.1⟩

/-- **C178 extends C174**: without vectors and NULs the data come back with all maps emptied. -/
theorem C178_plain (t : Ty) (hp : t.Plain) (d : t.Den D) (hw : t.Wf d) : t.fileBack d = some (t.emptied d) :=
  fileBack_of_back t d d ((back_self t d (wf_ordered t d hw).1).2 ⟨(plain_listed t hp).2 d, (wf_ordered t d hw).2⟩)

/-- A user type with the fields `"a"`, a map of vectors, `"b"`, an array of maps of vectors, and `"c"`, a `std::string`. -/
def filedTy : Ty := .struct 3 (.named false [0x61] (.map (.struct 4 (.named false [0x78] (.vec .bool) .nil)))
  (.named false [0x62] (.arr (.map (.vec .bool))) (.named false [0x63] .stdString .nil)))

/-- Without a file loading this data is refused, because there is a vector in the map; from the file it is accepted, because the map is
empty. The array loses its second and third element, the text everything from the NUL on. -/
example :
    let d : filedTy.Den Dec := ([([0x6b], ([true], ()))], [[], [([0x6b], [true])], []], [0x31, 0, 0x32], ())
    filedTy.Listed ∧ filedTy.back d = none ∧ filedTy.fileBack d = some ([], [[]], [0x31], ()) := by
  refine ⟨by simp [filedTy, Ty.Listed, Fields.Listed, Fields.names], rfl, rfl⟩

/-- The fields `"b"`, a flag, and `"m"`, an array of vectors. -/
def flagRows : Fields := .named false [0x62] .bool (.named false [0x6D] (.arr (.vec .bool)) .nil)

/-- `{true, {{true}, {false}}}` is saved and loaded with success, and the array is empty afterwards. -/
example (z : Dbl) : ∃ w out v, serializeFrom (B64.conv false 0 0) (.struct 0 flagRows) (true, [[true], [false]], ()) = .ok (.kOk, w) ∧
    Emits ops 1 0x09 w out ∧ Accepts ops (out ++ [0]) v ∧
    deserialize (blank z) (.struct 0 flagRows) v (false, [], ()) = (.kOk, (true, [], ())) := by
  have rt : ∀ b : Nat, 0x61 ≤ b → b < 0x7F → ReadableText (utf8s [b]) := fun b h1 h2 =>
    ⟨[b], by intro cp hcp; simp only [List.mem_singleton] at hcp; subst hcp; omega, rfl⟩
  have hl : (Ty.struct 0 flagRows).Listed := by simp [flagRows, Ty.Listed, Fields.Listed, Fields.names]
  have hn : flagRows.NamesOk := ⟨rt 0x62 (by decide) (by decide), trivial, rt 0x6D (by decide) (by decide), trivial, trivial⟩
  have hw : (1 : Nat) = 0 ∨ Ws [0x09] := .inr (by intro c hc; simp only [List.mem_singleton] at hc; simp [hc])
  obtain ⟨w, out, v, h1, h2, h3, h4⟩ := C178_file (blank z) (blank_fresh z) 0 flagRows hl hn (true, [[true], [false]], ())
    (by simp [flagRows, Fields.Ordered, Ty.Ordered]) (by simp [flagRows, Fields.Writable, Ty.Writable]) 1 0x09 hw
  exact ⟨w, out, v, h1, h2, h3, (h4 (false, [], ()) (by simp [flagRows, Fields.Fresh, Ty.Fresh])).1 _ rfl⟩

/-- A vector in a field is refused from a file, too. -/
example : (vectorField .bool).fileBack (D := Dec) ([true], ()) = none := rfl

end Verif.Props
