import Verif.Lemmas.Again
import Verif.Props.Filed

/-!
# Saving what was loaded (C184)
-/

namespace Verif.Props

open Verif Verif.Map Verif.Text Verif.Number Verif.Parser Verif.File Verif.Doc Verif.Write Verif.Serial Verif.Spec Verif.B64

variable {D : Type}

/-- `out` is the file in which the data `d` is saved with success. -/
def FileOf (N : NumOps D) (init : D) (il : Nat) (ic : Byte) (t : Ty) (d : t.Den D) (out : Bytes) : Prop :=
  ∃ w, serializeFrom init t d = .ok (.kOk, w) ∧ Emits N il ic w out

theorem fileOf_det {N : NumOps D} {init : D} {il : Nat} {ic : Byte} {t : Ty} {d : t.Den D} {a b : Bytes} (h1 : FileOf N init il ic t d a)
    (h2 : FileOf N init il ic t d b) : a = b := by
  obtain ⟨w, e1, f1⟩ := h1
  obtain ⟨w', e2, f2⟩ := h2
  rw [e1] at e2
  injection e2 with e2
  injection e2 with _ e2
  subst e2
  exact emits_det f1 f2

/-- **C184.** What comes back of data from its file (C178) has the same file, byte for byte, whatever the texts and numbers are, with the
C library or without it. -/
theorem C184_again (N : NumOps D) (init : D) (id : Nat) (fs : Fields) (hl : (Ty.struct id fs).Listed) (d k : fs.Den D) (ho : fs.Ordered d)
    (hk : fs.fileBack d = some k) (il : Nat) (ic : Byte) (out : Bytes) :
    FileOf N init il ic (.struct id fs) d out ↔ FileOf N init il ic (.struct id fs) k out := by
  obtain ⟨w, w', e1, e2, h⟩ := ser_again N il ic init (blank init) (blank_fresh init) (.struct id fs) hl d k ho hk
  have e1 : serializeFrom init (.struct id fs) d = .ok (.kOk, w) := e1
  have e2 : serializeFrom init (.struct id fs) k = .ok (.kOk, w') := e2
  constructor
  · rintro ⟨x, ex, n, r, h1, h2, h3⟩
    rw [e1] at ex
    injection ex with ex
    injection ex with _ ex
    subst ex
    exact ⟨w', e2, n, r, (h n []).symm.trans h1, h2, h3⟩
  · rintro ⟨x, ex, n, r, h1, h2, h3⟩
    rw [e2] at ex
    injection ex with ex
    injection ex with _ ex
    subst ex
    exact ⟨w, e1, n, r, (h n []).trans h1, h2, h3⟩

/-- Saving, loading and saving again gives the same file, though the data may have changed. -/
theorem C184_cycle (dflt : (t : Ty) → t.Den Dbl) (hd : ∀ t : Ty, t.Fresh (dflt t)) (id : Nat) (fs : Fields)
    (hl : (Ty.struct id fs).Listed) (hn : fs.NamesOk) (d k : fs.Den Dbl) (ho : fs.Ordered d) (hs : fs.Writable d)
    (hk : fs.fileBack d = some k) (il : Nat) (ic : Byte) (hic : il = 0 ∨ Ws [ic]) (old : fs.Den Dbl) (hf : fs.Fresh old) :
    ∃ out v, FileOf ops (B64.conv false 0 0) il ic (.struct id fs) d out ∧ Accepts ops (out ++ [0]) v ∧
      FileOf ops (B64.conv false 0 0) il ic (.struct id fs) (deserialize dflt (.struct id fs) v old).2 out := by
  obtain ⟨w, out, v, h1, h2, h3, h4⟩ := C178_file dflt hd id fs hl hn d ho hs il ic hic
  refine ⟨out, v, ⟨w, h1, h2⟩, h3, ?_⟩
  rw [(h4 old hf).1 k hk]
  exact (C184_again ops _ id fs hl d k ho hk il ic out).1 ⟨w, h1, h2⟩

/-- Two data have the same file exactly if the same comes back of them. -/
theorem C184_exact (id : Nat) (fs : Fields) (hl : (Ty.struct id fs).Listed) (hn : fs.NamesOk) (d e k : fs.Den Dbl) (ho : fs.Ordered d)
    (hs : fs.Writable d) (ho' : fs.Ordered e) (hs' : fs.Writable e) (hk : fs.fileBack d = some k) (il : Nat) (ic : Byte)
    (hic : il = 0 ∨ Ws [ic]) :
    ∃ a b, FileOf ops (B64.conv false 0 0) il ic (.struct id fs) d a ∧ FileOf ops (B64.conv false 0 0) il ic (.struct id fs) e b ∧
      (a = b ↔ fs.fileBack e = some k) := by
  let z : Dbl := B64.conv false 0 0
  obtain ⟨w, a, v, h1, h2, h3, h4⟩ := C178_file (blank z) (blank_fresh z) id fs hl hn d ho hs il ic hic
  obtain ⟨w', b, v', h1', h2', h3', h4'⟩ := C178_file (blank z) (blank_fresh z) id fs hl hn e ho' hs' il ic hic
  refine ⟨a, b, ⟨w, h1, h2⟩, ⟨w', h1', h2'⟩, ?_, ?_⟩
  · rintro rfl
    have := (h3 none).symm.trans (h3' none)
    injection this with this
    injection this with _ this
    injection this with this
    subst this
    have hf : fs.Fresh (blank z (.struct id fs)) := blank_fresh z (.struct id fs)
    have h5 := (h4 _ hf).1 k hk
    cases he : fs.fileBack e with
    | none =>
      have := (h4' _ hf).2 he
      rw [h5] at this
      exact nomatch this
    | some k' =>
      have := (h4' _ hf).1 k' he
      rw [h5] at this
      injection this with _ this
      rw [this]
  · intro he
    have f1 := (C184_again ops _ id fs hl d k ho hk il ic a).1 ⟨w, h1, h2⟩
    have f2 := (C184_again ops _ id fs hl e k ho' he il ic b).1 ⟨w', h1', h2'⟩
    exact fileOf_det f1 f2

/-- The data of `filedTy` (C178) with entries in maps, a vector in an array and a NUL in a text has the same file as what comes back of it. -/
example (N : NumOps Dec) (out : Bytes) : FileOf N ⟨false, 0, 0⟩ 1 0x09 filedTy
      ([([0x6b], ([true], ()))], [[], [([0x6b], [true])], []], [0x31, 0, 0x32], ()) out ↔
    FileOf N ⟨false, 0, 0⟩ 1 0x09 filedTy ([], [[]], [0x31], ()) out :=
  C184_again N _ 3 _ (by simp [Ty.Listed, Fields.Listed, Fields.names]) _ _
    (by simp [Fields.Ordered, Ty.Ordered, Sorted]) rfl 1 0x09 out

/-- There is one, with an indentation of no characters: `{"a" : {}, "b" : [{}], "c" : "1"}` with line breaks. -/
example : FileOf natOps ⟨false, 0, 0⟩ 0 0x20 filedTy ([([0x6b], ([true], ()))], [[], [([0x6b], [true])], []], [0x31, 0, 0x32], ())
    [0x7B, 0x0A, 0x22, 0x61, 0x22, 0x20, 0x3A, 0x20, 0x7B, 0x0A, 0x7D, 0x2C, 0x0A, 0x22, 0x62, 0x22, 0x20, 0x3A, 0x20, 0x5B, 0x0A, 0x7B,
      0x0A, 0x7D, 0x0A, 0x5D, 0x2C, 0x0A, 0x22, 0x63, 0x22, 0x20, 0x3A, 0x20, 0x22, 0x31, 0x22, 0x0A, 0x7D] :=
  ⟨_, rfl, 9, _, rfl, rfl, rfl⟩

end Verif.Props
