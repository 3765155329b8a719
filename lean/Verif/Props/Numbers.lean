import Verif.Lemmas.Numbers
import Verif.Props.Filed
import Verif.Props.TooLarge

/-!
# Data with numbers that cannot be read back (C181)
-/

namespace Verif.Props

open Verif Verif.Map Verif.Text Verif.Number Verif.Parser Verif.File Verif.Doc Verif.Write Verif.Serial Verif.Spec Verif.B64

theorem fit_doubles {v : Value Dbl} (h : FitDoc (fun x => Spec.Finite x ∨ NotFinite x) v) : Doubles v ∧ ReadableTexts v := by
  refine ⟨fun path x hx => h path _ hx, fun path x hx => ⟨?_, ?_⟩⟩
  · rintro s rfl; exact h path _ hx
  · rintro t o rfl; exact h path _ hx

theorem emits_alike {N : NumOps D} {il : Nat} {ic : Byte} {v v' : Value D} {out : Bytes} (h : WrittenAlike N il ic v v')
    (he : Emits N il ic v' out) : Emits N il ic v out := by
  obtain ⟨n, r, h1, h2⟩ := he
  exact ⟨n, r, (h n []).trans h1, h2⟩

/-- **C181.** Data of a user type with an infinity or NaN, at any depth of arrays and user types, is serialized and written with success, and
`Parse` refuses the file: all the data are lost. -/
theorem C181_lost (dflt : (t : Ty) → t.Den Dbl) (hd : ∀ t : Ty, t.Fresh (dflt t)) (id : Nat) (fs : Fields)
    (hl : (Ty.struct id fs).Listed) (hn : fs.NamesOk) (d : fs.Den Dbl) (ho : fs.Ordered d)
    (hs : fs.Fits (fun x => Spec.Finite x ∨ NotFinite x) d) (hb : fs.HasNum NotFinite d) (il : Nat) (ic : Byte) (hic : il = 0 ∨ Ws [ic]) :
    ∃ w out, serializeFrom (B64.conv false 0 0) (.struct id fs) d = .ok (.kOk, w) ∧ Emits ops il ic w out ∧
      ∀ v, ¬ Accepts ops (out ++ [0]) v := by
  obtain ⟨w, w', h1, h2, h3, -, h4, -⟩ := ser_numbers ops (fun x => Spec.Finite x ∨ NotFinite x) NotFinite dflt il ic (B64.conv false 0 0) hd
    (.struct id fs) hl hn d ho hs
  obtain ⟨g1, g2⟩ := fit_doubles h3
  obtain ⟨out, e1, e2⟩ := C179_lost w' il ic g1 (h4 hb) g2 hic
  exact ⟨w, out, h1, emits_alike h2 e1, e2⟩

/-- The same without the C library, for all numbers that are too large for `float`. -/
theorem C181_builtin (wrapv : Bool) (dflt : (t : Ty) → t.Den Dbl) (hd : ∀ t : Ty, t.Fresh (dflt t)) (id : Nat) (fs : Fields)
    (hl : (Ty.struct id fs).Listed) (hn : fs.NamesOk) (d : fs.Den Dbl) (ho : fs.Ordered d)
    (hs : fs.Fits (fun x => TooLarge x ∨ ∃ v, value x = some v ∧ Writable wrapv v) d) (hb : fs.HasNum TooLarge d) (il : Nat) (ic : Byte)
    (hic : il = 0 ∨ Ws [ic]) :
    ∃ w out, serializeFrom (B64.conv false 0 0) (.struct id fs) d = .ok (.kOk, w) ∧ Emits (builtinOps wrapv) il ic w out ∧
      ∀ v, ¬ Loads out v := by
  obtain ⟨w, w', h1, h2, h3, -, h4, -⟩ := ser_numbers (builtinOps wrapv) _ TooLarge dflt il ic (B64.conv false 0 0) hd
    (.struct id fs) hl hn d ho hs
  obtain ⟨out, ⟨-, e1⟩, e2⟩ := C180_lost wrapv w' il ic hic (fun path x hx => ⟨by rintro s rfl; exact h3 path _ hx,
    by rintro t o rfl; exact h3 path _ hx⟩) (fun path x hx => h3 path _ hx) (h4 hb)
  exact ⟨w, out, h1, emits_alike h2 e1, e2⟩

/-- The file is accepted exactly if there is no infinity or NaN in what gets into it. -/
theorem C181_exact (dflt : (t : Ty) → t.Den Dbl) (hd : ∀ t : Ty, t.Fresh (dflt t)) (id : Nat) (fs : Fields)
    (hl : (Ty.struct id fs).Listed) (hn : fs.NamesOk) (d : fs.Den Dbl) (ho : fs.Ordered d)
    (hs : fs.Fits (fun x => Spec.Finite x ∨ NotFinite x) d) (il : Nat) (ic : Byte) (hic : il = 0 ∨ Ws [ic]) :
    ∃ w out, serializeFrom (B64.conv false 0 0) (.struct id fs) d = .ok (.kOk, w) ∧ Emits ops il ic w out ∧
      ((∃ v, Accepts ops (out ++ [0]) v) ↔ ¬ fs.HasNum NotFinite d) := by
  obtain ⟨a, b, o, h1, h2, h3, -, ⟨-, h6⟩, h4⟩ := serProto_numbers ops (fun x => Spec.Finite x ∨ NotFinite x) NotFinite dflt il ic
    (B64.conv false 0 0) hd fs hl.1 hl.2 hn d ho hs .nil .nil [] treeOk_nil (fun k => .inl ⟨rfl, rfl⟩) (objFit_empty _) deep_empty
    (by intro n _; rfl)
  obtain ⟨g1, g2⟩ := fit_doubles h3.doc
  have hb : fs.HasNum NotFinite d ↔ HasIn NotFinite (.obj b o) := by
    rw [h4]
    refine ⟨fun ⟨n, _, x, hx, hq⟩ => hasIn_obj hx hq, fun h => ?_⟩
    obtain ⟨k, x, hx, hq⟩ := hasIn_of_obj h
    refine ⟨k, ?_, x, hx, hq⟩
    by_contra hk
    rw [h6 k hk] at hx
    simp [findMapElement] at hx
  have he := C179_exact (.obj b o) il ic g1 g2 hic (fun k _ e => by cases e)
  by_cases h : HasIn NotFinite (.obj b o)
  · obtain ⟨out, e1, e2⟩ := C179_lost _ il ic g1 h g2 hic
    refine ⟨.obj a o, out, h1, emits_alike (obj_alike h2 o) e1, ?_⟩
    rw [hb]
    exact ⟨fun ⟨v, hv⟩ => absurd hv (e2 v), fun hc => absurd h hc⟩
  · obtain ⟨out, v, e1, e2⟩ := he.2 fun path x hx => (g1 path x hx).resolve_right fun hq => h ⟨path, x, hx, hq⟩
    refine ⟨.obj a o, out, h1, emits_alike (obj_alike h2 o) e1, ?_⟩
    rw [hb]
    exact ⟨fun _ => h, fun _ => ⟨v, e2⟩⟩

/-- The fields `"t"`, a text, and `"p"`, an array of numbers. -/
def pointTy : Fields := .named false [0x74] .str (.named false [0x70] (.arr .num) .nil)

/-- `{"title", {1, NaN}}` is saved with success, and nothing of it can be loaded. -/
example (z : Dbl) : ∃ w out, serializeFrom (B64.conv false 0 0) (.struct 0 pointTy) ([0x61], [.fin false (2 ^ 52) 1022, .nan], ()) = .ok (.kOk, w) ∧
    Emits ops 1 0x09 w out ∧ ∀ v, ¬ Accepts ops (out ++ [0]) v := by
  have rt : ∀ b : Nat, 0x61 ≤ b → b < 0x7F → ReadableText (utf8s [b]) := fun b h1 h2 =>
    ⟨[b], by intro cp hcp; simp only [List.mem_singleton] at hcp; subst hcp; omega, rfl⟩
  refine C181_lost (blank z) (blank_fresh z) 0 pointTy (by simp [pointTy, Ty.Listed, Fields.Listed, Fields.names])
    ⟨rt 0x74 (by decide) (by decide), trivial, rt 0x70 (by decide) (by decide), trivial, trivial⟩
    ([0x61], [.fin false (2 ^ 52) 1022, .nan], ())
    (by simp [pointTy, Fields.Ordered, Ty.Ordered]) ⟨rt 0x61 (by decide) (by decide), ?_, trivial⟩ ?_ 1 0x09
    (.inr (by intro c hc; simp only [List.mem_singleton] at hc; simp [hc]))
  · intro x hx
    simp only [List.mem_cons, List.not_mem_nil, or_false] at hx
    rcases hx with rfl | rfl
    · exact .inl (by simp [Spec.Finite, Canonical])
    · exact .inr (.inr rfl)
  · exact .inr (.inl ⟨.nan, by simp [Ty.fails], .inr rfl⟩)

end Verif.Props
