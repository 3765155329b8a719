import Verif.Lemmas.NotFinite
import Verif.Props.Drift

/-!
# Numbers that are too large for `float`
-/

namespace Verif.Watch

open Verif Verif.Map Verif.Text Verif.Number Verif.Parser Verif.Doc Verif.Write Verif.Spec Verif.Props

/-- Bytes that no literal of the built-in reader has. -/
def Foreign (a : Byte) : Prop := ¬ Digit a ∧ a ≠ 0x5F ∧ a ≠ 0x2E ∧ a ≠ 0x65 ∧ a ≠ 0x45 ∧ a ≠ 0x2B ∧ a ≠ 0x2D

theorem grouped_foreign {a : Byte} (ha : Foreign a) {lz : Bool} {s ds : Bytes} (h : Grouped lz s ds) : a ∉ s := by
  obtain ⟨g, gs, hg, rfl, -⟩ := h
  have hd : ∀ g' ∈ g :: gs, a ∉ g' := fun g' hm h0 => ha.1 ((hg g' hm).2.1 a h0)
  simp only [List.mem_append, not_or, List.mem_flatten, List.mem_map, not_exists, not_and]
  refine ⟨hd g (by simp), ?_⟩
  rintro x ⟨g', hm, rfl⟩ h0
  rcases List.mem_cons.1 h0 with h0 | h0
  · exact ha.2.1 h0
  · exact hd g' (List.mem_cons_of_mem _ hm) h0

theorem underNum_foreign {a : Byte} (ha : Foreign a) {p ip fp : Bytes} {e : Option Int} (h : UnderNum p ip fp e) : a ∉ p := by
  obtain ⟨hi, hf, hne, he⟩ := h
  obtain ⟨-, -, h1, h2, h3, h4, h5⟩ := id ha
  simp only [List.mem_append, not_or]
  refine ⟨?_, ?_, ?_⟩
  · rcases hi with ⟨rfl, rfl⟩ | hi
    · simp
    · exact grouped_foreign ha hi
  · cases hf with
    | none => simp
    | point => simp [h1]
    | some h => have := grouped_foreign ha h; simp [this, h1]
  · cases he with
    | none => simp
    | unsigned hc h => have := grouped_foreign ha h; rcases hc with rfl | rfl <;> simp [this, h2, h3]
    | plus hc h => have := grouped_foreign ha h; rcases hc with rfl | rfl <;> simp [this, h2, h3, h4]
    | minus hc h => have := grouped_foreign ha h; rcases hc with rfl | rfl <;> simp [this, h2, h3, h5]

theorem quiet_signed {t : Bytes} {s : SignedLit} (h : SignedNum t s) : Noticed t False := by
  have run {p ip fp : Bytes} {e : Option Int} (h : UnderNum p ip fp e) : Noticed p False := by
    refine quiet fun c hc => ⟨?_, ?_, ?_⟩ <;>
      (rintro rfl; exact underNum_foreign (by unfold Foreign Digit; decide) h hc)
  cases h with
  | plain h1 => exact run h1
  | plus hw h1 => exact Noticed.wrap (a := [0x2B]) (quiet (by decide)) (quiet_ws hw) (run h1)
  | minus hw h1 => exact Noticed.wrap (a := [0x2D]) (quiet (by decide)) (quiet_ws hw) (run h1)

theorem has_false {ν : Type} (j : Syn ν) : ¬ Has (fun _ => False) j := by
  refine Syn.rec (motive_1 := fun j => ¬ Has (fun _ => False) j) (motive_2 := fun l => ¬ HasL (fun _ => False) l)
    (motive_3 := fun m => ¬ HasM (fun _ => False) m) ?_ ?_ ?_ ?_ ?_ ?_ ?_ ?_ ?_ ?_ j <;> intros <;> simp_all [Has, HasL, HasM]

theorem quiet_synText {t : Bytes} {j : Syn SignedLit} (h : SynText SignedNum DialStr t j) : watch .out t = some .out := by
  obtain ⟨w1, v, w2, h1, h2, h3, rfl⟩ := h
  have := noticed_val (fun _ => False) (fun t x h => quiet_signed h) h2
  exact (Noticed.wrap (quiet_ws h1) this (quiet_ws h3)).2 (has_false j)

end Verif.Watch
