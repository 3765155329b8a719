import Verif.Model.StringNum
import Verif.Lemmas.DynString

/-! # Lemmas about numbers in strings -/

namespace Verif.Dyn

open Verif Verif.Text Verif.Str Verif.Texts

/-- Both printing functions, when there is room. -/
theorem printInt_room (wrapv : Bool) {bits cap : Nat} (hb : bits = 32 ∧ cap = 16 ∨ bits = 64 ∧ cap = 32) {n : Int}
    (h1 : -(2 ^ (bits - 1)) < n) (h2 : n < 2 ^ (bits - 1)) {t : Bytes} (ht : IntText n t) {d m : Nat} {b : Bytes}
    (hm : 20 ≤ m ∨ bits = 32 ∧ 11 ≤ m) (hl : d + m < b.length) :
    t.length ≤ m ∧ printInt wrapv bits cap n d m b = .ok (put b d (t ++ [0]), t.length) := by
  obtain ⟨u, hu, e⟩ := printInt_spec wrapv bits cap n d m b h1 h2 (by rcases hb with ⟨rfl, rfl⟩ | ⟨rfl, rfl⟩ <;> decide)
    (by omega) (by simpa using hl)
  obtain rfl := intText_unique ht hu
  have hlen : t.length ≤ m := by
    rcases hb with ⟨rfl, rfl⟩ | ⟨rfl, rfl⟩
    · have := intText_length (by simpa using h1) (by simpa using h2) ht; omega
    · rcases ht with ⟨-, h⟩ | ⟨-, u, rfl, h⟩
      · have := numeral_le_of_lt _ t 19 h (by omega) (by omega); omega
      · have := numeral_le_of_lt _ u 19 h (by omega) (by omega); simp; omega
  refine ⟨hlen, ?_⟩
  rw [e, Int.toNat_natCast, List.take_of_length_le hlen, Nat.min_eq_right hlen]

section

variable (wrapv : Bool) (g : Nat → Byte) {bits cap : Nat} (hb : bits = 32 ∧ cap = 16 ∨ bits = 64 ∧ cap = 32) {n : Int}
  (h1 : -(2 ^ (bits - 1)) < n) (h2 : n < 2 ^ (bits - 1)) {t : Bytes} (ht : IntText n t)

include hb h1 h2 ht

theorem set_wf {s : Dyn} {a : Bytes} (hs : WF s a) :
    ∃ s', (printInt wrapv bits cap n 0 63 (resize g 64 s).1.data >>= fun r =>
      .ok { (resize g 64 s).1.store r.1 with logical := r.2 + 1 }) = .ok s' ∧ WF s' t := by
  obtain ⟨e1, e2, e3, e4⟩ := resize_props g 64 hs.block hs.loc
  obtain ⟨hl, e⟩ := printInt_room wrapv hb h1 h2 ht (d := 0) (m := 63) (b := (resize g 64 s).1.data) (by omega) (by omega)
  rw [show ((63 : Int)) = ((63 : Nat) : Int) from rfl, e, Out.ok_bind]
  exact ⟨_, rfl, wf_store rfl e2 e3 (length_put (by simp; omega)) (holds_put_zero (intText_no_nul ht))⟩

theorem append_wf' {s : Dyn} {a : Bytes} (hs : WF s a) :
    ∃ s', (grow g (s.logical + 64) s >>= fun r =>
      printInt wrapv bits cap n (r.1.logical - 1) 63 r.1.data >>= fun p =>
      .ok { r.1.store p.1 with logical := r.1.logical + p.2 }) = .ok s' ∧ WF s' (a ++ t) := by
  have hl' := hs.logical
  obtain ⟨s', m, e, hw, hsz⟩ := grow_props g (s.logical + 64) hs
  have hl2 := hw.logical
  obtain ⟨hl, ei⟩ := printInt_room wrapv hb h1 h2 ht (d := a.length) (m := 63) (b := s'.data) (by omega) (by omega)
  rw [e, Out.ok_bind]
  simp only [hl2, Nat.add_sub_cancel]
  rw [show ((63 : Int)) = ((63 : Nat) : Int) from rfl, ei, Out.ok_bind]
  exact ⟨_, rfl, wf_store (by simp; omega) hw.block hw.loc (length_put (by simp; omega))
    (holds_put hw.holds (intText_no_nul ht))⟩

theorem plus_wf {t1 u1 : Bytes} (h : Holds t1 u1) :
    ∃ s, (getTextLength t1 >>= fun len1 =>
      copyInto (.ext t1) 0 (fresh g (physSize (len1 + 64))) >>= fun b =>
      printInt wrapv bits cap n len1 63 b >>= fun r =>
      .ok ({ logical := len1 + r.2 + 1, physical := physSize (len1 + 64), heap := some r.1, loc := loc0 } : Dyn)) = .ok s ∧
      WF s (u1 ++ t) := by
  have hp := physSize_ge (u1.length + 64)
  have l1 : (put (fresh g (physSize (u1.length + 64))) 0 (u1 ++ [0])).length = physSize (u1.length + 64) := by
    rw [length_put (by rw [length_fresh]; simp; omega), length_fresh]
  obtain ⟨hl, ei⟩ := printInt_room wrapv hb h1 h2 ht (d := u1.length) (m := 63)
    (b := put (fresh g (physSize (u1.length + 64))) 0 (u1 ++ [0])) (by omega) (by omega)
  rw [getTextLength_holds h, Out.ok_bind, copyInto_ext h (by rw [length_fresh]; omega), Out.ok_bind,
    show ((63 : Int)) = ((63 : Nat) : Int) from rfl, ei, Out.ok_bind]
  refine ⟨_, rfl, ⟨by simp, holds_put (holds_put_zero h.1) (intText_no_nul ht), ?_, rfl⟩⟩
  simp only [Dyn.data, Option.getD_some]
  rw [length_put (by rw [l1]; simp; omega), l1]

end

theorem newInt64_wf (wrapv : Bool) (g : Nat → Byte) {n : Int} {t : Bytes} (h1 : -(2 ^ 63) < n) (h2 : n < 2 ^ 63)
    (ht : IntText n t) : ∃ s, newInt64 wrapv g n = .ok s ∧ WF s t := by
  obtain ⟨hl, e⟩ := printInt_room wrapv (.inr ⟨rfl, rfl⟩) (by simpa using h1) (by simpa using h2) ht (d := 0) (m := 63)
    (b := fresh g 64) (by omega) (by rw [length_fresh]; omega)
  rw [newInt64, integer64ToString, show ((63 : Int)) = ((63 : Nat) : Int) from rfl, e, Out.ok_bind]
  refine ⟨_, rfl, ⟨rfl, holds_put_zero (intText_no_nul ht), ?_, rfl⟩⟩
  simp only [Dyn.data, Option.getD_some]
  rw [length_put (by rw [length_fresh]; simp; omega), length_fresh]

end Verif.Dyn
