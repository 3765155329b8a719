import Verif.Model.StringMem

/-!
# Properties of the memory of strings: C133, C134
-/

namespace Verif.Props

open Verif Verif.Dyn Verif.SMem

/-! ## Specification -/

/-- Every block belongs to exactly one object, and every object that does not use its local storage has a live block;
`P` relates the size of a block and the `physicalSize` of its object. -/
structure OneOwner (P : Nat → Nat → Prop) (w : World) : Prop where
  live : ∀ i o b, w.objs i = some o → o.ptr = some b → ∃ n, w.blocks b = some n ∧ P n o.physical
  once : ∀ i j o o' b, w.objs i = some o → w.objs j = some o' → o.ptr = some b → o'.ptr = some b → i = j
  used : ∀ b n, w.blocks b = some n → ∃ i o, w.objs i = some o ∧ o.ptr = some b

/-- All requests for memory are granted. -/
def Granted (ops : List (Op × Bool)) : Prop := ∀ x ∈ ops, x.2 = true

/-! ## Proofs -/

/-- `OneOwner` and the numbers of the blocks. -/
structure Fine (P : Nat → Nat → Prop) (w : World) : Prop extends OneOwner P w where
  bound : ∀ b n, w.blocks b = some n → b < w.next

/-- The same without the block of object `i`. -/
structure Hole (P : Nat → Nat → Prop) (w : World) (i : Nat) : Prop where
  live : ∀ k o b, k ≠ i → w.objs k = some o → o.ptr = some b → ∃ n, w.blocks b = some n ∧ P n o.physical
  once : ∀ k j o o' b, k ≠ i → j ≠ i → w.objs k = some o → w.objs j = some o' → o.ptr = some b → o'.ptr = some b → k = j
  used : ∀ b n, w.blocks b = some n → ∃ k o, k ≠ i ∧ w.objs k = some o ∧ o.ptr = some b
  bound : ∀ b n, w.blocks b = some n → b < w.next

variable {P : Nat → Nat → Prop} {w : World} {i : Nat}

theorem Fine.hole (h : Fine P w) (hi : w.objs i = none) : Hole P w i := by
  refine ⟨fun k o b _ => h.live k o b, fun k j o o' b _ _ => h.once k j o o' b, fun b n hb => ?_, h.bound⟩
  obtain ⟨k, o, hk, ho⟩ := h.used b n hb
  exact ⟨k, o, fun e => (by rw [e, hi] at hk; cases hk), hk, ho⟩

theorem Fine.hole_local (h : Fine P w) {o : Obj} (hi : w.objs i = some o) (hp : o.ptr = none) : Hole P w i := by
  refine ⟨fun k o b _ => h.live k o b, fun k j o o' b _ _ => h.once k j o o' b, fun b n hb => ?_, h.bound⟩
  obtain ⟨k, o', hk, ho⟩ := h.used b n hb
  refine ⟨k, o', fun e => ?_, hk, ho⟩
  rw [e, hi] at hk
  cases hk
  rw [hp] at ho
  cases ho

theorem Fine.release (h : Fine P w) {o : Obj} (hi : w.objs i = some o) :
    ∃ w', SMem.release o.ptr w = .ok w' ∧ Hole P w' i ∧ w'.objs = w.objs ∧ w'.next = w.next ∧
      (∀ n, SMem.release o.ptr (w.add n) = .ok (w'.add n)) ∧
      (∀ j p, w.objs j = some p → j ≠ i → SMem.touch p.ptr w' = .ok ()) := by
  cases hp : o.ptr with
  | none =>
    refine ⟨w, rfl, h.hole_local hi hp, rfl, rfl, fun _ => rfl, fun j p hj _ => ?_⟩
    cases hq : p.ptr with
    | none => rfl
    | some b =>
      obtain ⟨n, hb, _⟩ := h.live j p b hj hq
      simp [SMem.touch, hb]
  | some b =>
    obtain ⟨n, hb, _⟩ := h.live i o b hi hp
    have hlt := h.bound b n hb
    refine ⟨{ w with blocks := fun k => if k = b then none else w.blocks k }, ?_, ⟨?_, ?_, ?_, ?_⟩, rfl, rfl, ?_, ?_⟩
    · simp [SMem.release, SMem.delete, hb]
    · intro k o' c hk ho hc
      obtain ⟨m, hm, hP⟩ := h.live k o' c ho hc
      refine ⟨m, ?_, hP⟩
      have : c ≠ b := fun e => hk (h.once k i o' o b ho hi (by rw [← e]; exact hc) hp)
      simp [this, hm]
    · intro k j o1 o2 c _ _ h1 h2 h3 h4
      exact h.once k j o1 o2 c h1 h2 h3 h4
    · intro c m hc
      simp only at hc
      split at hc
      · cases hc
      · obtain ⟨k, o', hk, ho⟩ := h.used c m hc
        refine ⟨k, o', fun e => ?_, hk, ho⟩
        rw [e, hi] at hk
        cases hk
        rw [hp] at ho
        cases ho
        contradiction
    · intro c m hc
      simp only at hc
      split at hc
      · cases hc
      · exact h.bound c m hc
    · intro m
      have : b ≠ w.next := by omega
      simp only [SMem.release, SMem.delete, World.add, if_neg this, hb, Option.isSome_some, if_true]
      congr 2
      funext k
      by_cases e : k = b
      · subst e; simp [this]
      · simp [e]
    · intro j p hj hne
      cases hq : p.ptr with
      | none => rfl
      | some c =>
        obtain ⟨m, hm, _⟩ := h.live j p c hj hq
        have : c ≠ b := fun e => hne (h.once j i p o b hj hi (by rw [← e]; exact hq) hp)
        simp [SMem.touch, this, hm]

theorem Hole.set_none (h : Hole P w i) : Fine P (w.set i none) := by
  refine ⟨⟨?_, ?_, ?_⟩, h.bound⟩
  · intro k o b hk
    simp only [World.set] at hk
    split at hk
    · cases hk
    · rename_i hne; exact h.live k o b hne hk
  · intro k j o o' b hk hj
    simp only [World.set] at hk hj
    split at hk
    · cases hk
    · split at hj
      · cases hj
      · rename_i h1 h2; exact h.once k j o o' b h1 h2 hk hj
  · intro b n hb
    obtain ⟨k, o, hne, hk, ho⟩ := h.used b n hb
    exact ⟨k, o, by simp [World.set, hne, hk], ho⟩

theorem Hole.set_local (h : Hole P w i) (o : Obj) (hp : o.ptr = none) : Fine P (w.set i (some o)) := by
  refine ⟨⟨?_, ?_, ?_⟩, h.bound⟩
  · intro k o' b hk
    simp only [World.set] at hk
    split at hk
    · cases hk; intro hb; rw [hp] at hb; cases hb
    · rename_i hne; exact h.live k o' b hne hk
  · intro k j o1 o2 b hk hj h3 h4
    simp only [World.set] at hk hj
    split at hk
    · cases hk; rw [hp] at h3; cases h3
    · split at hj
      · cases hj; rw [hp] at h4; cases h4
      · rename_i h1 h2; exact h.once k j o1 o2 b h1 h2 hk hj h3 h4
  · intro b n hb
    obtain ⟨k, o', hne, hk, ho⟩ := h.used b n hb
    exact ⟨k, o', by simp [World.set, hne, hk], ho⟩

theorem Hole.set_new (h : Hole P w i) (hP : ∀ n, P n n) (l n : Nat) :
    Fine P ((w.add n).set i (some ⟨l, n, some w.next⟩)) := by
  have low : ∀ b m, w.blocks b = some m → b ≠ w.next := fun b m hb => Nat.ne_of_lt (h.bound b m hb)
  refine ⟨⟨?_, ?_, ?_⟩, ?_⟩
  · intro k o' b hk hb
    simp only [World.set, World.add] at hk ⊢
    split at hk
    · cases hk
      cases hb
      exact ⟨n, by simp, hP n⟩
    · rename_i hne
      obtain ⟨m, hm, hp⟩ := h.live k o' b hne hk hb
      exact ⟨m, by simp [low b m hm, hm], hp⟩
  · intro k j o1 o2 b hk hj h3 h4
    simp only [World.set, World.add] at hk hj
    split at hk
    · rename_i e1
      split at hj
      · rename_i e2; rw [e1, e2]
      · rename_i e2
        cases hk
        cases h3
        obtain ⟨m, hm, _⟩ := h.live j o2 _ e2 hj h4
        exact absurd rfl (low _ m hm)
    · rename_i e1
      split at hj
      · cases hj
        cases h4
        obtain ⟨m, hm, _⟩ := h.live k o1 _ e1 hk h3
        exact absurd rfl (low _ m hm)
      · rename_i e2; exact h.once k j o1 o2 b e1 e2 hk hj h3 h4
  · intro b m hb
    simp only [World.set, World.add] at hb ⊢
    split at hb
    · rename_i e
      exact ⟨i, ⟨l, n, some w.next⟩, by simp, by simp [e]⟩
    · obtain ⟨k, o', hne, hk, ho⟩ := h.used b m hb
      exact ⟨k, o', by simp [hne, hk], ho⟩
  · intro b m hb
    simp only [World.set, World.add] at hb ⊢
    split at hb
    · omega
    · have := h.bound b m hb; omega

/-- Changing sizes only. -/
theorem Fine.set_size (h : Fine P w) {o o' : Obj} (hi : w.objs i = some o) (hp : o'.ptr = o.ptr)
    (hs : ∀ n, P n o.physical → P n o'.physical) : Fine P (w.set i (some o')) := by
  refine ⟨⟨?_, ?_, ?_⟩, h.bound⟩
  · intro k x b hk hb
    simp only [World.set] at hk ⊢
    split at hk
    · cases hk
      obtain ⟨n, hn, hP⟩ := h.live i o b hi (by rw [← hp]; exact hb)
      exact ⟨n, hn, hs n hP⟩
    · exact h.live k x b hk hb
  · intro k j x y b hk hj h3 h4
    simp only [World.set] at hk hj
    split at hk
    · rename_i e1
      cases hk
      rw [hp] at h3
      split at hj
      · rename_i e2; rw [e1, e2]
      · rw [e1]; exact h.once i j o y b hi hj h3 h4
    · split at hj
      · rename_i e2
        cases hj
        rw [hp] at h4
        rw [e2]; exact h.once k i x o b hk hi h3 h4
      · exact h.once k j x y b hk hj h3 h4
  · intro b n hb
    obtain ⟨k, x, hk, hx⟩ := h.used b n hb
    by_cases e : k = i
    · subst e
      rw [hi] at hk
      cases hk
      exact ⟨k, o', by simp [World.set], by rw [hp]; exact hx⟩
    · exact ⟨k, x, by simp [World.set, e, hk], hx⟩

theorem Fine.touch (h : Fine P w) {o : Obj} (hi : w.objs i = some o) : SMem.touch o.ptr w = .ok () := by
  cases hp : o.ptr with
  | none => rfl
  | some b =>
    obtain ⟨n, hb, _⟩ := h.live i o b hi hp
    simp [SMem.touch, hb]

theorem get_some {o : Obj} (h : w.objs i = some o) : SMem.get i w = .ok o := by simp [SMem.get, h]

theorem get_set (o : Obj) : SMem.get i (w.set i (some o)) = .ok o := by simp [SMem.get, World.set]

theorem set_objs (o : Obj) : (w.set i (some o)).objs i = some o := by simp [World.set]

/-- What holds after an operation that does not throw. -/
def After (P : Nat → Nat → Prop) (i : Nat) (e : End) : Prop :=
  Fine P e.world ∧ ∀ w, e = .done w → ∃ o, w.objs i = some o

theorem andThen_fine {e : End} (h : After P i e) (f : Obj → Obj) (hf : ∀ o, (f o).ptr = o.ptr ∧ (f o).physical = o.physical) :
    ∃ e', andThen i e f = .ok e' ∧ Fine P e'.world := by
  cases e with
  | thrown w => exact ⟨.thrown w, rfl, h.1⟩
  | done w =>
    obtain ⟨o, ho⟩ := h.2 w rfl
    have hw : Fine P w := h.1
    refine ⟨.done (w.set i (some (f o))), ?_, ?_⟩
    · simp only [andThen, get_some ho, Out.ok_bind, hw.touch ho]
    · exact hw.set_size ho (hf o).1 (fun n => by rw [(hf o).2]; exact id)

theorem purge_fine (h : Fine P w) {o : Obj} (hi : w.objs i = some o) :
    ∃ e, SMem.purge i w = .ok e ∧ Fine P e.world := by
  obtain ⟨w', h1, h2, _⟩ := h.release hi
  refine ⟨.done (w'.set i (some ⟨1, 16, none⟩)), ?_, h2.set_local _ rfl⟩
  simp only [SMem.purge, get_some hi, Out.ok_bind, h1]

/-- `Resize` is safe if memory is granted or the object uses its local storage. -/
theorem resize_fine (h : Fine P w) (hP : ∀ n, P n n) {o : Obj} (hi : w.objs i = some o) (mem : Bool) (size : Nat)
    (hm : mem = true ∨ o.ptr = none) : ∃ e, SMem.resize mem i size w = .ok e ∧ After P i e ∧
      (∀ j p, w.objs j = some p → j ≠ i → SMem.touch p.ptr e.world = .ok ()) := by
  obtain ⟨w', h1, h2, h3, h4, h5, h6⟩ := h.release hi
  have key : ∀ (e : End), Fine P e.world → (∀ j p, w.objs j = some p → j ≠ i → e.world.objs j = some p) →
      (∀ j p, w.objs j = some p → j ≠ i → SMem.touch p.ptr e.world = .ok ()) :=
    fun e he hj j p h7 h8 => he.touch (hj j p h7 h8)
  simp only [SMem.resize, get_some hi, Out.ok_bind]
  by_cases c1 : size > 16
  · rw [if_pos c1]
    by_cases c2 : size > o.physical ∨ size < o.physical / 2
    · rw [if_pos c2, h1]
      simp only [Out.ok_bind]
      cases mem with
      | true =>
        have hf := h2.set_new hP size (physSize size)
        refine ⟨_, if_pos rfl, ⟨hf, fun w0 e0 => ?_⟩, key _ hf ?_⟩
        · cases e0; exact ⟨_, set_objs _⟩
        · intro j p h7 h8
          simp [End.world, World.set, World.add, h8, h3, h7]
      | false =>
        have hp : o.ptr = none := by simpa using hm
        have hf : Fine P (w'.set i (some ⟨size, physSize size, o.ptr⟩)) := h2.set_local _ hp
        refine ⟨_, if_neg (by simp), ⟨hf, fun w0 e0 => by cases e0⟩, key _ hf ?_⟩
        intro j p h7 h8
        simp [End.world, World.set, h8, h3, h7]
    · rw [if_neg c2]
      have hf : Fine P (w.set i (some { o with logical := size })) := h.set_size hi rfl (fun _ => id)
      refine ⟨_, rfl, ⟨hf, fun w0 e0 => ?_⟩, key _ hf ?_⟩
      · cases e0; exact ⟨_, set_objs _⟩
      · intro j p h7 h8
        simp [End.world, World.set, h8, h7]
  · rw [if_neg c1, h1]
    have hf : Fine P (w'.set i (some ⟨size, 16, none⟩)) := h2.set_local _ rfl
    refine ⟨_, rfl, ⟨hf, fun w0 e0 => ?_⟩, key _ hf ?_⟩
    · cases e0; exact ⟨_, set_objs _⟩
    · intro j p h7 h8
      simp [End.world, World.set, h8, h3, h7]

/-- The growth step is safe; if it fails the object has a wrong size. -/
theorem grow_fine (h : Fine P w) (hP : ∀ n, P n n) {o : Obj} (hi : w.objs i = some o) (mem : Bool) (size : Nat)
    (hm : mem = true ∨ ∀ m n, P m n) : ∃ e, SMem.grow mem i size w = .ok e ∧ After P i e := by
  obtain ⟨w', h1, h2, h3, h4, h5, h6⟩ := h.release hi
  simp only [SMem.grow, get_some hi, Out.ok_bind]
  by_cases c1 : size > o.physical
  · rw [if_pos c1]
    cases mem with
    | true =>
      rw [if_pos rfl, h.touch hi]
      simp only [Out.ok_bind, h5]
      have hf := h2.set_new hP o.logical (max (physSize size) (o.physical + o.physical / 2))
      rw [h4] at hf
      exact ⟨_, rfl, hf, fun w0 e0 => by cases e0; exact ⟨_, set_objs _⟩⟩
    | false =>
      rw [if_neg (by simp)]
      have hf : Fine P (w.set i (some ⟨o.logical, max (physSize size) (o.physical + o.physical / 2), o.ptr⟩)) :=
        h.set_size hi rfl (fun n _ => by rcases hm with hm | hm; cases hm; exact hm _ _)
      exact ⟨_, rfl, hf, fun w0 e0 => by cases e0⟩
  · rw [if_neg c1]
    exact ⟨_, rfl, h, fun w0 e0 => by cases e0; exact ⟨o, hi⟩⟩

theorem appendText_fine (h : Fine P w) (hP : ∀ n, P n n) {o : Obj} (hi : w.objs i = some o) (mem : Bool) (l : Nat)
    (hm : mem = true ∨ ∀ m n, P m n) : ∃ e, SMem.appendText mem i l w = .ok e ∧ Fine P e.world := by
  unfold SMem.appendText
  by_cases c : l > 0
  · rw [if_pos c]
    obtain ⟨e, he, ha⟩ := grow_fine h hP hi mem (o.logical + l) hm
    simp only [get_some hi, Out.ok_bind, he]
    exact andThen_fine ha _ (fun _ => ⟨rfl, rfl⟩)
  · rw [if_neg c]; exact ⟨_, rfl, h⟩

/-- Operations in which an existing block is deleted before the new one is obtained. -/
def Replaces (w : World) : Op → Prop
  | .setText i _ | .setInt i _ | .assign i _ => ∃ o b, w.objs i = some o ∧ o.ptr = some b
  | _ => False

/-- A move of the contents of `j` to `i`. -/
theorem move_fine (h : Hole P w i) {j : Nat} {t : Obj} (hij : j ≠ i) (hj : w.objs j = some t) :
    Fine P ((w.set j (some (SMem.movedFrom t))).set i (some t)) := by
  cases hp : t.ptr with
  | none =>
    have : SMem.movedFrom t = t := by simp [SMem.movedFrom, hp]
    rw [this]
    have e : (w.set j (some t)).set i (some t) = w.set i (some t) := by
      simp only [World.set, World.mk.injEq, and_true]
      funext k
      by_cases h1 : k = i
      · simp [h1]
      · by_cases h2 : k = j
        · simp [h2, hij, hj]
        · simp [h1, h2]
    rw [e]
    exact h.set_local t hp
  | some b =>
    have hmf : SMem.movedFrom t = ⟨1, 16, none⟩ := by simp [SMem.movedFrom, hp]
    rw [hmf]
    refine ⟨⟨?_, ?_, ?_⟩, h.bound⟩
    · intro k o c hk hc
      simp only [World.set] at hk ⊢
      split at hk
      · cases hk; exact h.live j t c hij hj hc
      · split at hk
        · cases hk; cases hc
        · rename_i h1 h2; exact h.live k o c h1 hk hc
    · intro k l o o' c hk hl h3 h4
      simp only [World.set] at hk hl
      split at hk
      · rename_i e1
        cases hk
        split at hl
        · rename_i e2; rw [e1, e2]
        · split at hl
          · cases hl; cases h4
          · rename_i e2 e3
            exact absurd (h.once l j o' _ c e2 hij hl hj h4 h3) e3
      · split at hk
        · cases hk; cases h3
        · rename_i e1 e1'
          split at hl
          · cases hl
            exact absurd (h.once k j o _ c e1 hij hk hj h3 h4) e1'
          · split at hl
            · cases hl; cases h4
            · rename_i e2 e3; exact h.once k l o o' c e1 e2 hk hl h3 h4
    · intro c n hc
      obtain ⟨k, o, hne, hk, ho⟩ := h.used c n hc
      by_cases e : k = j
      · subst e
        rw [hj] at hk
        cases hk
        exact ⟨i, t, by simp [World.set], ho⟩
      · exact ⟨k, o, by simp [World.set, hne, e, hk], ho⟩

theorem step_fine (hP : ∀ n, P n n) (h : Fine P w) (o : Op) (mem : Bool) (hl : o.legal w = true)
    (hm : mem = true ∨ ((∀ m n, P m n) ∧ ¬ Replaces w o)) : ∃ e, o.run mem w = .ok e ∧ Fine P e.world := by
  have hm' : mem = true ∨ ∀ m n, P m n := hm.imp id And.left
  have heap : ∀ (i l n : Nat), w.objs i = none → ∃ e, constructHeap mem i l n w = .ok e ∧ Fine P e.world := by
    intro i l n hi
    unfold constructHeap
    cases mem with
    | true => exact ⟨_, if_pos rfl, (h.hole hi).set_new hP l n⟩
    | false => exact ⟨_, if_neg (by simp), (h.hole hi).set_none⟩
  have some_of : ∀ {i : Nat}, (w.objs i).isSome = true → ∃ o, w.objs i = some o := fun h => Option.isSome_iff_exists.1 h
  cases o with
  | newText i l =>
    have hi : w.objs i = none := by simpa [Op.legal] using hl
    simp only [Op.run, construct]
    by_cases c : l + 1 > 16
    · rw [if_pos c]
      cases mem with
      | true => exact ⟨_, if_pos rfl, (h.hole hi).set_new hP _ _⟩
      | false => exact ⟨_, if_neg (by simp), (h.hole hi).set_none⟩
    · rw [if_neg c]; exact ⟨_, rfl, (h.hole hi).set_local _ rfl⟩
  | newInt i k =>
    have hi : w.objs i = none := by simpa [Op.legal] using hl
    exact ⟨_, rfl, (h.hole hi).set_local _ rfl⟩
  | newInt64 i k =>
    have hi : w.objs i = none := by simpa [Op.legal] using hl
    exact heap i _ _ hi
  | newPlusInt i l k =>
    have hi : w.objs i = none := by simpa [Op.legal] using hl
    exact heap i _ _ hi
  | newCopy i j =>
    simp only [Op.legal, Bool.and_eq_true, Option.isNone_iff_eq_none] at hl
    obtain ⟨t, ht⟩ := some_of hl.2
    simp only [Op.run, SMem.newCopy, get_some ht, Out.ok_bind]
    by_cases c : t.logical > 1
    · rw [if_pos c, h.touch ht]; exact heap i _ _ hl.1
    · rw [if_neg c]; exact ⟨_, rfl, (h.hole hl.1).set_local _ rfl⟩
  | newMove i j =>
    simp only [Op.legal, Bool.and_eq_true, Option.isNone_iff_eq_none] at hl
    obtain ⟨t, ht⟩ := some_of hl.2
    simp only [Op.run, SMem.newMove, get_some ht, Out.ok_bind]
    exact ⟨_, rfl, move_fine (h.hole hl.1) (fun e => by rw [e, hl.1] at ht; cases ht) ht⟩
  | destroy i =>
    obtain ⟨o, ho⟩ := some_of (by simpa [Op.legal] using hl)
    obtain ⟨w', h1, h2, _⟩ := h.release ho
    simp only [Op.run, SMem.destroy, get_some ho, Out.ok_bind, h1]
    exact ⟨_, rfl, h2.set_none⟩
  | purge i =>
    obtain ⟨o, ho⟩ := some_of (by simpa [Op.legal] using hl)
    exact purge_fine h ho
  | setText i l =>
    obtain ⟨o, ho⟩ := some_of (by simpa [Op.legal] using hl)
    simp only [Op.run, SMem.setText]
    by_cases c : l > 0
    · rw [if_pos c]
      obtain ⟨e, he, ha, _⟩ := resize_fine h hP ho mem (l + 1) (hm.imp id fun x => by
        cases hp : o.ptr with
        | none => rfl
        | some b => exact absurd ⟨o, b, ho, hp⟩ x.2)
      rw [he]
      exact andThen_fine ha _ (fun _ => ⟨rfl, rfl⟩)
    · rw [if_neg c]; exact purge_fine h ho
  | setInt i k =>
    obtain ⟨o, ho⟩ := some_of (by simpa [Op.legal] using hl)
    simp only [Op.run, SMem.setInt]
    obtain ⟨e, he, ha, _⟩ := resize_fine h hP ho mem 64 (hm.imp id fun x => by
      cases hp : o.ptr with
      | none => rfl
      | some b => exact absurd ⟨o, b, ho, hp⟩ x.2)
    rw [he]
    exact andThen_fine ha _ (fun _ => ⟨rfl, rfl⟩)
  | assign i j =>
    simp only [Op.legal, Bool.and_eq_true, bne_iff_ne, ne_eq] at hl
    obtain ⟨o, ho⟩ := some_of hl.1.1
    obtain ⟨t, ht⟩ := some_of hl.1.2
    simp only [Op.run, SMem.assign, if_neg hl.2, get_some ht, Out.ok_bind]
    by_cases c : t.logical > 1
    · rw [if_pos c]
      obtain ⟨e, he, ha, hb⟩ := resize_fine h hP ho mem t.logical (hm.imp id fun x => by
        cases hp : o.ptr with
        | none => rfl
        | some b => exact absurd ⟨o, b, ho, hp⟩ x.2)
      rw [he]
      simp only [Out.ok_bind, h.touch ht]
      exact andThen_fine ha _ (fun _ => ⟨rfl, rfl⟩)
    · rw [if_neg c]; exact purge_fine h ho
  | moveAssign i j =>
    simp only [Op.legal, Bool.and_eq_true] at hl
    obtain ⟨o, ho⟩ := some_of hl.1
    obtain ⟨t, ht⟩ := some_of hl.2
    obtain ⟨w', h1, h2, h3, _⟩ := h.release ho
    have ht' : w'.objs j = some t := by rw [h3]; exact ht
    simp only [Op.run, SMem.moveAssign, get_some ho, Out.ok_bind, h1, get_some ht']
    by_cases c : i = j
    · rw [if_pos c]
      refine ⟨_, rfl, h2.set_local _ ?_⟩
      unfold SMem.movedFrom
      split
      · rfl
      · assumption
    · rw [if_neg c]
      exact ⟨_, rfl, move_fine h2 (fun e => c e.symm) ht'⟩
  | append i j =>
    simp only [Op.legal, Bool.and_eq_true, bne_iff_ne, ne_eq] at hl
    obtain ⟨o, ho⟩ := some_of hl.1.1
    obtain ⟨t, ht⟩ := some_of hl.1.2
    simp only [Op.run, SMem.append, if_neg hl.2, get_some ht, Out.ok_bind]
    by_cases c : t.logical > 1
    · rw [if_pos c, h.touch ht]; exact appendText_fine h hP ho mem _ hm'
    · rw [if_neg c]; exact ⟨_, rfl, h⟩
  | appendText i l =>
    obtain ⟨o, ho⟩ := some_of (by simpa [Op.legal] using hl)
    exact appendText_fine h hP ho mem _ hm'
  | appendInt i k =>
    obtain ⟨o, ho⟩ := some_of (by simpa [Op.legal] using hl)
    obtain ⟨e, he, ha⟩ := grow_fine h hP ho mem (o.logical + 64) hm'
    simp only [Op.run, SMem.appendInt, get_some ho, Out.ok_bind, he]
    exact andThen_fine ha _ (fun _ => ⟨rfl, rfl⟩)
  | setLength i n =>
    obtain ⟨o, ho⟩ := some_of (by simpa [Op.legal] using hl)
    obtain ⟨w', h1, h2, h3, h4, h5, h6⟩ := h.release ho
    simp only [Op.run, SMem.setLength]
    by_cases c0 : n > 0
    · rw [if_pos c0]
      simp only [get_some ho, Out.ok_bind]
      by_cases c1 : n + 1 ≠ o.logical
      · rw [if_pos c1]
        suffices hs : ∃ e, (if n + 1 > 16 then
            if n + 1 > o.physical ∨ n + 1 < o.physical / 2 then
              if mem = true then SMem.touch o.ptr w >>= fun _ => SMem.release o.ptr (w.add (physSize (n + 1))) >>= fun w' =>
                .ok (.done (w'.set i (some ⟨n + 1, physSize (n + 1), some w.next⟩)))
              else .ok (.thrown (w.set i (some ⟨n + 1, physSize (n + 1), o.ptr⟩)))
            else .ok (.done (w.set i (some { o with logical := n + 1 })))
          else SMem.touch o.ptr w >>= fun _ => SMem.release o.ptr w >>= fun w =>
            .ok (.done (w.set i (some ⟨n + 1, o.physical, none⟩)))) = (.ok e : Out End) ∧ After P i e by
          obtain ⟨e, he, ha⟩ := hs
          rw [he]
          exact andThen_fine ha _ (fun _ => ⟨rfl, rfl⟩)
        by_cases c2 : n + 1 > 16
        · rw [if_pos c2]
          by_cases c3 : n + 1 > o.physical ∨ n + 1 < o.physical / 2
          · rw [if_pos c3]
            cases mem with
            | true =>
              rw [if_pos rfl, h.touch ho]
              simp only [Out.ok_bind, h5]
              have hf := h2.set_new hP (n + 1) (physSize (n + 1))
              rw [h4] at hf
              exact ⟨_, rfl, hf, fun w0 e0 => by cases e0; exact ⟨_, set_objs _⟩⟩
            | false =>
              rw [if_neg (by simp)]
              have hf : Fine P (w.set i (some ⟨n + 1, physSize (n + 1), o.ptr⟩)) :=
                h.set_size ho rfl (fun n _ => by rcases hm' with hm | hm; cases hm; exact hm _ _)
              exact ⟨_, rfl, hf, fun w0 e0 => by cases e0⟩
          · rw [if_neg c3]
            exact ⟨_, rfl, h.set_size ho rfl (fun _ => id), fun w0 e0 => by
              cases e0; exact ⟨_, set_objs _⟩⟩
        · rw [if_neg c2, h.touch ho]
          simp only [Out.ok_bind, h1]
          exact ⟨_, rfl, h2.set_local _ rfl, fun w0 e0 => by cases e0; exact ⟨_, set_objs _⟩⟩
      · rw [if_neg c1]; exact ⟨_, rfl, h⟩
    · rw [if_neg c0]; exact purge_fine h ho
  | encode any i n =>
    obtain ⟨o, ho⟩ := some_of (by simpa [Op.legal] using hl)
    obtain ⟨w', h1, h2, h3, h4, h5, h6⟩ := h.release ho
    simp only [Op.run, SMem.encode, get_some ho, Out.ok_bind, h.touch ho]
    cases any with
    | false => exact ⟨_, rfl, h⟩
    | true =>
      rw [if_pos rfl]
      cases mem with
      | true =>
        rw [if_pos rfl]
        simp only [h5, Out.ok_bind]
        have hf := h2.set_new hP n (physSize n)
        rw [h4] at hf
        exact ⟨_, rfl, hf⟩
      | false =>
        rw [if_neg (by simp)]
        exact ⟨_, rfl, h.set_size ho rfl (fun n _ => by rcases hm' with hm | hm; cases hm; exact hm _ _)⟩

/-- The requests that fail are not those of operations that have deleted a block before. -/
def Careful : List (Op × Bool) → World → Prop
  | [], _ => True
  | (o, mem) :: os, w =>
    if o.legal w then (mem = false → ¬ Replaces w o) ∧ ∀ e, o.run mem w = .ok e → Careful os e.world else Careful os w

theorem runAll_fine (hP : ∀ n, P n n) (ops : List (Op × Bool)) (w : World) (h : Fine P w)
    (hm : Granted ops ∨ ((∀ m n, P m n) ∧ Careful ops w)) : ∃ w', runAll ops w = .ok w' ∧ Fine P w' := by
  induction ops generalizing w with
  | nil => exact ⟨w, rfl, h⟩
  | cons x ops ih =>
    obtain ⟨o, mem⟩ := x
    simp only [runAll]
    by_cases hl : o.legal w = true
    · rw [if_pos hl]
      obtain ⟨e, he, hf⟩ := step_fine hP h o mem hl (by
        rcases hm with hm | ⟨h1, h2⟩
        · exact .inl (hm (o, mem) (by simp))
        · simp only [Careful, if_pos hl] at h2
          cases mem with
          | true => exact .inl rfl
          | false => exact .inr ⟨h1, h2.1 rfl⟩)
      rw [he]
      refine ih e.world hf ?_
      rcases hm with hm | ⟨h1, h2⟩
      · exact .inl fun x hx => hm x (by simp [hx])
      · simp only [Careful, if_pos hl] at h2
        exact .inr ⟨h1, h2.2 e he⟩
    · rw [if_neg hl]
      refine ih w h ?_
      rcases hm with hm | ⟨h1, h2⟩
      · exact .inl fun x hx => hm x (by simp [hx])
      · simp only [Careful, if_neg hl] at h2
        exact .inr ⟨h1, h2⟩

theorem empty_fine (P : Nat → Nat → Prop) : Fine P World.empty :=
  ⟨⟨fun _ _ _ h => (by cases h), fun _ _ _ _ _ h => (by cases h), fun _ _ h => (by cases h)⟩, fun _ _ h => (by cases h)⟩

/-! ## C133: blocks are deleted once -/

/-- **C133.** As long as memory is granted, for every history of operations on any number of strings, no deleted block is
used or deleted again; at any time every live block belongs to exactly one string, and is as large as the string believes;
and when all strings are destroyed no block is left. -/
theorem C133_blocks_owned (ops : List (Op × Bool)) (hm : Granted ops) :
    ∃ w, runAll ops World.empty = .ok w ∧ OneOwner Eq w ∧ ((∀ i, w.objs i = none) → ∀ b, w.blocks b = none) := by
  obtain ⟨w, h1, h2⟩ := runAll_fine (P := Eq) (fun _ => rfl) ops _ (empty_fine _) (.inl hm)
  refine ⟨w, h1, h2.toOneOwner, fun hn b => ?_⟩
  cases hb : w.blocks b with
  | none => rfl
  | some n =>
    obtain ⟨i, o, hi, _⟩ := h2.used b n hb
    rw [hn i] at hi
    cases hi

/-- Two long strings, one moved into the other, and both destroyed. -/
def moveHistory : List (Op × Bool) :=
  [(.newText 0 100, true), (.newText 1 50, true), (.appendText 1 100, true), (.moveAssign 0 1, true), (.setText 1 30, true)]

example : ∃ w, runAll moveHistory World.empty = .ok w ∧ (w.objs 0).map Obj.ptr = some (some 2) ∧
    (w.objs 1).map Obj.ptr = some (some 3) ∧ (List.range 6).map w.blocks = [none, none, some 192, some 64, none, none] :=
  ⟨_, rfl, rfl, rfl, rfl⟩

/-! ## C134: strings when memory runs out -/

/-- **C134**, full statement: whatever requests for memory fail, no deleted block is used or deleted again, every live block
belongs to exactly one string, and a string does not believe its block to be larger than it is. -/
def C134_statement : Prop :=
  ∀ ops : List (Op × Bool), ∃ w, runAll ops World.empty = .ok w ∧ OneOwner (fun n physical => physical ≤ n) w

/-- If the memory for a new text cannot be obtained, the old block has been deleted already, and is deleted again when the
string is destroyed. -/
theorem C134_violated : ¬ C134_statement := by
  intro h
  obtain ⟨w, e, _⟩ := h [(.newText 0 100, true), (.setText 0 200, false), (.destroy 0, true)]
  exact absurd e (by simp only [show runAll [(.newText 0 100, true), (.setText 0 200, false), (.destroy 0, true)]
    World.empty = .ub from rfl]; exact fun h => by cases h)

/-- If the memory for a longer text cannot be obtained, the string believes its block to be larger than it is: after a failed
`+=`, text that does not fit is appended without a request for memory. -/
theorem C134_violated_size : ∃ w w' o n, runAll [(.newText 0 100, true), (.appendText 0 1000, false)] World.empty = .ok w ∧
    w.objs 0 = some o ∧ o.ptr = some 0 ∧ w.blocks 0 = some n ∧ n < o.physical ∧
    SMem.appendText true 0 900 w = .ok (.done w') ∧ w'.blocks = w.blocks ∧ n < o.logical + 900 :=
  ⟨_, _, ⟨101, 1152, some 0⟩, 128, rfl, rfl, rfl, rfl, by decide, rfl, rfl, by decide⟩

/-- The same through `Deserialize`: it answers `kException`, and the target cannot even be destroyed. -/
theorem C134_violated_deserialize : ∃ w w', runAll [(.newText 0 100, true), (.newText 1 200, true)] World.empty = .ok w ∧
    deserializeString false true 0 1 w = .ok (.exception, w') ∧ SMem.destroy 0 w' = .ub :=
  ⟨_, _, rfl, rfl, rfl⟩

/-- **C134**, partial: if no request fails in an assignment to a string that has a block, no deleted block is used or deleted
again, and every live block belongs to exactly one string; all strings can be destroyed. Missing: failing assignments to
strings with blocks, and the sizes after failing concatenations, for which the statement is false. -/
theorem C134_memory_partial (ops : List (Op × Bool)) (hc : Careful ops World.empty) :
    ∃ w, runAll ops World.empty = .ok w ∧ OneOwner (fun _ _ => True) w ∧
      ∀ i o, w.objs i = some o → ∃ w', SMem.destroy i w = .ok (.done w') := by
  obtain ⟨w, h1, h2⟩ := runAll_fine (P := fun _ _ => True) (fun _ => trivial) ops _ (empty_fine _)
    (.inr ⟨fun _ _ => trivial, hc⟩)
  refine ⟨w, h1, h2.toOneOwner, fun i o hi => ?_⟩
  obtain ⟨w', h3, _⟩ := h2.release hi
  exact ⟨w'.set i none, by simp only [SMem.destroy, get_some hi, Out.ok_bind, h3]⟩

/-- A failing concatenation and a failing assignment to a short string are careful. -/
example : Careful [(.newText 0 100, true), (.appendText 0 1000, false), (.newText 1 3, true), (.setText 1 50, false)]
    World.empty := by
  have h1 : ∀ (o : Op) (mem : Bool) (w : World), (mem = false → ¬ Replaces w o) → o.legal w = true →
      ∀ os, (∀ e, o.run mem w = .ok e → Careful os e.world) → Careful ((o, mem) :: os) w := by
    intro o mem w h2 h3 os h4
    simp only [Careful, if_pos h3]
    exact ⟨h2, h4⟩
  refine h1 _ _ _ (fun h => by cases h) rfl _ fun e he => ?_
  cases he
  refine h1 _ _ _ (fun _ => id) rfl _ fun e he => ?_
  cases he
  refine h1 _ _ _ (fun h => by cases h) rfl _ fun e he => ?_
  cases he
  refine h1 _ _ _ (fun _ => ?_) rfl _ fun e he => ?_
  · rintro ⟨o, b, ho, hb⟩
    cases ho
    cases hb
  · cases he
    trivial

end Verif.Props
