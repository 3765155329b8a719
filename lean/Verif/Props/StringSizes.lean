import Verif.Props.StringMem

/-!
# The lengths of strings and the room for them (C133, continued)

The model of the memory of strings keeps the lengths of the texts; here they are compared with a specification that
knows nothing of memory.
-/

namespace Verif.Props

open Verif Verif.Dyn Verif.SMem

/-! ## Specification -/

/-- The lengths of the texts of all strings; `none` if there is no such string. -/
abbrev Lens := Nat → Option Nat

/-- Only the entry of `i` may differ, and it is `x`. -/
def Only (i : Nat) (x : Option Nat) (L L' : Lens) : Prop := L' i = x ∧ ∀ k, k ≠ i → L' k = L k

/-- What an operation does to the lengths; the length of a moved-from string is not specified. -/
def LenStep (L L' : Lens) : Op → Prop
  | .newText i l | .setText i l | .setLength i l => Only i (some l) L L'
  | .newInt i k | .newInt64 i k | .setInt i k => Only i (some k) L L'
  | .newPlusInt i l k => Only i (some (l + k)) L L'
  | .newCopy i j | .assign i j => Only i (L j) L L'
  | .newMove i j | .moveAssign i j => (i ≠ j → L' i = L j) ∧ (L' j).isSome ∧ ∀ k, k ≠ i → k ≠ j → L' k = L k
  | .destroy i => Only i none L L'
  | .purge i => Only i (some 0) L L'
  | .append i j => Only i (some ((L i).getD 0 + (L j).getD 0)) L L'
  | .appendText i l | .appendInt i l => Only i (some ((L i).getD 0 + l)) L L'
  | .encode any i n => Only i (if any then some (n - 1) else L i) L L'

/-- The numbers of characters that the operations on integers can produce, the size of an encoded text (with its
terminator), and no `SetStringLength` to a length between 1 and 15 (see C42). -/
def Sensible : Op → Prop
  | .newInt _ k => k ≤ 15
  | .newInt64 _ k | .setInt _ k | .newPlusInt _ _ k | .appendInt _ k => k ≤ 63
  | .setLength _ n => n = 0 ∨ 16 ≤ n
  | .encode _ _ n => 1 ≤ n
  | _ => True

/-- The strings have these lengths, and room for the text and its terminator: `physicalSize` bytes, which are 16 in the
object itself. -/
def HasLens (w : World) (L : Lens) : Prop :=
  ∀ i, match w.objs i with
    | some o => L i = some (o.logical - 1) ∧ 1 ≤ o.logical ∧ o.logical ≤ o.physical ∧ (o.ptr = none → o.physical = 16)
    | none => L i = none

/-- The lengths after a history; calls that are not possible are skipped. -/
inductive LenSteps : List Op → World → Lens → Lens → Prop
  | nil {w L} : LenSteps [] w L L
  | skip {o os w L L'} : o.legal w = false → LenSteps os w L L' → LenSteps (o :: os) w L L'
  | step {o os w e L L' L''} : o.legal w = true → o.run true w = .ok e → LenStep L L' o → LenSteps os e.world L' L'' →
      LenSteps (o :: os) w L L''

/-! ## Proofs -/

/-- One string. -/
def Sized (x : Option Nat) (o : Option Obj) : Prop :=
  match o with
  | some o => x = some (o.logical - 1) ∧ 1 ≤ o.logical ∧ o.logical ≤ o.physical ∧ (o.ptr = none → o.physical = 16)
  | none => x = none

theorem hasLens_iff {w : World} {L : Lens} : HasLens w L ↔ ∀ i, Sized (L i) (w.objs i) := Iff.rfl

/-- A world whose objects are those of `w` but for `i`. -/
theorem only_set {w w' : World} {L : Lens} (h : HasLens w L) {i : Nat} {x : Option Nat} {o : Option Obj} (hs : Sized x o)
    (hw : w'.objs = (w.set i o).objs) : ∃ L', Only i x L L' ∧ HasLens w' L' := by
  refine ⟨fun k => if k = i then x else L k, ⟨by simp, fun k hk => by simp [hk]⟩, hasLens_iff.2 fun k => ?_⟩
  rw [hw]
  simp only [World.set]
  by_cases hk : k = i
  · rw [if_pos hk, if_pos hk]; exact hs
  · rw [if_neg hk, if_neg hk]; exact h k

theorem only_set' {w w' : World} {L : Lens} (h : HasLens w L) {i : Nat} {x : Option Nat} {o : Option Obj}
    (hw : w'.objs = (w.set i o).objs) (hs : Sized x o) : ∃ L', Only i x L L' ∧ HasLens w' L' := only_set h hs hw

theorem physSize_ge (n : Nat) : n ≤ physSize n := by unfold physSize; omega

theorem release_objs {p : Option Nat} {w w' : World} (h : SMem.release p w = .ok w') : w'.objs = w.objs := by
  cases p with
  | none => cases h; rfl
  | some b =>
    simp only [SMem.release, SMem.delete] at h
    split at h <;> cases h
    rfl

theorem get_ok {i : Nat} {w : World} {o : Obj} (h : SMem.get i w = .ok o) : w.objs i = some o := by
  unfold SMem.get at h
  split at h
  · cases h; assumption
  · cases h

theorem set_set (w : World) (i : Nat) (o o' : Option Obj) : ((w.set i o).set i o').objs = (w.set i o').objs := by
  funext k
  simp only [World.set]
  split <;> rfl

theorem purge_objs {i : Nat} {w : World} {e : End} (h : SMem.purge i w = .ok e) :
    ∃ w', e = .done w' ∧ w'.objs = (w.set i (some ⟨1, 16, none⟩)).objs := by
  simp only [SMem.purge, Out.bind_eq_ok] at h
  obtain ⟨o, -, w1, h1, h2⟩ := h
  cases h2
  refine ⟨_, rfl, ?_⟩
  simp only [World.set, release_objs h1]

theorem andThen_objs {i : Nat} {w : World} {e : End} {f : Obj → Obj} (h : andThen i (.done w) f = .ok e) :
    ∃ w' o, e = .done w' ∧ w.objs i = some o ∧ w'.objs = (w.set i (some (f o))).objs := by
  simp only [andThen, Out.bind_eq_ok] at h
  obtain ⟨o, h1, -, -, h2⟩ := h
  cases h2
  exact ⟨_, o, rfl, get_ok h1, rfl⟩

theorem resize_objs {i size : Nat} {w : World} {e : End} (h : SMem.resize true i size w = .ok e) {x : Option Nat} {o : Obj}
    (ho : w.objs i = some o) (hs : Sized x (some o)) (h1 : 1 ≤ size) :
    ∃ w' o', e = .done w' ∧ w'.objs = (w.set i (some o')).objs ∧ o'.logical = size ∧ Sized (some (size - 1)) (some o') := by
  simp only [SMem.resize, Out.bind_eq_ok] at h
  obtain ⟨o1, g1, g2⟩ := h
  have := get_ok g1
  rw [ho] at this
  cases this
  obtain ⟨-, -, hp, hl⟩ := hs
  by_cases hc : size > 16
  · rw [if_pos hc] at g2
    by_cases hd : size > o.physical ∨ size < o.physical / 2
    · rw [if_pos hd, Out.bind_eq_ok] at g2
      obtain ⟨w1, g3, g4⟩ := g2
      cases g4
      refine ⟨_, ⟨size, physSize size, some w1.next⟩, rfl, ?_, rfl, rfl, h1, physSize_ge _, by simp⟩
      simp only [World.set, World.add, release_objs g3]
    · rw [if_neg hd] at g2
      cases g2
      refine ⟨_, { o with logical := size }, rfl, rfl, rfl, rfl, h1, ?_, hl⟩
      simp only
      omega
  · rw [if_neg hc, Out.bind_eq_ok] at g2
    obtain ⟨w1, g3, g4⟩ := g2
    cases g4
    refine ⟨_, ⟨size, 16, none⟩, rfl, ?_, rfl, rfl, h1, by simp only; omega, by simp⟩
    simp only [World.set, release_objs g3]

theorem grow_objs {i size : Nat} {w : World} {e : End} (h : SMem.grow true i size w = .ok e) {x : Option Nat} {o : Obj}
    (ho : w.objs i = some o) (hs : Sized x (some o)) (h1 : o.logical ≤ size) :
    ∃ w' o', e = .done w' ∧ w'.objs = (w.set i (some o')).objs ∧ o'.logical = o.logical ∧ size ≤ o'.physical ∧ Sized x (some o') := by
  simp only [SMem.grow, Out.bind_eq_ok] at h
  obtain ⟨o1, g1, g2⟩ := h
  have := get_ok g1
  rw [ho] at this
  cases this
  obtain ⟨hx, h0, hp, hl⟩ := hs
  by_cases hc : size > o.physical
  · rw [if_pos hc] at g2
    simp only [if_true, Out.bind_eq_ok] at g2
    obtain ⟨-, -, w1, g3, g4⟩ := g2
    cases g4
    have h2 := physSize_ge size
    have h3 := Nat.le_max_left (physSize size) (o.physical + o.physical / 2)
    refine ⟨_, ⟨o.logical, max (physSize size) (o.physical + o.physical / 2), some w.next⟩, rfl, ?_, rfl, by simp only; omega, hx, h0, by simp only; omega, by simp⟩
    simp only [World.set, World.add, release_objs g3]
  · rw [if_neg hc] at g2
    cases g2
    refine ⟨_, o, rfl, ?_, rfl, by omega, hx, h0, hp, hl⟩
    funext k
    simp only [World.set]
    split
    · rename_i hk; rw [hk, ho]
    · rfl

theorem appendText_objs {i l : Nat} {w : World} {e : End} (h : SMem.appendText true i l w = .ok e) {x : Option Nat} {o : Obj}
    (ho : w.objs i = some o) (hs : Sized x (some o)) :
    ∃ w' o', e = .done w' ∧ w'.objs = (w.set i (some o')).objs ∧ Sized (some (o.logical - 1 + l)) (some o') := by
  unfold SMem.appendText at h
  by_cases hc : l > 0
  · rw [if_pos hc] at h
    simp only [get_some ho, Out.ok_bind] at h
    rw [Out.bind_eq_ok] at h
    obtain ⟨e1, g1, g2⟩ := h
    obtain ⟨w1, o1, rfl, h2, h3, h4, h5⟩ := grow_objs g1 ho hs (by omega)
    obtain ⟨w2, o2, rfl, h6, h7⟩ := andThen_objs g2
    rw [h2, set_objs] at h6
    cases h6
    refine ⟨w2, ⟨o.logical + l, o1.physical, o1.ptr⟩, rfl, ?_, ?_, ?_, ?_, h5.2.2.2⟩
    · rw [h7]
      simp only [World.set, h2]
      funext k
      split <;> rfl
    · have := hs.2.1
      simp only; congr 1; omega
    · have := hs.2.1
      simp only; omega
    · simp only; omega
  · rw [if_neg hc] at h
    cases h
    have : l = 0 := by omega
    subst this
    refine ⟨_, o, rfl, ?_, by rw [Nat.add_zero]; exact ⟨rfl, hs.2⟩⟩
    funext k
    simp only [World.set]
    split
    · rename_i hk; rw [hk, ho]
    · rfl

theorem moved_sized {x : Option Nat} {t : Obj} (h : Sized x (some t)) : ∃ y, Sized (some y) (some (SMem.movedFrom t)) := by
  unfold SMem.movedFrom
  cases hp : t.ptr with
  | none => exact ⟨_, rfl, h.2⟩
  | some b => exact ⟨0, rfl, by simp, by simp, by simp⟩

theorem step_lens {w : World} {L : Lens} (h : HasLens w L) (o : Op) (hl : o.legal w = true) (hs : Sensible o) {e : End}
    (he : o.run true w = .ok e) : ∃ L', LenStep L L' o ∧ HasLens e.world L' := by
  have hof : ∀ i, (w.objs i).isSome = true → ∃ ob, w.objs i = some ob ∧ Sized (L i) (some ob) := by
    intro i hi
    obtain ⟨ob, hob⟩ := Option.isSome_iff_exists.1 hi
    have := h i
    rw [hob] at this
    exact ⟨ob, hob, this⟩
  have purged : ∀ i, SMem.purge i w = .ok e → ∃ L', Only i (some 0) L L' ∧ HasLens e.world L' := by
    intro i hi
    obtain ⟨w', rfl, h1⟩ := purge_objs hi
    exact only_set' h h1 ⟨rfl, by simp, by simp, by simp⟩
  cases o with
  | newText i l =>
    simp only [Op.run, construct] at he
    split at he
    · cases he
      exact only_set' (w' := (w.add (physSize (l + 1))).set i _) h rfl ⟨by simp, by simp, physSize_ge _, by simp⟩
    · cases he
      exact only_set' h rfl ⟨by simp, by simp, by simp only; omega, by simp⟩
  | newInt i k =>
    cases he
    simp only [Sensible] at hs
    exact only_set' h rfl ⟨by simp, by simp, by simp only; omega, by simp⟩
  | newInt64 i k =>
    cases he
    simp only [Sensible] at hs
    exact only_set' (w' := (w.add 64).set i _) h rfl ⟨by simp, by simp, by simp only; omega, by simp⟩
  | newPlusInt i l k =>
    cases he
    simp only [Sensible] at hs
    have := physSize_ge (l + 64)
    exact only_set' (w' := (w.add (physSize (l + 64))).set i _) h rfl ⟨by simp, by simp, by simp only; omega, by simp⟩
  | newCopy i j =>
    simp only [Op.legal, Bool.and_eq_true] at hl
    obtain ⟨t, ht, hx⟩ := hof j hl.2
    simp only [Op.run, SMem.newCopy, get_some ht, Out.ok_bind] at he
    obtain ⟨h1, h2, h3, h4⟩ := hx
    split at he
    · rw [Out.bind_eq_ok] at he
      obtain ⟨-, -, he⟩ := he
      cases he
      exact only_set' (w' := (w.add (physSize t.logical)).set i _) h rfl ⟨h1, h2, physSize_ge _, by simp⟩
    · cases he
      exact only_set' h rfl ⟨h1, h2, by simp only; omega, by simp⟩
  | newMove i j =>
    simp only [Op.legal, Bool.and_eq_true] at hl
    obtain ⟨t, ht, hx⟩ := hof j hl.2
    have hij : i ≠ j := by
      rintro rfl
      rw [ht] at hl
      simp at hl
    simp only [Op.run, SMem.newMove, get_some ht, Out.ok_bind] at he
    cases he
    obtain ⟨y, hy⟩ := moved_sized hx
    obtain ⟨L1, h1, h2⟩ := only_set h (i := j) hy rfl
    obtain ⟨L2, h3, h4⟩ := only_set h2 (i := i) hx rfl
    refine ⟨L2, ⟨fun _ => h3.1, ?_, fun k hi hj => ?_⟩, h4⟩
    · rw [h3.2 j hij.symm, h1.1]; rfl
    · rw [h3.2 k hi, h1.2 k hj]
  | destroy i =>
    simp only [Op.run, SMem.destroy, Out.bind_eq_ok] at he
    obtain ⟨o, -, w1, h1, h2⟩ := he
    cases h2
    exact only_set h (o := none) rfl (by simp only [World.set, End.world, release_objs h1])
  | purge i => exact purged i he
  | setText i l =>
    obtain ⟨o, ho, hx⟩ := hof i hl
    simp only [Op.run, SMem.setText] at he
    split at he
    · rw [Out.bind_eq_ok] at he
      obtain ⟨e1, g1, g2⟩ := he
      obtain ⟨w1, o1, rfl, h2, h3, h4⟩ := resize_objs g1 ho hx (by omega)
      obtain ⟨w2, o2, rfl, h6, h7⟩ := andThen_objs g2
      rw [h2, set_objs] at h6
      cases h6
      exact only_set h h4 (by simp only [End.world, h7, World.set, h2, id]; funext k; split <;> rfl)
    · have : l = 0 := by omega
      subst this
      exact purged i he
  | setInt i k =>
    obtain ⟨o, ho, hx⟩ := hof i hl
    simp only [Sensible] at hs
    simp only [Op.run, SMem.setInt, Out.bind_eq_ok] at he
    obtain ⟨e1, g1, g2⟩ := he
    obtain ⟨w1, o1, rfl, h2, h3, -, h4, h5, h5'⟩ := resize_objs g1 ho hx (by omega)
    obtain ⟨w2, o2, rfl, h6, h7⟩ := andThen_objs g2
    rw [h2, set_objs] at h6
    cases h6
    exact only_set h (o := some { o1 with logical := k + 1 }) ⟨by simp, by simp, by simp only; omega, h5'⟩
      (by simp only [End.world, h7, World.set, h2]; funext k; split <;> rfl)
  | assign i j =>
    simp only [Op.legal, Bool.and_eq_true, bne_iff_ne, ne_eq] at hl
    obtain ⟨o, ho, hx⟩ := hof i hl.1.1
    obtain ⟨t, ht, hy⟩ := hof j hl.1.2
    simp only [Op.run, SMem.assign, if_neg hl.2, get_some ht, Out.ok_bind] at he
    obtain ⟨h1, h1', -, -⟩ := hy
    split at he
    · rw [Out.bind_eq_ok] at he
      obtain ⟨e1, g1, g2⟩ := he
      rw [Out.bind_eq_ok] at g2
      obtain ⟨-, -, g2⟩ := g2
      obtain ⟨w1, o1, rfl, h2, h3, h4⟩ := resize_objs g1 ho hx (by omega)
      obtain ⟨w2, o2, rfl, h6, h7⟩ := andThen_objs g2
      rw [h2, set_objs] at h6
      cases h6
      simp only [LenStep]
      rw [h1]
      exact only_set h h4 (by simp only [End.world, h7, World.set, h2, id]; funext k; split <;> rfl)
    · simp only [LenStep]
      rw [h1, show t.logical - 1 = 0 by omega]
      exact purged i he
  | moveAssign i j =>
    simp only [Op.legal, Bool.and_eq_true] at hl
    obtain ⟨o, ho, hx⟩ := hof i hl.1
    obtain ⟨t, ht, hy⟩ := hof j hl.2
    simp only [Op.run, SMem.moveAssign, get_some ho, Out.ok_bind] at he
    rw [Out.bind_eq_ok] at he
    obtain ⟨w1, g1, g2⟩ := he
    have hw := release_objs g1
    rw [Out.bind_eq_ok] at g2
    obtain ⟨t', g3, g4⟩ := g2
    have := get_ok g3
    rw [hw, ht] at this
    cases this
    have hw1 : HasLens w1 L := by intro k; rw [hw]; exact h k
    by_cases hij : i = j
    · subst hij
      rw [if_pos rfl] at g4
      cases g4
      obtain ⟨y, hy⟩ := moved_sized hx
      obtain ⟨L1, h1, h2⟩ := only_set hw1 (i := i) hy rfl
      exact ⟨L1, ⟨fun hne => absurd rfl hne, by rw [h1.1]; rfl, fun k hk _ => h1.2 k hk⟩, h2⟩
    · rw [if_neg hij] at g4
      cases g4
      obtain ⟨y, hz⟩ := moved_sized hy
      obtain ⟨L1, h1, h2⟩ := only_set hw1 (i := j) hz rfl
      obtain ⟨L2, h3, h4⟩ := only_set h2 (i := i) hy rfl
      refine ⟨L2, ⟨fun _ => h3.1, ?_, fun k hi hj => ?_⟩, h4⟩
      · rw [h3.2 j (Ne.symm hij), h1.1]; rfl
      · rw [h3.2 k hi, h1.2 k hj]
  | append i j =>
    simp only [Op.legal, Bool.and_eq_true, bne_iff_ne, ne_eq] at hl
    obtain ⟨o, ho, hx⟩ := hof i hl.1.1
    obtain ⟨t, ht, hy⟩ := hof j hl.1.2
    simp only [Op.run, SMem.append, if_neg hl.2, get_some ht, Out.ok_bind] at he
    simp only [LenStep, hx.1, hy.1, Option.getD_some]
    have h0 := hy.2.1
    split at he
    · rw [Out.bind_eq_ok] at he
      obtain ⟨-, -, he⟩ := he
      obtain ⟨w1, o1, rfl, h2, h3⟩ := appendText_objs he ho hx
      exact only_set h h3 h2
    · cases he
      rw [show t.logical - 1 = 0 by omega, Nat.add_zero, ← hx.1]
      exact ⟨L, ⟨rfl, fun _ _ => rfl⟩, h⟩
  | appendText i l =>
    obtain ⟨o, ho, hx⟩ := hof i hl
    simp only [LenStep, hx.1, Option.getD_some]
    obtain ⟨w1, o1, rfl, h2, h3⟩ := appendText_objs he ho hx
    exact only_set h h3 h2
  | appendInt i k =>
    obtain ⟨o, ho, hx⟩ := hof i hl
    simp only [Sensible] at hs
    simp only [LenStep, hx.1, Option.getD_some]
    simp only [Op.run, SMem.appendInt, get_some ho, Out.ok_bind] at he
    rw [Out.bind_eq_ok] at he
    obtain ⟨e1, g1, g2⟩ := he
    obtain ⟨w1, o1, rfl, h2, h3, h4, -, h5, h5', h5''⟩ := grow_objs g1 ho hx (by omega)
    obtain ⟨w2, o2, rfl, h6, h7⟩ := andThen_objs g2
    rw [h2, set_objs] at h6
    cases h6
    exact only_set h (o := some { o1 with logical := o1.logical + k })
      ⟨by simp only; congr 1; omega, by simp only; omega, by simp only; omega, h5''⟩
      (by simp only [End.world, h7, World.set, h2]; funext k; split <;> rfl)
  | setLength i n =>
    obtain ⟨o, ho, hx⟩ := hof i hl
    simp only [Sensible] at hs
    simp only [Op.run, SMem.setLength] at he
    split at he
    · rename_i hn
      simp only [get_some ho, Out.ok_bind] at he
      split at he
      · rename_i hne
        rw [if_pos (by omega)] at he
        obtain ⟨hx1, hx2, hx3, hx4⟩ := hx
        split at he
        · simp only [if_true] at he
          rw [Out.bind_eq_ok] at he
          obtain ⟨e1, g1, g2⟩ := he
          rw [Out.bind_eq_ok] at g1
          obtain ⟨-, -, g1⟩ := g1
          rw [Out.bind_eq_ok] at g1
          obtain ⟨w1, g3, g1⟩ := g1
          cases g1
          obtain ⟨w2, o2, rfl, h6, h7⟩ := andThen_objs g2
          rw [set_objs] at h6
          cases h6
          exact only_set h (o := some ⟨n + 1, physSize (n + 1), some w.next⟩) ⟨by simp, by simp, physSize_ge _, by simp⟩
            (by simp only [End.world, h7, World.set, release_objs g3, World.add, id]; funext k; split <;> rfl)
        · simp only [Out.ok_bind] at he
          obtain ⟨w2, o2, rfl, h6, h7⟩ := andThen_objs he
          rw [set_objs] at h6
          cases h6
          exact only_set h (o := some { o with logical := n + 1 }) ⟨by simp, by simp, by simp only; omega, hx4⟩
            (by simp only [End.world, h7, World.set, id]; funext k; split <;> rfl)
      · rename_i hne
        cases he
        have : n = o.logical - 1 := by omega
        refine ⟨L, ⟨by rw [hx.1, this], fun _ _ => rfl⟩, h⟩
    · have : n = 0 := by omega
      subst this
      exact purged i he
  | encode any i n =>
    obtain ⟨o, ho, hx⟩ := hof i hl
    simp only [Sensible] at hs
    simp only [Op.run, SMem.encode, get_some ho, Out.ok_bind] at he
    rw [Out.bind_eq_ok] at he
    obtain ⟨-, -, he⟩ := he
    cases any with
    | true =>
      simp only [if_true] at he
      rw [Out.bind_eq_ok] at he
      obtain ⟨w1, g1, g2⟩ := he
      cases g2
      exact only_set h (o := some ⟨n, physSize n, some w.next⟩) ⟨by simp, hs, physSize_ge _, by simp⟩
        (by simp only [End.world, World.set, release_objs g1, World.add])
    | false =>
      simp only [Bool.false_eq_true, if_false] at he
      cases he
      exact ⟨L, ⟨by simp, fun _ _ => rfl⟩, h⟩

theorem steps_lens (ops : List (Op × Bool)) (hm : Granted ops) (hs : ∀ x ∈ ops, Sensible x.1) : ∀ (w : World) (L : Lens), HasLens w L →
    ∀ w', runAll ops w = .ok w' → ∃ L', LenSteps (ops.map Prod.fst) w L L' ∧ HasLens w' L' := by
  induction ops with
  | nil => intro w L h w' e; cases e; exact ⟨L, .nil, h⟩
  | cons x ops ih =>
    intro w L h w' e
    obtain ⟨o, mem⟩ := x
    have hmem : mem = true := hm (o, mem) (by simp)
    subst hmem
    have ih := ih (fun x hx => hm x (by simp [hx])) (fun x hx => hs x (by simp [hx]))
    simp only [runAll] at e
    by_cases hl : o.legal w = true
    · rw [if_pos hl, Out.bind_eq_ok] at e
      obtain ⟨e1, g1, g2⟩ := e
      obtain ⟨L1, h1, h2⟩ := step_lens h o hl (hs (o, true) (by simp)) g1
      obtain ⟨L2, h3, h4⟩ := ih _ _ h2 _ g2
      exact ⟨L2, .step hl g1 h1 h3, h4⟩
    · rw [if_neg hl] at e
      obtain ⟨L2, h3, h4⟩ := ih _ _ h _ e
      exact ⟨L2, .skip (by simpa using hl) h3, h4⟩

/-- **C133**, lengths: as long as memory is granted, after every history every string has the length that the operations
describe, and room for its text: `logicalSize` is at most `physicalSize`, which is the size of the block (or 16 for
`localString`). `SetStringLength` to lengths between 1 and 15 is left out (C42). -/
theorem C133_lengths (ops : List (Op × Bool)) (hm : Granted ops) (hs : ∀ x ∈ ops, Sensible x.1) :
    ∃ w L, runAll ops World.empty = .ok w ∧ OneOwner Eq w ∧ LenSteps (ops.map Prod.fst) World.empty (fun _ => none) L ∧ HasLens w L := by
  obtain ⟨w, h1, h2, -⟩ := C133_blocks_owned ops hm
  obtain ⟨L, h3, h4⟩ := steps_lens ops hm hs World.empty (fun _ => none) (fun _ => rfl) w h1
  exact ⟨w, L, h1, h2, h3, h4⟩

/-- A history with a copy, a number and a concatenation: lengths 100 and 103. -/
example : ∃ w, runAll [(.newText 0 100, true), (.newCopy 1 0, true), (.appendInt 1 3, true), (.newInt 2 5, true), (.moveAssign 0 1, true)] World.empty = .ok w ∧
    (List.range 4).map w.objs = [some ⟨104, 192, some 2⟩, some ⟨1, 16, none⟩, some ⟨6, 16, none⟩, none] :=
  ⟨_, rfl, rfl⟩

/-- Without the restriction: `SetStringLength(5)` on a string with a block leaves a `physicalSize` of 128 for 16 bytes. -/
theorem C133_lengths_short : ∃ w o, runAll [(.newText 0 100, true), (.setLength 0 5, true)] World.empty = .ok w ∧ w.objs 0 = some o ∧
    o.ptr = none ∧ o.physical = 128 :=
  ⟨_, ⟨6, 128, none⟩, rfl, rfl, rfl, rfl⟩

end Verif.Props
