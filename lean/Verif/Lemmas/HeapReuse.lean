import Verif.Model.HeapReuse
import Verif.Lemmas.Heap

/-!
# Accounting for value objects when serializing onto existing values
-/

namespace Verif.Own

open Verif Verif.Text Verif.Number Verif.Parser

variable {D : Type}

theorem serVectorH_grew (M : Mem) (l : DatL) (acc : OList D) (h h0 : Heap) (X L0 : List Nat)
    (g : Grew h0 h (acc.reach ++ (L0 ++ X))) :
    ∃ st acc' h' L, serVectorH M l acc h = .ok (st, acc', h') ∧ Grew h0 h' (acc'.reach ++ (L ++ X)) ∧
      h.refused ≤ h'.refused ∧ (SlotOk M → h'.refused = h.refused → L0 = [] → L = []) := by
  match l with
  | .nil => exact ⟨_, acc, h, L0, rfl, g, Nat.le_refl _, fun _ _ e => e⟩
  | .cons d l =>
    unfold serVectorH
    rcases newValue_grew g M .value with ⟨h1, e1, g1, hr1, -⟩ | ⟨b, h1, e1, g1, hr1⟩
    · rw [e1]
      exact ⟨_, acc, h1, L0, rfl, g1, by omega, fun _ _ e => e⟩
    · rw [e1]
      obtain ⟨st, v, h2, L, e2, g2, hle2, hL2⟩ := serialH_grew M d b h1 h0 _ g1
      have g2' : Grew h0 h2 ((acc.snoc v).reach ++ ((L ++ L0) ++ X)) := by
        refine g2.perm ?_
        rw [olist_reach_snoc]; grind
      simp only [e2, Out.ok_bind]
      by_cases hst : st = .kOk
      · rw [if_neg (by simpa using hst)]
        obtain ⟨st', acc', h3, L', e3, g3, hle3, hL3⟩ := serVectorH_grew M l (acc.snoc v) h2 h0 X (L ++ L0) g2'
        refine ⟨st', acc', h3, L', e3, g3, by omega, fun hs he h0 => hL3 hs (by omega) ?_⟩
        rw [hL2 hs (by omega), h0]; rfl
      · rw [if_pos hst]
        refine ⟨st, acc.snoc v, h2, L ++ L0, rfl, g2', by omega, fun hs he h0 => ?_⟩
        rw [hL2 hs (by omega), h0]; rfl

theorem serItemsH_grew (M : Mem) (l : DatM) (acc : OList D) (h h0 : Heap) (X L0 : List Nat)
    (g : Grew h0 h (acc.reach ++ (L0 ++ X))) :
    ∃ st acc' h' L, serItemsH M l acc h = .ok (st, acc', h') ∧ Grew h0 h' (acc'.reach ++ (L ++ X)) ∧
      h.refused ≤ h'.refused ∧ (SlotOk M → h'.refused = h.refused → L0 = [] → L = []) := by
  match l with
  | .nil => exact ⟨_, acc, h, L0, rfl, g, Nat.le_refl _, fun _ _ e => e⟩
  | .cons _ d l =>
    unfold serItemsH
    rcases newValue_grew g M .value with ⟨h1, e1, g1, hr1, -⟩ | ⟨b, h1, e1, g1, hr1⟩
    · rw [e1]
      exact ⟨_, acc, h1, L0, rfl, g1, by omega, fun _ _ e => e⟩
    · rw [e1]
      simp only
      obtain ⟨gq, hrq⟩ := request_grew g1 M .slot
      cases hm : request M .slot h1 with
      | mk ok h2 =>
      rw [hm] at gq hrq
      simp only at gq hrq
      cases ok with
      | false =>
        obtain ⟨h3, e3, g3, hr3⟩ := Grew.freeAll [b] (L := acc.reach ++ (L0 ++ X)) gq
        have e3' : free b h2 = .ok h3 := by
          simp only [freeAll] at e3
          cases hf : free b h2 <;> rw [hf] at e3 <;> simp_all
        simp only [e3', Out.ok_bind]
        exact ⟨_, acc, h3, L0, rfl, g3, by omega, fun _ _ e => e⟩
      | true =>
        obtain ⟨st, v, h3, L, e2, g2, hle2, hL2⟩ := serialH_grew M d b h2 h0 _ gq
        have g2' : Grew h0 h3 ((acc.snoc v).reach ++ ((L ++ L0) ++ X)) := by
          refine g2.perm ?_
          rw [olist_reach_snoc]; grind
        simp only [e2, Out.ok_bind]
        by_cases hst : st = .kOk
        · rw [if_neg (by simpa using hst)]
          obtain ⟨st', acc', h4, L', e3, g3, hle3, hL3⟩ := serItemsH_grew M l (acc.snoc v) h3 h0 X (L ++ L0) g2'
          refine ⟨st', acc', h4, L', e3, g3, by omega, fun hs he h0 => hL3 hs (by omega) ?_⟩
          rw [hL2 hs (by omega), h0]; rfl
        · rw [if_pos hst]
          refine ⟨st, acc.snoc v, h3, L ++ L0, rfl, g2', by omega, fun hs he h0 => ?_⟩
          rw [hL2 hs (by omega), h0]; rfl

/-- The call does not forget members. -/
def Onto.Kind : Onto → Prop
  | .data (.map _) => False
  | _ => True

/-- What a call on a value does: it is defined, what was reachable or is new is reachable, or leaked. -/
def Accounted (M : Mem) (r : Out (Status × OVal D × Heap)) (kind : Prop) (h h0 : Heap) (X : List Nat) : Prop :=
  ∃ st v h' L, r = .ok (st, v, h') ∧ Grew h0 h' (v.reach ++ (L ++ X)) ∧ h.refused ≤ h'.refused ∧
    (kind → SlotOk M → h'.refused = h.refused → L = [])

theorem accounted_same (M : Mem) (st : Status) {v : OVal D} {kind : Prop} {h h0 : Heap} {X : List Nat}
    (g : Grew h0 h (v.reach ++ X)) : Accounted M (.ok (st, v, h)) kind h h0 X :=
  ⟨st, v, h, [], rfl, g, Nat.le_refl _, fun _ _ _ => rfl⟩

theorem ontoH_accounted (M : Mem) (o : Onto) (v : OVal D) {h h0 : Heap} {X : List Nat} (g : Grew h0 h (v.reach ++ X)) :
    Accounted M (ontoH M o v h) o.Kind h h0 X := by
  unfold ontoH
  split
  · exact ⟨_, _, h, [], rfl, by simpa [OVal.reach] using g, Nat.le_refl _, fun _ _ _ => rfl⟩
  · obtain ⟨gq, hrq⟩ := request_grew g M .text
    rename_i a x
    cases hm : request M .text h with
    | mk b h2 =>
    rw [hm] at gq hrq
    simp only at gq hrq
    cases b <;>
      exact ⟨_, _, h2, [], rfl, by simpa [OVal.reach] using gq, by omega, fun _ _ _ => rfl⟩
  · rename_i l a old
    obtain ⟨h1, e1, g1, hr1⟩ := Grew.freeAll (h := h0) (h' := h) old.reach (L := a :: X) (g.perm (by simp only [OVal.reach]; grind))
    obtain ⟨gq, hrq⟩ := request_grew g1 M .slot
    simp only [e1, Out.ok_bind]
    cases hm : request M .slot h1 with
    | mk b h2 =>
    rw [hm] at gq hrq
    simp only at gq hrq
    cases b with
    | false => exact ⟨_, _, h2, [], rfl, by simpa [OVal.reach, OList.reach] using gq, by omega, fun _ _ _ => rfl⟩
    | true =>
      obtain ⟨st, acc, h3, L, e, g3, hle, hL⟩ := serElemsH_grew M l (.nil : OList D) h2 h0 (a :: X) [] (by
        simpa [OList.reach] using gq)
      refine ⟨st, .arr a acc, h3, L, ?_, g3.perm ?_, by omega, fun _ hs he => hL hs (by omega) rfl⟩
      · simp only [e, Out.ok_bind]
      · simp only [OVal.reach]; grind
  · rename_i l a old
    obtain ⟨h1, e1, g1, hr1⟩ := Grew.freeAll (h := h0) (h' := h) old.reach (L := a :: X) (g.perm (by simp only [OVal.reach]; grind))
    obtain ⟨gq, hrq⟩ := request_grew g1 M .slot
    simp only [e1, Out.ok_bind]
    cases hm : request M .slot h1 with
    | mk b h2 =>
    rw [hm] at gq hrq
    simp only at gq hrq
    cases b with
    | false => exact ⟨_, _, h2, [], rfl, by simpa [OVal.reach, OList.reach] using gq, by omega, fun _ _ _ => rfl⟩
    | true =>
      obtain ⟨st, acc, h3, L, e, g3, hle, hL⟩ := serVectorH_grew M l (.nil : OList D) h2 h0 (a :: X) [] (by
        simpa [OList.reach] using gq)
      refine ⟨st, .arr a acc, h3, L, ?_, g3.perm ?_, by omega, fun _ hs he => hL hs (by omega) rfl⟩
      · simp only [e, Out.ok_bind]
      · simp only [OVal.reach]; grind
  · rename_i m a old
    obtain ⟨st, acc, h3, L, e, g3, hle, -⟩ := serMapH_grew M m (.nil : OMem D) h h0 (a :: (old.reach ++ X)) [] (by
      simpa [OMem.reach, OVal.reach] using g)
    refine ⟨st, .obj a acc, h3, L ++ old.reach, ?_, g3.perm ?_, by omega, fun hk => hk.elim⟩
    · simp only [e, Out.ok_bind]
    · simp only [OVal.reach]; grind
  · rename_i m a old
    obtain ⟨st, acc, h3, L, e, g3, hle, hL⟩ := serFieldsH_grew M m old h h0 (a :: X) [] (g.perm (by
      simp only [OVal.reach]; grind))
    refine ⟨st, .obj a acc, h3, L, ?_, g3.perm ?_, by omega, fun _ hs he => hL hs (by omega) rfl⟩
    · simp only [e, Out.ok_bind]
    · simp only [OVal.reach]; grind
  · rename_i m a old
    obtain ⟨st, acc, h3, L, e, g3, hle, hL⟩ := serItemsH_grew M m old h h0 (a :: X) [] (g.perm (by
      simp only [OVal.reach]; grind))
    refine ⟨st, .arr a acc, h3, L, ?_, g3.perm ?_, by omega, fun _ hs he => hL hs (by omega) rfl⟩
    · simp only [e, Out.ok_bind]
    · simp only [OVal.reach]; grind
  · rename_i name d a old
    obtain ⟨st, acc, h3, L, e, g3, hle, hL⟩ := serFieldsH_grew M (.cons name d .nil) old h h0 (a :: X) [] (g.perm (by
      simp only [OVal.reach]; grind))
    refine ⟨st, .obj a acc, h3, L, ?_, g3.perm ?_, by omega, fun _ hs he => hL hs (by omega) rfl⟩
    · simp only [e, Out.ok_bind]
    · simp only [OVal.reach]; grind
  · rename_i name d a old
    obtain ⟨st, acc, h3, L, e, g3, hle, hL⟩ := serItemsH_grew M (.cons name d .nil) old h h0 (a :: X) [] (g.perm (by
      simp only [OVal.reach]; grind))
    refine ⟨st, .arr a acc, h3, L, ?_, g3.perm ?_, by omega, fun _ hs he => hL hs (by omega) rfl⟩
    · simp only [e, Out.ok_bind]
    · simp only [OVal.reach]; grind
  · exact accounted_same M _ g

theorem olist_nth : ∀ (l : OList D) (i : Nat) (x : OVal D), l.nth i = some x →
    ∃ rest, l.reach.Perm (x.reach ++ rest) ∧ ∀ x', (l.put i x').reach.Perm (x'.reach ++ rest)
  | .nil, _, _, h => by simp [OList.nth] at h
  | .cons v l, 0, x, h => by
    simp only [OList.nth, Option.some.injEq] at h; subst h
    exact ⟨l.reach, by simp [OList.reach], fun x' => by simp [OList.put, OList.reach]⟩
  | .cons v l, i + 1, x, h => by
    obtain ⟨rest, h1, h2⟩ := olist_nth l i x h
    refine ⟨v.reach ++ rest, ?_, fun x' => ?_⟩
    · simp only [OList.reach]; grind
    · have := h2 x'
      simp only [OList.put, OList.reach]; grind

theorem omem_nth : ∀ (l : OMem D) (i : Nat) (x : OVal D), l.nth i = some x →
    ∃ rest, l.reach.Perm (x.reach ++ rest) ∧ ∀ x', (l.put i x').reach.Perm (x'.reach ++ rest)
  | .nil, _, _, h => by simp [OMem.nth] at h
  | .cons k b v l, 0, x, h => by
    cases b with
    | false => simp [OMem.nth] at h
    | true =>
      simp only [OMem.nth, if_true, Option.some.injEq] at h; subst h
      exact ⟨l.reach, by simp [OMem.reach], fun x' => by simp [OMem.put, OMem.reach]⟩
  | .cons k b v l, i + 1, x, h => by
    obtain ⟨rest, h1, h2⟩ := omem_nth l i x h
    refine ⟨(if b then v.reach else []) ++ rest, ?_, fun x' => ?_⟩
    · simp only [OMem.reach]; grind
    · have := h2 x'
      simp only [OMem.put, OMem.reach]; grind

theorem ontoAtH_accounted (M : Mem) (o : Onto) : ∀ (p : List Nat) (v : OVal D) {h h0 : Heap} {X : List Nat},
    Grew h0 h (v.reach ++ X) → Accounted M (ontoAtH M o p v h) o.Kind h h0 X
  | [], v, _, _, _, g => ontoH_accounted M o v g
  | _ :: _, .leaf _ _, _, _, _, g => accounted_same M _ g
  | i :: p, .arr a l, h, h0, X, g => by
    unfold ontoAtH
    split
    · exact accounted_same M _ g
    · rename_i x hx
      obtain ⟨rest, h1, h2⟩ := olist_nth l i x hx
      obtain ⟨st, x', h', L, e, g', hle, hL⟩ := ontoAtH_accounted M o p x (X := a :: (rest ++ X)) (g.perm (by
        simp only [OVal.reach]; grind))
      refine ⟨st, .arr a (l.put i x'), h', L, by simp only [e, Out.ok_bind], g'.perm ?_, hle, hL⟩
      have := h2 x'
      simp only [OVal.reach]; grind
  | i :: p, .obj a l, h, h0, X, g => by
    unfold ontoAtH
    split
    · exact accounted_same M _ g
    · rename_i x hx
      obtain ⟨rest, h1, h2⟩ := omem_nth l i x hx
      obtain ⟨st, x', h', L, e, g', hle, hL⟩ := ontoAtH_accounted M o p x (X := a :: (rest ++ X)) (g.perm (by
        simp only [OVal.reach]; grind))
      refine ⟨st, .obj a (l.put i x'), h', L, by simp only [e, Out.ok_bind], g'.perm ?_, hle, hL⟩
      have := h2 x'
      simp only [OVal.reach]; grind

end Verif.Own
