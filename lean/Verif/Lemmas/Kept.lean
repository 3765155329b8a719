import Verif.Spec.Kept
import Verif.Lemmas.Workflow
import Verif.Lemmas.Layers

/-!
# What saving keeps
-/

namespace Verif.Serial

open Verif Verif.Map Verif.Text Verif.Number Verif.Parser Verif.Doc Verif.Write Verif.Spec Verif.B64 Verif.Props

variable {D : Type}

/-! ## Values that are written alike -/

/-- Two values for which `Write` does the same. -/
def WrittenAlike (N : NumOps D) (il : Nat) (ic : Byte) (v v' : Value D) : Prop :=
  ∀ n ind, writeValue N il ic n ind v = writeValue N il ic n ind v'

theorem WrittenAlike.refl (N : NumOps D) (il : Nat) (ic : Byte) (v : Value D) : WrittenAlike N il ic v v := fun _ _ => rfl

/-- Members under the same names that are written alike. -/
def MembersAlike (N : NumOps D) (il : Nat) (ic : Byte) (m m' : Tree Bytes (Value D)) : Prop :=
  ∀ k, (findMapElement nameLt k m = none ∧ findMapElement nameLt k m' = none) ∨
    ∃ x x', findMapElement nameLt k m = some (k, x) ∧ findMapElement nameLt k m' = some (k, x') ∧ WrittenAlike N il ic x x'

theorem elems_alike {N : NumOps D} {il : Nat} {ic : Byte} {α : Type} (f g : α → Value D) (l : List α)
    (h : ∀ x ∈ l, WrittenAlike N il ic (f x) (g x)) : WrittenAlike N il ic (.arr (l.map f)) (.arr (l.map g)) := by
  intro n ind
  cases n with
  | zero => rfl
  | succ n =>
    simp only [writeValue]
    have : ∀ ind, writeElems (writeValue N il ic n) (l.map f) ind = writeElems (writeValue N il ic n) (l.map g) ind := by
      induction l with
      | nil => intro ind; rfl
      | cons x l ih =>
        intro ind
        simp only [List.map_cons, writeElems, h x (by simp) n ind]
        simp only [ih (fun y hy => h y (by simp [hy])), List.isEmpty_map]
    rw [this]

theorem obj_alike {N : NumOps D} {il : Nat} {ic : Byte} {m m' : Tree Bytes (Value D)} (h : MembersAlike N il ic m m') (o : List Bytes) :
    WrittenAlike N il ic (.obj m o) (.obj m' o) := by
  intro n ind
  cases n with
  | zero => rfl
  | succ n =>
    simp only [writeValue]
    have : ∀ ind, writeMembers (writeValue N il ic n) m o ind = writeMembers (writeValue N il ic n) m' o ind := by
      induction o with
      | nil => intro ind; rfl
      | cons k o ih =>
        intro ind
        simp only [writeMembers]
        rcases h k with ⟨h1, h2⟩ | ⟨x, x', h1, h2, h3⟩
        · rw [h1, h2]
        · rw [h1, h2]
          simp only [h3 n ind, ih]
    rw [this]

theorem empty_alike {N : NumOps D} {il : Nat} {ic : Byte} (m m' : Tree Bytes (Value D)) : WrittenAlike N il ic (.obj m []) (.obj m' []) := by
  intro n ind
  cases n <;> rfl

/-! ## Serialized maps are written as if they were empty -/

variable (N : NumOps D) (il : Nat) (ic : Byte) (init : D)

mutual
theorem ser_emptied : ∀ (t : Ty), t.Plain → ∀ (d : t.Den D), t.Wf d →
    ∃ w w', serialize init t d (createValueFor init t) = .ok (.kOk, w) ∧
      serialize init t (t.emptied d) (createValueFor init t) = .ok (.kOk, w') ∧ WrittenAlike N il ic w w'
  | .str, _, _, _ => ⟨_, _, rfl, rfl, fun _ _ => rfl⟩
  | .num, _, _, _ => ⟨_, _, rfl, rfl, fun _ _ => rfl⟩
  | .bool, _, _, _ => ⟨_, _, rfl, rfl, fun _ _ => rfl⟩
  | .null, _, _, _ => ⟨_, _, rfl, rfl, fun _ _ => rfl⟩
  | .stdString, _, _, _ => ⟨_, _, rfl, rfl, fun _ _ => rfl⟩
  | .arr t, hp, d, hw => by
    have ih := ser_emptied t hp
    refine ⟨_, _, serElems_spec _ d [] ?_, serElems_spec _ (d.map t.emptied) [] ?_, ?_⟩
    · intro x hx
      obtain ⟨w, w', e, -, -⟩ := ih x (hw x hx)
      rw [e]; rfl
    · intro y hy
      obtain ⟨x, hx, rfl⟩ := List.mem_map.1 hy
      obtain ⟨w, w', -, e, -⟩ := ih x (hw x hx)
      rw [e]; rfl
    · rw [List.map_map]
      apply elems_alike
      intro x hx
      obtain ⟨w, w', e, e', h⟩ := ih x (hw x hx)
      simp only [Function.comp_apply, e, e', resVal]
      exact h
  | .map t, hp, d, hw => by
    have ih := ser_emptied t hp
    obtain ⟨m', h1, -, -⟩ := serEntries_spec (fun x => serialize init t x (createValueFor init t)) id [] d .nil
      treeOk_nil (by
        intro e he
        obtain ⟨w, w', e', -⟩ := ih e.2 (hw.2 e he)
        simp only [e', resVal, id, and_self]) hw.1 (by simp [toList])
    exact ⟨_, _, h1, rfl, empty_alike _ _⟩
  | .vec _, hp, _, _ => hp.elim
  | .stdMap t, hp, d, hw => by
    have ih := ser_emptied t hp
    obtain ⟨m', h1, -, -⟩ := serEntries_spec (fun x => serialize init t x (createValueFor init t)) cText [] d .nil
      treeOk_nil (by
        intro e he
        obtain ⟨w, w', e', -⟩ := ih e.2 (hw.2 e he).2
        simp only [e', resVal, cText_nul_free (hw.2 e he).1, and_self]) hw.1 (by simp [toList])
    exact ⟨_, _, h1, rfl, empty_alike _ _⟩
  | .struct _ fs, hp, d, hw => by
    obtain ⟨a, b, o, h1, h2, -, -, h3, -⟩ := serProto_emptied fs hp.1 hp.2 d hw .nil .nil [] treeOk_nil treeOk_nil
      (fun k => .inl ⟨rfl, rfl⟩) (by intro n _; rfl)
    exact ⟨_, _, h1, h2, obj_alike h3 o⟩
theorem serProto_emptied : ∀ (fs : Fields), fs.Plain → fs.names.Nodup → ∀ (d : fs.Den D), fs.Wf d →
    ∀ (m m' : Tree Bytes (Value D)) (o : List Bytes), TreeOk m → TreeOk m' → MembersAlike N il ic m m' →
    (∀ n ∈ fs.names, findMapElement nameLt n m = none) →
    ∃ a b o', serProto init fs d (.obj m o) = .ok (.kOk, .obj a o') ∧
      serProto init fs (fs.emptied d) (.obj m' o) = .ok (.kOk, .obj b o') ∧ TreeOk a ∧ TreeOk b ∧ MembersAlike N il ic a b ∧
      (∀ k, k ∉ fs.names → findMapElement nameLt k a = findMapElement nameLt k m)
  | .nil, _, _, _, _, m, m', o, hm, hm', h, _ => ⟨m, m', o, rfl, rfl, hm, hm', h, fun _ _ => rfl⟩
  | .named opt name t rest, hp, hnd, d, hw, m, m', o, hm, hm', h, hn => by
    obtain ⟨w, w', e1, e2, e3⟩ := ser_emptied t hp.1 d.1 hw.1
    simp only [Fields.names, List.nodup_cons] at hnd
    have hk := hn name (by simp [Fields.names])
    have hk' : findMapElement nameLt name m' = none := by
      rcases h name with ⟨-, h2⟩ | ⟨x, x', h1, -⟩
      · exact h2
      · rw [hk] at h1; cases h1
    obtain ⟨m1, i1, i2, i3, i4⟩ := find_insert hm name w hk
    obtain ⟨m1', j1, j2, j3, j4⟩ := find_insert hm' name w' hk'
    obtain ⟨a, b, o', h1, h2, ha, hb, h3, h4⟩ := serProto_emptied rest hp.2 hnd.2 d.2 hw.2 m1 m1' (o ++ [name]) i2 j2 (by
      intro k
      by_cases e : k = name
      · subst e; exact .inr ⟨w, w', i3, j3, e3⟩
      · rw [i4 k e, j4 k e]; exact h k) (by
      intro n hx
      rw [i4 n (by rintro rfl; exact hnd.1 hx)]
      exact hn n (by simp [Fields.names, hx]))
    refine ⟨a, b, o', ?_, ?_, ha, hb, h3, ?_⟩
    · simp only [serProto, serNamed, e1, Out.ok_bind, insertAccounted, i1, ne_eq, not_true, if_false]
      exact h1
    · simp only [Fields.emptied, serProto, serNamed, e2, Out.ok_bind, insertAccounted, j1, ne_eq, not_true, if_false]
      exact h2
    · intro k hk
      simp only [Fields.names, List.mem_cons, not_or] at hk
      rw [h4 k hk.2, i4 k hk.1]
  | .here (.struct id fs) rest, hp, hnd, d, hw, m, m', o, hm, hm', h, hn => by
    simp only [Fields.names, Ty.names, List.nodup_append] at hnd
    obtain ⟨a, b, o1, a1, a2, ha, hb, a3, a4⟩ := serProto_emptied fs hp.1 hnd.1 d.1 hw.1 m m' o hm hm' h (fun n hx =>
      hn n (by simp [Fields.names, Ty.names, hx]))
    have hdis : ∀ n ∈ rest.names, n ∉ fs.names := fun n h1 h2 => hnd.2.2 n h2 n h1 rfl
    obtain ⟨a', b', o', b1, b2, ha', hb', b3, b4⟩ := serProto_emptied rest hp.2 hnd.2.1 d.2 hw.2 a b o1 ha hb a3 (by
      intro n hx
      rw [a4 n (hdis n hx)]
      exact hn n (by simp [Fields.names, Ty.names, hx]))
    refine ⟨a', b', o', ?_, ?_, ha', hb', b3, ?_⟩
    · simp only [serProto, serialize, a1, Out.ok_bind, ne_eq, not_true, if_false]
      exact b1
    · simp only [Fields.emptied, Ty.emptied, serProto, serialize, a2, Out.ok_bind, ne_eq, not_true, if_false]
      exact b2
    · intro k hk
      simp only [Fields.names, Ty.names, List.mem_append, not_or] at hk
      rw [b4 k hk.2, a4 k hk.1]
  | .here .str _, hp, _, _, _, _, _, _, _, _, _, _ => hp.elim
  | .here .num _, hp, _, _, _, _, _, _, _, _, _, _ => hp.elim
  | .here .bool _, hp, _, _, _, _, _, _, _, _, _, _ => hp.elim
  | .here .null _, hp, _, _, _, _, _, _, _, _, _, _ => hp.elim
  | .here .stdString _, hp, _, _, _, _, _, _, _, _, _, _ => hp.elim
  | .here (.arr _) _, hp, _, _, _, _, _, _, _, _, _, _ => hp.elim
  | .here (.map _) _, hp, _, _, _, _, _, _, _, _, _, _ => hp.elim
  | .here (.vec _) _, hp, _, _, _, _, _, _, _, _, _, _ => hp.elim
  | .here (.stdMap _) _, hp, _, _, _, _, _, _, _, _, _, _ => hp.elim
end

/-! ## Emptied data -/

mutual
theorem storable_emptied : ∀ (t : Ty), t.Plain → t.NamesOk → ∀ d : t.Den Dbl, t.Storable d → t.Savable ops (t.emptied d)
  | .str, _, _, _, h => h
  | .num, _, _, _, h => finite_safe h
  | .bool, _, _, _, _ => trivial
  | .null, _, _, _, _ => trivial
  | .stdString, _, _, _, h => h
  | .arr t, h1, h3, _, h => fun y hy => by
    obtain ⟨x, hx, rfl⟩ := List.mem_map.1 hy
    exact storable_emptied t h1 h3 x (h x hx)
  | .map _, _, _, _, _ => rfl
  | .vec _, h1, _, _, _ => h1.elim
  | .stdMap _, _, _, _, _ => rfl
  | .struct _ fs, h1, h3, d, h => storable_emptiedF fs h1.1 h3 d h
theorem storable_emptiedF : ∀ (fs : Fields), fs.Plain → fs.NamesOk → ∀ d : fs.Den Dbl, fs.Storable d → fs.Savable ops (fs.emptied d)
  | .nil, _, _, _, _ => trivial
  | .named _ _ t rest, h1, h3, d, h =>
    ⟨h3.1, storable_emptied t h1.1 h3.2.1 d.1 h.1, storable_emptiedF rest h1.2 h3.2.2 d.2 h.2⟩
  | .here (.struct _ fs) rest, h1, h3, d, h =>
    ⟨storable_emptiedF fs h1.1 h3.1 d.1 h.1, storable_emptiedF rest h1.2 h3.2 d.2 h.2⟩
  | .here .str _, hp, _, _, _ => hp.elim
  | .here .num _, hp, _, _, _ => hp.elim
  | .here .bool _, hp, _, _, _ => hp.elim
  | .here .null _, hp, _, _, _ => hp.elim
  | .here .stdString _, hp, _, _, _ => hp.elim
  | .here (.arr _) _, hp, _, _, _ => hp.elim
  | .here (.map _) _, hp, _, _, _ => hp.elim
  | .here (.vec _) _, hp, _, _, _ => hp.elim
  | .here (.stdMap _) _, hp, _, _, _ => hp.elim
end

mutual
theorem storable_wf : ∀ (t : Ty), t.Plain → ∀ d : t.Den Dbl, t.Storable d → t.Wf d
  | .str, _, _, _ => trivial
  | .num, _, _, _ => trivial
  | .bool, _, _, _ => trivial
  | .null, _, _, _ => trivial
  | .stdString, _, _, h => ReadableText.nul_free h
  | .arr t, h1, _, h => fun x hx => storable_wf t h1 x (h x hx)
  | .map t, h1, _, h => ⟨h.1, fun e he => storable_wf t h1 e.2 (h.2 e he).2⟩
  | .vec _, h1, _, _ => h1.elim
  | .stdMap t, h1, _, h => ⟨h.1, fun e he => ⟨(h.2 e he).1.nul_free, storable_wf t h1 e.2 (h.2 e he).2⟩⟩
  | .struct _ fs, h1, d, h => storable_wfF fs h1.1 d h
theorem storable_wfF : ∀ (fs : Fields), fs.Plain → ∀ d : fs.Den Dbl, fs.Storable d → fs.Wf d
  | .nil, _, _, _ => trivial
  | .named _ _ t rest, h1, d, h => ⟨storable_wf t h1.1 d.1 h.1, storable_wfF rest h1.2 d.2 h.2⟩
  | .here (.struct _ fs) rest, h1, d, h => ⟨storable_wfF fs h1.1 d.1 h.1, storable_wfF rest h1.2 d.2 h.2⟩
  | .here .str _, hp, _, _ => hp.elim
  | .here .num _, hp, _, _ => hp.elim
  | .here .bool _, hp, _, _ => hp.elim
  | .here .null _, hp, _, _ => hp.elim
  | .here .stdString _, hp, _, _ => hp.elim
  | .here (.arr _) _, hp, _, _ => hp.elim
  | .here (.map _) _, hp, _, _ => hp.elim
  | .here (.vec _) _, hp, _, _ => hp.elim
  | .here (.stdMap _) _, hp, _, _ => hp.elim
end

/-! ## `Deserialize` cannot tell equal documents apart, also for maps -/

/-- Same kind and contents, without the order of members. -/
def Like : Value D → Value D → Prop
  | .null, .null => True
  | .bool b, .bool b' => b' = b
  | .num x, .num x' => x' = x
  | .str s, .str s' => s' = s
  | .arr l, .arr l' => l'.length = l.length
  | .obj _ _, .obj _ _ => True
  | _, _ => False

/-- Two documents that no walk can tell apart, but for the order of members. -/
def Similar (v v' : Value D) : Prop :=
  ∀ path, (walk v path = none ∧ walk v' path = none) ∨
    ∃ x x', walk v path = some x ∧ walk v' path = some x' ∧ Like x x'

theorem similar_of_sameDoc {v v' : Value D} (h : SameDoc v v') : Similar v v' := by
  intro path
  rcases h path with h | ⟨x, x', h1, h2, h3⟩
  · exact .inl h
  · refine .inr ⟨x, x', h1, h2, ?_⟩
    cases x <;> cases x' <;> first | exact h3 | trivial | exact h3.elim

theorem similar_like {v v' : Value D} (h : Similar v v') : Like v v' := by
  rcases h [] with ⟨h1, -⟩ | ⟨x, x', h1, h2, h3⟩
  · simp [walk] at h1
  · simp only [walk, Option.some.injEq] at h1 h2
    subst h1; subst h2; exact h3

theorem similar_child {v v' x x' : Value D} (h : Similar v v') (s : Step) (h1 : step v s = some x)
    (h2 : step v' s = some x') : Similar x x' := by
  intro p
  have := h (s :: p)
  simpa [walk, h1, h2] using this

theorem similar_step {v v' : Value D} (h : Similar v v') (s : Step) :
    (step v s = none ∧ step v' s = none) ∨ ∃ x x', step v s = some x ∧ step v' s = some x' ∧ Similar x x' := by
  rcases h [s] with ⟨h1, h2⟩ | ⟨x, x', h1, h2, -⟩
  · left
    simpa [walk] using And.intro h1 h2
  · right
    have e1 : step v s = some x := by simpa [walk] using h1
    have e2 : step v' s = some x' := by simpa [walk] using h2
    exact ⟨x, x', e1, e2, similar_child h s e1 e2⟩

/-- Lists with the same names and documents. -/
inductive EntriesSame : List (Bytes × Value D) → List (Bytes × Value D) → Prop
  | nil : EntriesSame [] []
  | cons {k : Bytes} {x x' : Value D} {l l' : List (Bytes × Value D)} (h : Similar x x') (hl : EntriesSame l l') :
      EntriesSame ((k, x) :: l) ((k, x') :: l')

theorem entriesSame_of {l l' : List (Bytes × Value D)} (h1 : Sorted nameLt l) (h2 : Sorted nameLt l')
    (h : ∀ k x, (k, x) ∈ l → ∃ x', (k, x') ∈ l' ∧ Similar x x') (h' : ∀ k x', (k, x') ∈ l' → ∃ x, (k, x) ∈ l) : EntriesSame l l' := by
  induction l generalizing l' with
  | nil =>
    cases l' with
    | nil => exact .nil
    | cons e l' =>
      obtain ⟨x, hx⟩ := h' e.1 e.2 (by simp)
      cases hx
  | cons e l ih =>
    obtain ⟨a, x⟩ := e
    have s1 := List.pairwise_cons.1 h1
    cases l' with
    | nil =>
      obtain ⟨x', hx, -⟩ := h a x (by simp)
      cases hx
    | cons e' l' =>
      obtain ⟨b, y⟩ := e'
      have s2 := List.pairwise_cons.1 h2
      obtain ⟨x', hx, hs⟩ := h a x (by simp)
      obtain ⟨y', hy⟩ := h' b y (by simp)
      have hab : a = b := by
        rcases List.mem_cons.1 hx with hx | hx
        · simp only [Prod.mk.injEq] at hx; exact hx.1
        · rcases List.mem_cons.1 hy with hy | hy
          · simp only [Prod.mk.injEq] at hy; exact hy.1.symm
          · have e1 := s2.1 _ hx
            have e2 := s1.1 _ hy
            have := nameLt_strict.trans _ _ _ e1 e2
            rw [nameLt_strict.irrefl] at this
            cases this
      subst hab
      have only1 : ∀ k z, (k, z) ∈ l → k ≠ a := by
        rintro k z hz rfl
        have := s1.1 _ hz
        rw [nameLt_strict.irrefl] at this
        cases this
      have only2 : ∀ k z, (k, z) ∈ l' → k ≠ a := by
        rintro k z hz rfl
        have := s2.1 _ hz
        rw [nameLt_strict.irrefl] at this
        cases this
      have hxy : x' = y := by
        rcases List.mem_cons.1 hx with hx | hx
        · simp only [Prod.mk.injEq] at hx; exact hx.2
        · exact (only2 _ _ hx rfl).elim
      subst hxy
      refine .cons hs (ih s1.2 s2.2 ?_ ?_)
      · intro k z hz
        obtain ⟨z', hz', hsz⟩ := h k z (List.mem_cons_of_mem _ hz)
        rcases List.mem_cons.1 hz' with e | e
        · simp only [Prod.mk.injEq] at e; exact (only1 k z hz e.1).elim
        · exact ⟨z', e, hsz⟩
      · intro k z hz
        obtain ⟨z', hz'⟩ := h' k z (List.mem_cons_of_mem _ hz)
        rcases List.mem_cons.1 hz' with e | e
        · simp only [Prod.mk.injEq] at e; exact (only2 k z hz e.1).elim
        · exact ⟨z', e⟩

theorem entriesSame_obj {m m' : Tree Bytes (Value D)} {o o' : List Bytes} (hm : TreeOk m) (hm' : TreeOk m')
    (h : Similar (.obj m o) (.obj m' o')) : EntriesSame (toList m) (toList m') := by
  obtain ⟨A, hA⟩ := hm
  obtain ⟨B, hB⟩ := hm'
  have key : ∀ k, (findMapElement nameLt k m = none ∧ findMapElement nameLt k m' = none) ∨
      ∃ x x', findMapElement nameLt k m = some (k, x) ∧ findMapElement nameLt k m' = some (k, x') ∧ Similar x x' := by
    intro k
    have := similar_step h (.member k)
    simp only [step, Option.map_eq_none_iff, Option.map_eq_some_iff] at this
    rcases this with h1 | ⟨x, x', ⟨e1, h1, rfl⟩, ⟨e2, h2, rfl⟩, h3⟩
    · exact .inl h1
    · have a1 := ((find_spec nameLt_strict k m hA.sorted e1).1 h1).1
      have a2 := ((find_spec nameLt_strict k m' hB.sorted e2).1 h2).1
      refine .inr ⟨_, _, ?_, ?_, h3⟩
      · rw [h1, ← a1]
      · rw [h2, ← a2]
  apply entriesSame_of hA.sorted hB.sorted
  · intro k x hx
    have := (find_spec nameLt_strict k m hA.sorted (k, x)).2 ⟨rfl, hx⟩
    rcases key k with ⟨h1, -⟩ | ⟨y, y', h1, h2, h3⟩
    · rw [this] at h1; cases h1
    · rw [this] at h1
      simp only [Option.some.injEq, Prod.mk.injEq, true_and] at h1
      subst h1
      exact ⟨y', ((find_spec nameLt_strict k m' hB.sorted _).1 h2).2, h3⟩
  · intro k x hx
    have := (find_spec nameLt_strict k m' hB.sorted (k, x)).2 ⟨rfl, hx⟩
    rcases key k with ⟨-, h1⟩ | ⟨y, y', h1, h2, h3⟩
    · rw [this] at h1; cases h1
    · exact ⟨y, ((find_spec nameLt_strict k m hA.sorted _).1 h1).2⟩

theorem desMap_same {α : Type} (f : Value D → α → Status × α) (dflt : α) {l l' : List (Bytes × Value D)} (h : EntriesSame l l')
    (hf : ∀ e ∈ l, ∀ e' ∈ l', ∀ o, Similar e.2 e'.2 → f e.2 o = f e'.2 o) (data : List (Bytes × α)) :
    desMap f dflt l data = desMap f dflt l' data := by
  induction h generalizing data with
  | nil => rfl
  | @cons k x x' l l' hs hl ih =>
    have e := fun o => hf (k, x) (by simp) (k, x') (by simp) o hs
    simp only at e
    have ih' := ih (fun a ha b hb => hf a (List.mem_cons_of_mem _ ha) b (List.mem_cons_of_mem _ hb))
    simp only [desMap, e, ih']

theorem desStdMap_same {α : Type} (f : Value D → α → Status × α) (dflt : α) {l l' : List (Bytes × Value D)} (h : EntriesSame l l')
    (hf : ∀ e ∈ l, ∀ e' ∈ l', ∀ o, Similar e.2 e'.2 → f e.2 o = f e'.2 o) (data : List (Bytes × α)) :
    desStdMap f dflt l data = desStdMap f dflt l' data := by
  induction h generalizing data with
  | nil => rfl
  | @cons k x x' l l' hs hl ih =>
    have e := fun o => hf (k, x) (by simp) (k, x') (by simp) o hs
    simp only at e
    have ih' := ih (fun a ha b hb => hf a (List.mem_cons_of_mem _ ha) b (List.mem_cons_of_mem _ hb))
    simp only [desStdMap, e, ih']

theorem deep_entry {m : Tree Bytes (Value D)} {o : List Bytes} (h : Deep False (.obj m o)) : ∀ e ∈ toList m, Deep False e.2 := by
  intro e he
  obtain ⟨⟨A, hA⟩, -, h3⟩ := deep_obj.1 h
  exact h3 e.1 e ((find_spec nameLt_strict e.1 m hA.sorted e).2 ⟨rfl, he⟩)

mutual
/-- Documents with search trees that no walk can tell apart give the same data. -/
theorem des_same_deep (dflt : (t : Ty) → t.Den D) : ∀ (t : Ty) (v v' : Value D) (old : t.Den D), Deep False v → Deep False v' → Similar v v' →
    deserialize dflt t v old = deserialize dflt t v' old
  | .str, v, v', old, _, _, h => by
    have := similar_like h
    cases v <;> cases v' <;> first | rfl | (simp only [Like] at this; done) | (simp only [Like] at this; subst this; rfl)
  | .num, v, v', old, _, _, h => by
    have := similar_like h
    cases v <;> cases v' <;> first | rfl | (simp only [Like] at this; done) | (simp only [Like] at this; subst this; rfl)
  | .bool, v, v', old, _, _, h => by
    have := similar_like h
    cases v <;> cases v' <;> first | rfl | (simp only [Like] at this; done) | (simp only [Like] at this; subst this; rfl)
  | .null, v, v', old, _, _, h => by
    have := similar_like h
    cases v <;> cases v' <;> first | rfl | (simp only [Like] at this; done) | (simp only [Like] at this; subst this; rfl)
  | .stdString, v, v', old, _, _, h => by
    have := similar_like h
    cases v <;> cases v' <;> first | rfl | (simp only [Like] at this; done) | (simp only [Like] at this; subst this; rfl)
  | .arr t, v, v', old, hv, hv', h => by
    have ih := des_same_deep dflt t
    have := similar_like h
    cases v with
    | arr l =>
      cases v' with
      | arr l' =>
        simp only [deserialize]
        exact desElems_congr _ l l' this (fun i x x' h1 h2 => ih x x' _ (hv.child (s := .index i) h1) (hv'.child (s := .index i) h2)
          (similar_child h (.index i) h1 h2)) _
      | _ => simp [Like] at this
    | _ => cases v' <;> first | rfl | (simp only [Like] at this; done)
  | .vec t, v, v', old, hv, hv', h => by
    have ih := des_same_deep dflt t
    have := similar_like h
    cases v with
    | arr l =>
      cases v' with
      | arr l' =>
        simp only [deserialize]
        exact desElems_congr _ l l' this (fun i x x' h1 h2 => ih x x' _ (hv.child (s := .index i) h1) (hv'.child (s := .index i) h2)
          (similar_child h (.index i) h1 h2)) _
      | _ => simp [Like] at this
    | _ => cases v' <;> first | rfl | (simp only [Like] at this; done)
  | .map t, v, v', old, hv, hv', h => by
    have ih := des_same_deep dflt t
    have := similar_like h
    cases v with
    | obj m o =>
      cases v' with
      | obj m' o' =>
        simp only [deserialize]
        exact desMap_same _ _ (entriesSame_obj hv.node.1 hv'.node.1 h) (fun e he e' he' old hs =>
          ih _ _ old (deep_entry hv e he) (deep_entry hv' e' he') hs) _
      | _ => simp [Like] at this
    | _ => cases v' <;> first | rfl | (simp only [Like] at this; done)
  | .stdMap t, v, v', old, hv, hv', h => by
    have ih := des_same_deep dflt t
    have := similar_like h
    cases v with
    | obj m o =>
      cases v' with
      | obj m' o' =>
        simp only [deserialize]
        exact desStdMap_same _ _ (entriesSame_obj hv.node.1 hv'.node.1 h) (fun e he e' he' old hs =>
          ih _ _ old (deep_entry hv e he) (deep_entry hv' e' he') hs) _
      | _ => simp [Like] at this
    | _ => cases v' <;> first | rfl | (simp only [Like] at this; done)
  | .struct _ fs, v, v', old, hv, hv', h => desProto_same_deep dflt fs v v' old hv hv' h
theorem desProto_same_deep (dflt : (t : Ty) → t.Den D) : ∀ (fs : Fields) (v v' : Value D) (old : fs.Den D), Deep False v → Deep False v' →
    Similar v v' → desProto dflt fs v old = desProto dflt fs v' old
  | .nil, _, _, _, _, _, _ => rfl
  | .here t rest, v, v', old, hv, hv', h => by
    simp only [desProto, des_same_deep dflt t v v' old.1 hv hv' h, desProto_same_deep dflt rest v v' old.2 hv hv' h]
  | .named opt name t rest, v, v', old, hv, hv', h => by
    have ih := des_same_deep dflt t
    have e : desNamed (deserialize dflt t) v name old.1 = desNamed (deserialize dflt t) v' name old.1 := by
      have ha := similar_like h
      cases v with
      | obj m o =>
        cases v' with
        | obj m' o' =>
          have := similar_step h (.member name)
          simp only [step, Option.map_eq_none_iff, Option.map_eq_some_iff] at this
          simp only [desNamed]
          rcases this with ⟨h1, h2⟩ | ⟨x, x', ⟨e1, h1, rfl⟩, ⟨e2, h2, rfl⟩, h3⟩
          · rw [h1, h2]
          · rw [h1, h2]
            exact ih _ _ _ (hv.child (s := .member name) (by simp [step, h1])) (hv'.child (s := .member name) (by simp [step, h2])) h3
        | _ => simp [Like] at ha
      | _ => cases v' <;> first | rfl | (simp [Like] at ha)
    simp only [desProto, e, desProto_same_deep dflt rest v v' old.2 hv hv' h]
end

end Verif.Serial
