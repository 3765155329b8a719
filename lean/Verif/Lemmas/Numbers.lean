import Verif.Spec.Numbers
import Verif.Lemmas.Filed

/-!
# The numbers of serialized data
-/

namespace Verif.Serial

open Verif Verif.Map Verif.Text Verif.Number Verif.Parser Verif.Doc Verif.Write Verif.Spec Verif.Props

variable {D : Type}

/-- Readable texts, numbers in `P`. -/
def FitNode (P : D → Prop) : Value D → Prop
  | .num x => P x
  | .str s => ReadableText s
  | .obj t o => (∀ k, (findMapElement nameLt k t).isSome ↔ k ∈ o) ∧ ∀ k ∈ o, ReadableText k
  | _ => True

/-- Every node of the document. -/
def FitDoc (P : D → Prop) (v : Value D) : Prop := ∀ path x, walk v path = some x → FitNode P x

/-- A number in `Q` somewhere in the document. -/
def HasIn (Q : D → Prop) (v : Value D) : Prop := ∃ path x, walk v path = some (.num x) ∧ Q x

theorem fit_leaf {P : D → Prop} {v : Value D} (h : FitNode P v) (hs : ∀ s, step v s = none) : FitDoc P v := by
  intro path x hx
  cases path with
  | nil => simp only [walk, Option.some.injEq] at hx; subst hx; exact h
  | cons s p => simp [walk, hs] at hx

theorem fit_arr {P : D → Prop} {l : List (Value D)} (h : ∀ x ∈ l, FitDoc P x) : FitDoc P (.arr l) := by
  intro path x hx
  cases path with
  | nil => simp only [walk, Option.some.injEq] at hx; subst hx; trivial
  | cons s p =>
    cases s with
    | index i =>
      simp only [walk, step, Option.bind_eq_some_iff] at hx
      obtain ⟨y, hy, hw⟩ := hx
      exact h y (List.mem_of_getElem? hy) p x hw
    | member k => simp [walk, step] at hx

theorem hasIn_arr {Q : D → Prop} {l : List (Value D)} {x : Value D} (hx : x ∈ l) (h : HasIn Q x) : HasIn Q (.arr l) := by
  obtain ⟨i, hi⟩ := List.mem_iff_getElem?.1 hx
  obtain ⟨path, y, h1, h2⟩ := h
  exact ⟨.index i :: path, y, by simp [walk, step, hi, h1], h2⟩

theorem hasIn_obj {Q : D → Prop} {m : Tree Bytes (Value D)} {o : List Bytes} {k k' : Bytes} {x : Value D}
    (hx : findMapElement nameLt k m = some (k', x)) (h : HasIn Q x) : HasIn Q (.obj m o) := by
  obtain ⟨path, y, h1, h2⟩ := h
  exact ⟨.member k :: path, y, by simp [walk, step, hx, h1], h2⟩

theorem hasIn_leaf {Q : D → Prop} {v : Value D} (hs : ∀ s, step v s = none) (hv : ∀ x, v ≠ .num x) : ¬ HasIn Q v := by
  rintro ⟨path, x, h, -⟩
  cases path with
  | nil => simp only [walk, Option.some.injEq] at h; exact hv x h
  | cons s p => simp [walk, hs] at h

theorem hasIn_num {Q : D → Prop} {y : D} : HasIn Q (.num y) ↔ Q y := by
  refine ⟨?_, fun h => ⟨[], y, rfl, h⟩⟩
  rintro ⟨path, x, h, hq⟩
  cases path with
  | nil => simp only [walk, Option.some.injEq, Value.num.injEq] at h; exact h ▸ hq
  | cons s p => cases s <;> simp [walk, step] at h

theorem hasIn_of_arr {Q : D → Prop} {l : List (Value D)} (h : HasIn Q (.arr l)) : ∃ y ∈ l, HasIn Q y := by
  obtain ⟨path, x, h, hq⟩ := h
  cases path with
  | nil => simp [walk] at h
  | cons s p =>
    cases s with
    | index i =>
      simp only [walk, step, Option.bind_eq_some_iff] at h
      obtain ⟨y, hy, h⟩ := h
      exact ⟨y, List.mem_of_getElem? hy, p, x, h, hq⟩
    | member k => simp [walk, step] at h

theorem hasIn_of_obj {Q : D → Prop} {m : Tree Bytes (Value D)} {o : List Bytes} (h : HasIn Q (.obj m o)) :
    ∃ k x, findMapElement nameLt k m = some x ∧ HasIn Q x.2 := by
  obtain ⟨path, x, h, hq⟩ := h
  cases path with
  | nil => simp [walk] at h
  | cons s p =>
    cases s with
    | index i => simp [walk, step] at h
    | member k =>
      simp only [walk, step, Option.bind_eq_some_iff, Option.map_eq_some_iff] at h
      obtain ⟨y, ⟨z, hz, rfl⟩, h⟩ := h
      exact ⟨k, z, hz, p, x, h, hq⟩

theorem hasIn_empty {Q : D → Prop} : ¬ HasIn Q (.obj .nil [] : Value D) := by
  intro h
  obtain ⟨k, x, h, -⟩ := hasIn_of_obj h
  simp [findMapElement] at h

/-- What makes an object fit. -/
structure ObjFit (P : D → Prop) (m : Tree Bytes (Value D)) (o : List Bytes) : Prop where
  listed : ∀ k, (findMapElement nameLt k m).isSome ↔ k ∈ o
  names : ∀ k ∈ o, ReadableText k
  members : ∀ k x, findMapElement nameLt k m = some x → FitDoc P x.2

theorem ObjFit.doc {P : D → Prop} {m : Tree Bytes (Value D)} {o : List Bytes} (h : ObjFit P m o) : FitDoc P (.obj m o) := by
  intro path x hx
  cases path with
  | nil =>
    simp only [walk, Option.some.injEq] at hx
    subst hx
    exact ⟨h.listed, h.names⟩
  | cons s p =>
    cases s with
    | index i => simp [walk, step] at hx
    | member k =>
      simp only [walk, step, Option.bind_eq_some_iff, Option.map_eq_some_iff] at hx
      obtain ⟨y, ⟨z, hz, rfl⟩, hw⟩ := hx
      exact h.members k z hz p x hw

theorem objFit_insert {P : D → Prop} {m m' : Tree Bytes (Value D)} {o : List Bytes} (h : ObjFit P m o)
    {k : Bytes} {v : Value D} (hk : ReadableText k) (hv : FitDoc P v)
    (h1 : findMapElement nameLt k m' = some (k, v))
    (h2 : ∀ k', k' ≠ k → findMapElement nameLt k' m' = findMapElement nameLt k' m) : ObjFit P m' (o ++ [k]) := by
  refine ⟨?_, ?_, ?_⟩
  · intro k'
    by_cases e : k' = k
    · subst e; simp [h1]
    · rw [h2 k' e, h.listed]; simp [e]
  · intro k' hk'
    rcases List.mem_append.1 hk' with hk' | hk'
    · exact h.names k' hk'
    · simp only [List.mem_singleton] at hk'
      subst hk'; exact hk
  · intro k' x hx
    by_cases e : k' = k
    · subst e
      rw [h1] at hx
      simp only [Option.some.injEq] at hx
      subst hx; exact hv
    · rw [h2 k' e] at hx; exact h.members k' x hx

theorem objFit_empty (P : D → Prop) : ObjFit P (.nil : Tree Bytes (Value D)) [] :=
  ⟨by simp [findMapElement], by simp, by simp [findMapElement]⟩

/-- `w'` is written like `w`, has readable texts and numbers in `P`, and has the numbers of the data. -/
def NumShadow (N : NumOps D) (P Q : D → Prop) (il : Nat) (ic : Byte) (t : Ty) (d : t.Den D) (w w' : Value D) : Prop :=
  WrittenAlike N il ic w w' ∧ FitDoc P w' ∧ Deep False w' ∧ (t.HasNum Q d ↔ HasIn Q w')

variable (N : NumOps D) (P Q : D → Prop) (dflt : (t : Ty) → t.Den D) (il : Nat) (ic : Byte) (init : D)

mutual
theorem ser_numbers (hd : ∀ t, Ty.Fresh t (dflt t)) : ∀ (t : Ty), t.Listed → t.NamesOk → ∀ (d : t.Den D), t.Ordered d → t.Fits P d →
    ∃ w w', serialize init t d (createValueFor init t) = .ok (statusOf (t.fails d), w) ∧ NumShadow N P Q il ic t d w w'
  | .str, _, _, d, _, hs => ⟨_, _, rfl, fun _ _ => rfl, fit_leaf (v := .str d) hs (by intro s; cases s <;> rfl),
      deep_leaf trivial fun s => rfl, fun h => h.elim, fun h => hasIn_leaf (v := .str d) (by intro s; cases s <;> rfl) (fun _ e => nomatch e) h⟩
  | .num, _, _, d, _, hs => ⟨_, _, rfl, fun _ _ => rfl, fit_leaf (v := .num d) hs (by intro s; cases s <;> rfl),
      deep_leaf trivial fun s => rfl, hasIn_num.symm⟩
  | .bool, _, _, d, _, hs => ⟨_, _, rfl, fun _ _ => rfl, fit_leaf (v := .bool d) trivial (by intro s; cases s <;> rfl),
      deep_leaf trivial fun s => rfl, fun h => h.elim, fun h => hasIn_leaf (v := .bool d) (by intro s; cases s <;> rfl) (fun _ e => nomatch e) h⟩
  | .null, _, _, d, _, hs => ⟨_, _, rfl, fun _ _ => rfl, fit_leaf (v := .null) trivial (by intro s; cases s <;> rfl),
      deep_leaf trivial fun s => rfl, fun h => h.elim, fun h => hasIn_leaf (v := .null) (by intro s; cases s <;> rfl) (fun _ e => nomatch e) h⟩
  | .stdString, _, _, d, _, hs => ⟨_, _, rfl, fun _ _ => rfl, fit_leaf (v := .str (cText d)) hs (by intro s; cases s <;> rfl),
      deep_leaf trivial fun s => rfl, fun h => h.elim, fun h => hasIn_leaf (v := .str (cText d)) (by intro s; cases s <;> rfl) (fun _ e => nomatch e) h⟩
  | .arr t, hp, hn, d, hw, hs => by
    have ih := ser_numbers hd t hp hn
    have hex : ∀ x, ∃ w', x ∈ d → NumShadow N P Q il ic t x (resVal (serialize init t x (createValueFor init t))) w' := by
      intro x
      by_cases hx : x ∈ d
      · obtain ⟨w, w', e, h⟩ := ih x (hw x hx) (hs x hx)
        exact ⟨w', fun _ => by rw [e]; exact h⟩
      · exact ⟨.null, fun h => absurd h hx⟩
    obtain ⟨g, hg⟩ := Classical.axiomOfChoice hex
    refine ⟨_, .arr ((d.takeWhile fun x => !t.fails x).map g),
      serElems_prefix (fun x => serialize init t x (createValueFor init t)) t.fails
      (fun d => resVal (serialize init t d (createValueFor init t))) d [] ?_, ?_, ?_, ?_, ?_⟩
    · intro x hx
      obtain ⟨w, w', e, -⟩ := ih x (hw x hx) (hs x hx)
      simp only [e, resVal]
    · rw [List.nil_append]
      exact elems_alike _ g _ fun x hx => (hg x (takeWhile_mem hx)).1
    · apply fit_arr
      intro y hy
      obtain ⟨x, hx, rfl⟩ := List.mem_map.1 hy
      exact (hg x (takeWhile_mem hx)).2.1
    · apply deep_arr.2
      intro y hy
      obtain ⟨x, hx, rfl⟩ := List.mem_map.1 hy
      exact (hg x (takeWhile_mem hx)).2.2.1
    · constructor
      · rintro ⟨x, hx, hq⟩
        exact hasIn_arr (List.mem_map.2 ⟨x, hx, rfl⟩) ((hg x (takeWhile_mem hx)).2.2.2.1 hq)
      · intro h
        obtain ⟨y, hy, hq⟩ := hasIn_of_arr h
        obtain ⟨x, hx, rfl⟩ := List.mem_map.1 hy
        exact ⟨x, hx, (hg x (takeWhile_mem hx)).2.2.2.2 hq⟩
  | .map t, hp, hn, d, hw, _ => by
    obtain ⟨m', h1, h2, h3⟩ := serEntries_prefix (fun x => serialize init t x (createValueFor init t)) t.fails
      (fun d => resVal (serialize init t d (createValueFor init t))) id [] d .nil
      treeOk_nil (by
        intro e he
        obtain ⟨v, e', -⟩ := ser_back init dflt hd t hp e.2 (hw.2 e he)
        simp only [e', resVal, id, and_self]) hw.1 (by simp [toList])
    exact ⟨_, .obj .nil [], h1, empty_alike _ _, (objFit_empty P).doc, deep_empty, fun h => h.elim, fun h => hasIn_empty h⟩
  | .vec t, _, _, d, _, _ => ⟨_, .obj .nil [], rfl, fun _ _ => rfl, (objFit_empty P).doc, deep_empty, fun h => h.elim, fun h => hasIn_empty h⟩
  | .stdMap t, hp, hn, d, hw, _ => by
    obtain ⟨m', h1, h2, h3⟩ := serEntries_cut (fun x => serialize init t x (createValueFor init t)) t.fails
      (fun d => resVal (serialize init t d (createValueFor init t))) [] d .nil
      treeOk_nil [] (by simp [toList]) (by
        intro e he
        obtain ⟨v, e', -⟩ := ser_back init dflt hd t hp e.2 (hw.2 e he)
        simp only [e', resVal]) hw.1 (by simp)
    exact ⟨_, .obj .nil [], h1, empty_alike _ _, (objFit_empty P).doc, deep_empty, fun h => h.elim, fun h => hasIn_empty h⟩
  | .struct _ fs, hp, hn, d, hw, hs => by
    obtain ⟨a, b, o, h1, h3, hr, hdp, ⟨-, h5⟩, h4⟩ := serProto_numbers hd fs hp.1 hp.2 hn d hw hs .nil .nil [] treeOk_nil
      (fun k => .inl ⟨rfl, rfl⟩) (objFit_empty P) deep_empty (by intro n _; rfl)
    refine ⟨_, _, h1, obj_alike h3 o, hr.doc, hdp, fun h => let ⟨_, _, _, hx, hq⟩ := h4.1 h; hasIn_obj hx hq, fun h => ?_⟩
    obtain ⟨k, x, hx, hq⟩ := hasIn_of_obj h
    refine h4.2 ⟨k, ?_, x, hx, hq⟩
    refine Classical.byContradiction fun hk => ?_
    rw [h5 k hk] at hx
    simp [findMapElement] at hx
theorem serProto_numbers (hd : ∀ t, Ty.Fresh t (dflt t)) : ∀ (fs : Fields), fs.Listed → fs.names.Nodup → fs.NamesOk → ∀ (d : fs.Den D),
    fs.Ordered d → fs.Fits P d → ∀ (m m' : Tree Bytes (Value D)) (o : List Bytes), TreeOk m → MembersAlike N il ic m m' →
    ObjFit P m' o → Deep False (.obj m' o) → (∀ n ∈ fs.names, findMapElement nameLt n m' = none) →
    ∃ a b o', serProto init fs d (.obj m o) = .ok (.kOk, .obj a o') ∧ MembersAlike N il ic a b ∧
      ObjFit P b o' ∧ Deep False (.obj b o') ∧ (TreeOk a ∧
      ∀ k, k ∉ fs.names → findMapElement nameLt k b = findMapElement nameLt k m') ∧
      (fs.HasNum Q d ↔ ∃ n ∈ fs.names, ∃ x, findMapElement nameLt n b = some x ∧ HasIn Q x.2)
  | .nil, _, _, _, d, _, _, m, m', o, hm, ha, hr, hdp, _ =>
    ⟨m, m', o, rfl, ha, hr, hdp, ⟨hm, fun _ _ => rfl⟩, fun h => h.elim, fun ⟨_, h, _⟩ => (by simp [Fields.names] at h)⟩
  | .named opt name t rest, hp, hnd, hno, d, hw, hs, m, m', o, hm, ha, hr, hdp, hn => by
    obtain ⟨w, w', e1, s1, s2, s3, e2⟩ := ser_numbers hd t hp.1 hno.2.1 d.1 hw.1 hs.1
    simp only [Fields.names, List.nodup_cons] at hnd
    have hk' := hn name (by simp [Fields.names])
    have hk : findMapElement nameLt name m = none := by
      rcases ha name with ⟨h2, -⟩ | ⟨x, x', -, h1, -⟩
      · exact h2
      · rw [hk'] at h1; cases h1
    obtain ⟨m1, i1, i2, i3, i4⟩ := find_insert hm name w hk
    obtain ⟨m1', j1, j2, j3, j4⟩ := find_insert (deep_obj.1 hdp).1 name w' hk'
    obtain ⟨a, b, o', h1, ha', hr', hdp', ⟨hta, h3⟩, h4⟩ := serProto_numbers hd rest hp.2 hnd.2 hno.2.2 d.2 hw.2 hs.2 m1 m1' (o ++ [name]) i2 (by
      intro k
      by_cases e : k = name
      · subst e; exact .inr ⟨w, w', i3, j3, s1⟩
      · rw [i4 k e, j4 k e]; exact ha k) (objFit_insert hr hno.1 s2 j3 j4)
      (deep_insert hdp s3 j1 (by intro n hn; simpa using hn)) (by
      intro n hx
      rw [j4 n (by rintro rfl; exact hnd.1 hx)]
      exact hn n (by simp [Fields.names, hx]))
    refine ⟨a, b, o', ?_, ha', hr', hdp', ⟨hta, ?_⟩, ?_⟩
    · simp only [serProto, serNamed, e1, Out.ok_bind, insertAccounted, i1, ne_eq, not_true, if_false]
      exact h1
    · intro k hk
      simp only [Fields.names, List.mem_cons, not_or] at hk
      rw [h3 k hk.2, j4 k hk.1]
    · constructor
      · rintro (h | h)
        · exact ⟨name, by simp [Fields.names], (name, w'), by rw [h3 name hnd.1, j3], e2.1 h⟩
        · obtain ⟨n, g1, x, g2, g3⟩ := h4.1 h
          exact ⟨n, by simp [Fields.names, g1], x, g2, g3⟩
      · rintro ⟨n, g1, x, g2, g3⟩
        simp only [Fields.names, List.mem_cons] at g1
        rcases g1 with rfl | g1
        · rw [h3 n hnd.1, j3] at g2
          simp only [Option.some.injEq] at g2
          subst g2
          exact .inl (e2.2 g3)
        · exact .inr (h4.2 ⟨n, g1, x, g2, g3⟩)
  | .here (.struct id fs) rest, hp, hnd, hno, d, hw, hs, m, m', o, hm, ha, hr, hdp, hn => by
    simp only [Fields.names, Ty.names, List.nodup_append] at hnd
    obtain ⟨m1, m1', o1, a1, ha1, hr1, hdp1, ⟨a2, a3⟩, a4⟩ := serProto_numbers hd fs hp.1 hnd.1 hno.1 d.1 hw.1 hs.1 m m' o hm ha hr hdp
      (fun n hx => hn n (by simp [Fields.names, Ty.names, hx]))
    have hdis : ∀ n ∈ rest.names, n ∉ fs.names := fun n h1 h2 => hnd.2.2 n h2 n h1 rfl
    obtain ⟨a, b, o', b1, ha', hr', hdp', ⟨b2, b3⟩, b4⟩ := serProto_numbers hd rest hp.2 hnd.2.1 hno.2 d.2 hw.2 hs.2 m1 m1' o1 a2 ha1 hr1 hdp1 (by
      intro n hx
      rw [a3 n (hdis n hx)]
      exact hn n (by simp [Fields.names, Ty.names, hx]))
    refine ⟨a, b, o', ?_, ha', hr', hdp', ⟨b2, ?_⟩, ?_⟩
    · simp only [serProto, serialize, a1, Out.ok_bind, ne_eq, not_true, if_false]
      exact b1
    · intro k hk
      simp only [Fields.names, Ty.names, List.mem_append, not_or] at hk
      rw [b3 k hk.2, a3 k hk.1]
    · constructor
      · rintro (h | h)
        · obtain ⟨n, g1, x, g2, g3⟩ := a4.1 h
          exact ⟨n, by simp [Fields.names, Ty.names, g1], x, by rw [b3 n (fun h => hdis n h g1), g2], g3⟩
        · obtain ⟨n, g1, x, g2, g3⟩ := b4.1 h
          exact ⟨n, by simp [Fields.names, Ty.names, g1], x, g2, g3⟩
      · rintro ⟨n, g1, x, g2, g3⟩
        simp only [Fields.names, Ty.names, List.mem_append] at g1
        rcases g1 with g1 | g1
        · rw [b3 n (fun h => hdis n h g1)] at g2
          exact .inl (a4.2 ⟨n, g1, x, g2, g3⟩)
        · exact .inr (b4.2 ⟨n, g1, x, g2, g3⟩)
  | .here .str _, hp, _, _, _, _, _, _, _, _, _, _, _, _, _ => hp.elim
  | .here .num _, hp, _, _, _, _, _, _, _, _, _, _, _, _, _ => hp.elim
  | .here .bool _, hp, _, _, _, _, _, _, _, _, _, _, _, _, _ => hp.elim
  | .here .null _, hp, _, _, _, _, _, _, _, _, _, _, _, _, _ => hp.elim
  | .here .stdString _, hp, _, _, _, _, _, _, _, _, _, _, _, _, _ => hp.elim
  | .here (.arr _) _, hp, _, _, _, _, _, _, _, _, _, _, _, _, _ => hp.elim
  | .here (.map _) _, hp, _, _, _, _, _, _, _, _, _, _, _, _, _ => hp.elim
  | .here (.vec _) _, hp, _, _, _, _, _, _, _, _, _, _, _, _, _ => hp.elim
  | .here (.stdMap _) _, hp, _, _, _, _, _, _, _, _, _, _, _, _, _ => hp.elim
end

end Verif.Serial
