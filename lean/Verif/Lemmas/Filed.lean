import Verif.Spec.Filed
import Verif.Lemmas.Vectors
import Verif.Lemmas.Kept

/-!
# What a file gives back
-/

namespace Verif.Serial

open Verif Verif.Map Verif.Text Verif.Number Verif.Parser Verif.Doc Verif.Write Verif.Spec Verif.B64 Verif.Props

/-- `w'` is written like `w`, can be read again and gives the data that comes back from the file. -/
def Shadow (dflt : (t : Ty) → t.Den Dbl) (il : Nat) (ic : Byte) (t : Ty) (d : t.Den Dbl) (w w' : Value Dbl) : Prop :=
  WrittenAlike ops il ic w w' ∧ ReadableDoc ops w' ∧ Deep False w' ∧
    ∀ old, t.Fresh old → Gives (t.fileBack d) (deserialize dflt t w' old)

theorem readable_empty : ReadableDoc ops (.obj .nil [] : Value Dbl) :=
  (ObjReadable.mk (by simp [findMapElement]) (by simp) (by simp [findMapElement]) : ObjReadable ops .nil []).doc

variable (dflt : (t : Ty) → t.Den Dbl) (il : Nat) (ic : Byte) (init : Dbl)

mutual
theorem ser_file (hd : ∀ t, Ty.Fresh t (dflt t)) : ∀ (t : Ty), t.Listed → t.NamesOk → ∀ (d : t.Den Dbl), t.Ordered d → t.Writable d →
    ∃ w w', serialize init t d (createValueFor init t) = .ok (statusOf (t.fails d), w) ∧ Shadow dflt il ic t d w w'
  | .str, _, _, d, _, hs => ⟨_, _, rfl, fun _ _ => rfl, readable_leaf (v := .str d) hs (by intro s; cases s <;> rfl),
      deep_leaf trivial fun s => rfl, fun _ _ => rfl⟩
  | .num, _, _, d, _, hs => ⟨_, _, rfl, fun _ _ => rfl, readable_leaf (v := .num d) (finite_safe hs) (by intro s; cases s <;> rfl),
      deep_leaf trivial fun s => rfl, fun _ _ => rfl⟩
  | .bool, _, _, d, _, hs => ⟨_, _, rfl, fun _ _ => rfl, readable_leaf (v := .bool d) trivial (by intro s; cases s <;> rfl),
      deep_leaf trivial fun s => rfl, fun _ _ => rfl⟩
  | .null, _, _, d, _, hs => ⟨_, _, rfl, fun _ _ => rfl, readable_leaf (v := .null) trivial (by intro s; cases s <;> rfl),
      deep_leaf trivial fun s => rfl, fun _ _ => rfl⟩
  | .stdString, _, _, d, _, hs => by
    refine ⟨_, _, rfl, fun _ _ => rfl, readable_leaf (v := .str (cText d)) hs (by intro s; cases s <;> rfl),
      deep_leaf trivial fun s => rfl, fun _ _ => ?_⟩
    simp only [deserialize, Ty.fileBack, Gives]
    rw [cText_nul_free (s := cText d) (cText_clean d)]
  | .arr t, hp, hn, d, hw, hs => by
    have ih := ser_file hd t hp hn
    have hex : ∀ x, ∃ w', x ∈ d → Shadow dflt il ic t x (resVal (serialize init t x (createValueFor init t))) w' := by
      intro x
      by_cases hx : x ∈ d
      · obtain ⟨w, w', e, h⟩ := ih x (hw x hx) (hs x hx)
        exact ⟨w', fun _ => by rw [e]; exact h⟩
      · exact ⟨.null, fun h => absurd h hx⟩
    obtain ⟨g, hg⟩ := Classical.axiomOfChoice hex
    refine ⟨_, .arr ((d.takeWhile fun x => !t.fails x).map g),
      serElems_prefix (fun x => serialize init t x (createValueFor init t)) t.fails
      (fun d => resVal (serialize init t d (createValueFor init t))) d [] ?_, ?_, ?_, ?_, fun old _ => ?_⟩
    · intro x hx
      obtain ⟨w, w', e, -⟩ := ih x (hw x hx) (hs x hx)
      simp only [e, resVal]
    · rw [List.nil_append]
      exact elems_alike _ g _ fun x hx => (hg x (takeWhile_mem hx)).1
    · apply readable_arr
      intro y hy
      obtain ⟨x, hx, rfl⟩ := List.mem_map.1 hy
      exact (hg x (takeWhile_mem hx)).2.1
    · apply deep_arr.2
      intro y hy
      obtain ⟨x, hx, rfl⟩ := List.mem_map.1 hy
      exact (hg x (takeWhile_mem hx)).2.2.1
    · simp only [deserialize, Ty.fileBack]
      have := desElems_prefix (fun x => deserialize dflt t x (dflt t)) g t.fileBack (d.takeWhile fun x => !t.fails x) [] (by
          intro x hx
          exact (hg x (takeWhile_mem hx)).2.2.2 _ (hd t))
      simpa using this
  | .map t, hp, hn, d, hw, _ => by
    obtain ⟨w, e, -⟩ := ser_back init dflt hd (.map t) hp d hw
    obtain ⟨m', h1, h2, h3⟩ := serEntries_prefix (fun x => serialize init t x (createValueFor init t)) t.fails
      (fun d => resVal (serialize init t d (createValueFor init t))) id [] d .nil
      treeOk_nil (by
        intro e he
        obtain ⟨v, e', -⟩ := ser_back init dflt hd t hp e.2 (hw.2 e he)
        simp only [e', resVal, id, and_self]) hw.1 (by simp [toList])
    refine ⟨_, .obj .nil [], h1, empty_alike _ _, readable_empty, deep_empty, fun old ho => ?_⟩
    have ho : old = [] := ho
    subst ho
    rfl
  | .vec t, _, _, d, _, _ => ⟨_, .obj .nil [], rfl, fun _ _ => rfl, readable_empty, deep_empty, fun _ _ => rfl⟩
  | .stdMap t, hp, hn, d, hw, _ => by
    obtain ⟨m', h1, h2, h3⟩ := serEntries_cut (fun x => serialize init t x (createValueFor init t)) t.fails
      (fun d => resVal (serialize init t d (createValueFor init t))) [] d .nil
      treeOk_nil [] (by simp [toList]) (by
        intro e he
        obtain ⟨v, e', -⟩ := ser_back init dflt hd t hp e.2 (hw.2 e he)
        simp only [e', resVal]) hw.1 (by simp)
    refine ⟨_, .obj .nil [], h1, empty_alike _ _, readable_empty, deep_empty, fun old ho => ?_⟩
    have ho : old = [] := ho
    subst ho
    rfl
  | .struct _ fs, hp, hn, d, hw, hs => by
    obtain ⟨a, b, o, h1, h3, hr, hdp, -, h4⟩ := serProto_file hd fs hp.1 hp.2 hn d hw hs .nil .nil [] treeOk_nil
      (fun k => .inl ⟨rfl, rfl⟩) ⟨by simp [findMapElement], by simp, by simp [findMapElement]⟩ deep_empty (by intro n _; rfl)
    exact ⟨_, _, h1, obj_alike h3 o, hr.doc, hdp, fun old ho => h4 _ _ (fun _ _ => rfl) old ho⟩
theorem serProto_file (hd : ∀ t, Ty.Fresh t (dflt t)) : ∀ (fs : Fields), fs.Listed → fs.names.Nodup → fs.NamesOk → ∀ (d : fs.Den Dbl),
    fs.Ordered d → fs.Writable d → ∀ (m m' : Tree Bytes (Value Dbl)) (o : List Bytes), TreeOk m → MembersAlike ops il ic m m' →
    ObjReadable ops m' o → Deep False (.obj m' o) → (∀ n ∈ fs.names, findMapElement nameLt n m' = none) →
    ∃ a b o', serProto init fs d (.obj m o) = .ok (.kOk, .obj a o') ∧ MembersAlike ops il ic a b ∧
      ObjReadable ops b o' ∧ Deep False (.obj b o') ∧ (TreeOk a ∧
      ∀ k, k ∉ fs.names → findMapElement nameLt k b = findMapElement nameLt k m') ∧
      ∀ m'' o'', (∀ n ∈ fs.names, findMapElement nameLt n m'' = findMapElement nameLt n b) →
        ∀ old, fs.Fresh old → Gives (fs.fileBack d) (desProto dflt fs (.obj m'' o'') old)
  | .nil, _, _, _, d, _, _, m, m', o, hm, ha, hr, hdp, _ =>
    ⟨m, m', o, rfl, ha, hr, hdp, ⟨hm, fun _ _ => rfl⟩, fun _ _ _ _ _ => rfl⟩
  | .named opt name t rest, hp, hnd, hno, d, hw, hs, m, m', o, hm, ha, hr, hdp, hn => by
    obtain ⟨w, w', e1, s1, s2, s3, e2⟩ := ser_file hd t hp.1 hno.2.1 d.1 hw.1 hs.1
    simp only [Fields.names, List.nodup_cons] at hnd
    have hk' := hn name (by simp [Fields.names])
    have hk : findMapElement nameLt name m = none := by
      rcases ha name with ⟨h2, -⟩ | ⟨x, x', -, h1, -⟩
      · exact h2
      · rw [hk'] at h1; cases h1
    obtain ⟨m1, i1, i2, i3, i4⟩ := find_insert hm name w hk
    obtain ⟨m1', j1, j2, j3, j4⟩ := find_insert (deep_obj.1 hdp).1 name w' hk'
    obtain ⟨a, b, o', h1, ha', hr', hdp', ⟨hta, h3⟩, h4⟩ := serProto_file hd rest hp.2 hnd.2 hno.2.2 d.2 hw.2 hs.2 m1 m1' (o ++ [name]) i2 (by
      intro k
      by_cases e : k = name
      · subst e; exact .inr ⟨w, w', i3, j3, s1⟩
      · rw [i4 k e, j4 k e]; exact ha k) (objReadable_insert hr hno.1 s2 j3 j4)
      (deep_insert hdp s3 j1 (by intro n hn; simpa using hn)) (by
      intro n hx
      rw [j4 n (by rintro rfl; exact hnd.1 hx)]
      exact hn n (by simp [Fields.names, hx]))
    refine ⟨a, b, o', ?_, ha', hr', hdp', ⟨hta, ?_⟩, ?_⟩
    · simp only [serProto, serNamed, e1, Out.ok_bind, insertAccounted, i1, ne_eq, not_true, if_false]
      exact h1
    · intro k hk
      simp only [Fields.names, List.mem_cons, not_or] at hk
      rw [h3 k hk.2, j4 k hk.1]
    · intro m'' o'' hf old ho
      have hf1 : findMapElement nameLt name m'' = some (name, w') := by
        rw [hf name (by simp [Fields.names]), h3 name hnd.1, j3]
      have e3 := e2 old.1 ho.1
      have h5 := h4 m'' o'' (fun n hx => hf n (by simp [Fields.names, hx])) old.2 ho.2
      simp only [desProto, desNamed, hf1, Fields.fileBack]
      cases hb : t.fileBack d.1 with
      | none => rw [hb] at e3; simp only [Gives] at e3; simp [Gives, e3]
      | some x =>
        rw [hb] at e3
        simp only [Gives] at e3
        cases hr : rest.fileBack d.2 with
        | none => rw [hr] at h5; simp only [Gives] at h5; simp [Gives, e3, h5]
        | some y => rw [hr] at h5; simp only [Gives] at h5; simp [Gives, e3, h5]
  | .here (.struct id fs) rest, hp, hnd, hno, d, hw, hs, m, m', o, hm, ha, hr, hdp, hn => by
    simp only [Fields.names, Ty.names, List.nodup_append] at hnd
    obtain ⟨m1, m1', o1, a1, ha1, hr1, hdp1, ⟨a2, a3⟩, a4⟩ := serProto_file hd fs hp.1 hnd.1 hno.1 d.1 hw.1 hs.1 m m' o hm ha hr hdp (fun n hx =>
      hn n (by simp [Fields.names, Ty.names, hx]))
    have hdis : ∀ n ∈ rest.names, n ∉ fs.names := fun n h1 h2 => hnd.2.2 n h2 n h1 rfl
    obtain ⟨a, b, o', b1, ha', hr', hdp', ⟨b2, b3⟩, b4⟩ := serProto_file hd rest hp.2 hnd.2.1 hno.2 d.2 hw.2 hs.2 m1 m1' o1 a2 ha1 hr1 hdp1 (by
      intro n hx
      rw [a3 n (hdis n hx)]
      exact hn n (by simp [Fields.names, Ty.names, hx]))
    refine ⟨a, b, o', ?_, ha', hr', hdp', ⟨b2, ?_⟩, ?_⟩
    · simp only [serProto, serialize, a1, Out.ok_bind, ne_eq, not_true, if_false]
      exact b1
    · intro k hk
      simp only [Fields.names, Ty.names, List.mem_append, not_or] at hk
      rw [b3 k hk.2, a3 k hk.1]
    · intro m'' o'' hf old ho
      have e3 := a4 m'' o'' (by
        intro n hx
        rw [hf n (by simp [Fields.names, Ty.names, hx]), b3 n (fun h => hdis n h hx)]) old.1 ho.1
      have h5 := b4 m'' o'' (fun n hx => hf n (by simp [Fields.names, Ty.names, hx])) old.2 ho.2
      simp only [desProto, deserialize, Fields.fileBack, Ty.fileBack]
      cases hb : fs.fileBack d.1 with
      | none => rw [hb] at e3; simp only [Gives] at e3; simp [Gives, e3]
      | some x =>
        rw [hb] at e3
        simp only [Gives] at e3
        cases hr : rest.fileBack d.2 with
        | none => rw [hr] at h5; simp only [Gives] at h5; simp [Gives, e3, h5]
        | some y => rw [hr] at h5; simp only [Gives] at h5; simp [Gives, e3, h5]
  | .here .str _, hp, _, _, _, _, _, _, _, _, _, _, _, _, _ => hp.elim
  | .here .num _, hp, _, _, _, _, _, _, _, _, _, _, _, _, _ => hp.elim
  | .here .bool _, hp, _, _, _, _, _, _, _, _, _, _, _, _, _ => hp.elim
  | .here .null _, hp, _, _, _, _, _, _, _, _, _, _, _, _, _ => hp.elim
  | .here .stdString _, hp, _, _, _, _, _, _, _, _, _, _, _, _, _ => hp.elim
  | .here (.arr _) _, hp, _, _, _, _, _, _, _, _, _, _, _, _, _ => hp.elim
  | .here (.map _) _, hp, _, _, _, _, _, _, _, _, _, _, _, _, _ => hp.elim
  | .here (.vec _) _, hp, _, _, _, _, _, _, _, _, _, _, _, _, _ => hp.elim
  | .here (.stdMap _) _, hp, _, _, _, _, _, _, _, _, _, _, _, _, _ => hp.elim
end

variable {D : Type}

theorem backs_map {α β : Type} (g : α → Option α) (g' : α → Option β) (e : α → β) (l l' : List α)
    (h : ∀ x ∈ l, ∀ y, g x = some y → g' x = some (e y)) (hl : backs g l = some l') : backs g' l = some (l'.map e) := by
  induction l generalizing l' with
  | nil => simp only [backs, Option.some.injEq] at hl ⊢; subst hl; rfl
  | cons x l ih =>
    simp only [backs, Option.bind_eq_some_iff, Option.map_eq_some_iff] at hl
    obtain ⟨y, hy, ys, hys, rfl⟩ := hl
    simp only [backs, h x (by simp) y hy, ih ys (fun z hz => h z (by simp [hz])) hys, Option.bind_some, Option.map_some, List.map_cons]

mutual
/-- What comes back without a file also comes back from the file, but for the entries of maps. -/
theorem fileBack_of_back : ∀ (t : Ty) (d k : t.Den D), t.back d = some k → t.fileBack d = some (t.emptied k)
  | .str, _, _, h => h
  | .num, _, _, h => h
  | .bool, _, _, h => h
  | .null, _, _, h => h
  | .stdString, _, _, h => h
  | .arr t, d, k, h => backs_map t.back t.fileBack t.emptied _ k (fun x _ y hy => fileBack_of_back t x y hy) h
  | .map _, _, _, _ => rfl
  | .stdMap _, _, _, _ => rfl
  | .vec _, _, _, h => by simp [Ty.back] at h
  | .struct _ fs, d, k, h => fileBackF_of_back fs d k h
theorem fileBackF_of_back : ∀ (fs : Fields) (d k : fs.Den D), fs.back d = some k → fs.fileBack d = some (fs.emptied k)
  | .nil, _, _, h => h
  | .here t rest, d, k, h => by
    simp only [Fields.back, Option.bind_eq_some_iff, Option.map_eq_some_iff] at h
    obtain ⟨x, hx, y, hy, rfl⟩ := h
    simp only [Fields.fileBack, fileBack_of_back t d.1 x hx, fileBackF_of_back rest d.2 y hy, Option.bind_some, Option.map_some,
      Fields.emptied]
  | .named _ _ t rest, d, k, h => by
    simp only [Fields.back, Option.bind_eq_some_iff, Option.map_eq_some_iff] at h
    obtain ⟨x, hx, y, hy, rfl⟩ := h
    simp only [Fields.fileBack, fileBack_of_back t d.1 x hx, fileBackF_of_back rest d.2 y hy, Option.bind_some, Option.map_some,
      Fields.emptied]
end

theorem map_self {α : Type} (f : α → α) (l : List α) : l.map f = l ↔ ∀ x ∈ l, f x = x := by
  induction l with
  | nil => simp
  | cons a l ih => simp [ih]

mutual
theorem emptied_self : ∀ (t : Ty) (d : t.Den D), t.emptied d = d ↔ ¬ t.HasEntry d
  | .str, _ => by simp [Ty.emptied, Ty.HasEntry]
  | .num, _ => by simp [Ty.emptied, Ty.HasEntry]
  | .bool, _ => by simp [Ty.emptied, Ty.HasEntry]
  | .null, _ => by simp [Ty.emptied, Ty.HasEntry]
  | .stdString, _ => by simp [Ty.emptied, Ty.HasEntry]
  | .arr t, d => by
    simp only [Ty.emptied, Ty.HasEntry, not_exists, not_and]
    rw [map_self]
    exact ⟨fun h x hx => (emptied_self t x).1 (h x hx), fun h x hx => (emptied_self t x).2 (h x hx)⟩
  | .vec t, d => by
    simp only [Ty.emptied, Ty.HasEntry, not_exists, not_and]
    rw [map_self]
    exact ⟨fun h x hx => (emptied_self t x).1 (h x hx), fun h x hx => (emptied_self t x).2 (h x hx)⟩
  | .map _, d => by
    simp only [Ty.emptied, Ty.HasEntry, ne_eq, Classical.not_not]
    exact eq_comm
  | .stdMap _, d => by
    simp only [Ty.emptied, Ty.HasEntry, ne_eq, Classical.not_not]
    exact eq_comm
  | .struct _ fs, d => emptiedF_self fs d
theorem emptiedF_self : ∀ (fs : Fields) (d : fs.Den D), fs.emptied d = d ↔ ¬ fs.HasEntry d
  | .nil, _ => by simp [Fields.emptied, Fields.HasEntry]
  | .here t rest, d => by
    obtain ⟨a, b⟩ := d
    simp only [Fields.emptied, Fields.HasEntry, not_or]
    rw [← emptied_self t a, ← emptiedF_self rest b]
    exact Prod.mk.injEq .. ▸ Iff.rfl
  | .named _ _ t rest, d => by
    obtain ⟨a, b⟩ := d
    simp only [Fields.emptied, Fields.HasEntry, not_or]
    rw [← emptied_self t a, ← emptiedF_self rest b]
    exact Prod.mk.injEq .. ▸ Iff.rfl
end

mutual
theorem noEntry_ordered : ∀ (t : Ty) (d : t.Den D), ¬ t.HasEntry d → t.Ordered d
  | .str, _, _ => trivial
  | .num, _, _ => trivial
  | .bool, _, _ => trivial
  | .null, _, _ => trivial
  | .stdString, _, _ => trivial
  | .arr t, _, h => fun x hx => noEntry_ordered t x fun e => h ⟨x, hx, e⟩
  | .vec t, _, h => fun x hx => noEntry_ordered t x fun e => h ⟨x, hx, e⟩
  | .map _, d, h => by
    have : d = [] := Classical.byContradiction h
    subst this
    exact ⟨List.Pairwise.nil, by simp⟩
  | .stdMap _, d, h => by
    have : d = [] := Classical.byContradiction h
    subst this
    exact ⟨List.Pairwise.nil, by simp⟩
  | .struct _ fs, d, h => noEntryF_ordered fs d h
theorem noEntryF_ordered : ∀ (fs : Fields) (d : fs.Den D), ¬ fs.HasEntry d → fs.Ordered d
  | .nil, _, _ => trivial
  | .here t rest, d, h => ⟨noEntry_ordered t d.1 fun e => h (.inl e), noEntryF_ordered rest d.2 fun e => h (.inr e)⟩
  | .named _ _ t rest, d, h => ⟨noEntry_ordered t d.1 fun e => h (.inl e), noEntryF_ordered rest d.2 fun e => h (.inr e)⟩
end

mutual
theorem fileBack_noEntry : ∀ (t : Ty) (d k : t.Den D), t.fileBack d = some k → ¬ t.HasEntry k ∧ ¬ t.HasVector k ∧ ¬ t.HasNul k
  | .str, _, _, _ => ⟨id, id, id⟩
  | .num, _, _, _ => ⟨id, id, id⟩
  | .bool, _, _, _ => ⟨id, id, id⟩
  | .null, _, _, _ => ⟨id, id, id⟩
  | .stdString, d, _, h => by
    simp only [Ty.fileBack, Option.some.injEq] at h
    subst h
    exact ⟨id, id, cText_clean d⟩
  | .arr t, d, k, h => by
    have := backs_mem t.fileBack _ h
    have ih : ∀ y ∈ k, ¬ t.HasEntry y ∧ ¬ t.HasVector y ∧ ¬ t.HasNul y := by
      intro y hy
      obtain ⟨x, -, hx⟩ := this y hy
      exact fileBack_noEntry t x y hx
    exact ⟨fun ⟨y, hy, e⟩ => (ih y hy).1 e, fun ⟨y, hy, e⟩ => (ih y hy).2.1 e, fun ⟨y, hy, e⟩ => (ih y hy).2.2 e⟩
  | .map _, _, k, h => by
    simp only [Ty.fileBack, Option.some.injEq] at h
    subst h
    exact ⟨fun h => h rfl, fun ⟨_, h, _⟩ => (by cases h), fun ⟨_, h, _⟩ => (by cases h)⟩
  | .stdMap _, _, k, h => by
    simp only [Ty.fileBack, Option.some.injEq] at h
    subst h
    exact ⟨fun h => h rfl, fun ⟨_, h, _⟩ => (by cases h), fun ⟨_, h, _⟩ => (by cases h)⟩
  | .vec _, _, _, h => by simp [Ty.fileBack] at h
  | .struct _ fs, d, k, h => fileBackF_noEntry fs d k h
theorem fileBackF_noEntry : ∀ (fs : Fields) (d k : fs.Den D), fs.fileBack d = some k → ¬ fs.HasEntry k ∧ ¬ fs.HasVector k ∧ ¬ fs.HasNul k
  | .nil, _, _, _ => ⟨id, id, id⟩
  | .here t rest, d, k, h => by
    simp only [Fields.fileBack, Option.bind_eq_some_iff, Option.map_eq_some_iff] at h
    obtain ⟨x, hx, y, hy, rfl⟩ := h
    have h1 := fileBack_noEntry t d.1 x hx
    have h2 := fileBackF_noEntry rest d.2 y hy
    exact ⟨fun e => e.elim h1.1 h2.1, fun e => e.elim h1.2.1 h2.2.1, fun e => e.elim h1.2.2 h2.2.2⟩
  | .named _ _ t rest, d, k, h => by
    simp only [Fields.fileBack, Option.bind_eq_some_iff, Option.map_eq_some_iff] at h
    obtain ⟨x, hx, y, hy, rfl⟩ := h
    have h1 := fileBack_noEntry t d.1 x hx
    have h2 := fileBackF_noEntry rest d.2 y hy
    exact ⟨fun e => e.elim h1.1 h2.1, fun e => e.elim h1.2.1 h2.2.1, fun e => e.elim h1.2.2 h2.2.2⟩
end

end Verif.Serial
