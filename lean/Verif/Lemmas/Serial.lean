import Verif.Model.Serial
import Verif.Lemmas.MapInv
import Verif.Lemmas.Write

/-! # Lemmas about the serialization framework -/

namespace Verif.Serial

open Verif Verif.Map Verif.Text Verif.Parser Verif.Write Verif.Spec

variable {D : Type}

/-! ## Status of `Deserialize` -/

theorem desElems_status {α : Type} (f : Value D → Status × α) (l : List (Value D)) (data : List α) :
    (desElems f l data).1 = firstBad (fun v => (f v).1) l := by
  induction l generalizing data with
  | nil => rfl
  | cons v l ih =>
    simp only [desElems, firstBad]
    by_cases h : (f v).1 = .kOk
    · simp [h, ih]
    · simp [h]

theorem desMap_status {α : Type} (f : Value D → α → Status × α) (g : Value D → Status)
    (h : ∀ v o, (f v o).1 = g v) (dflt : α) (l : List (Bytes × Value D)) (data : List (Bytes × α)) :
    (desMap f dflt l data).1 = firstBad (fun e => g e.2) l := by
  induction l generalizing data with
  | nil => rfl
  | cons e l ih =>
    obtain ⟨k, v⟩ := e
    simp only [desMap, firstBad]
    cases get k data with
    | some old => by_cases hv : g v = .kOk <;> simp [h, hv, ih]
    | none => by_cases hv : g v = .kOk <;> simp [h, hv, ih]

theorem desStdMap_status {α : Type} (f : Value D → α → Status × α) (g : Value D → Status)
    (h : ∀ v o, (f v o).1 = g v) (dflt : α) (l : List (Bytes × Value D)) (data : List (Bytes × α)) :
    (desStdMap f dflt l data).1 = firstBad (fun e => g e.2) l := by
  induction l generalizing data with
  | nil => rfl
  | cons e l ih =>
    obtain ⟨k, v⟩ := e
    simp only [desStdMap, firstBad]
    by_cases hv : g v = .kOk <;> simp [h, hv, ih]

theorem desNamed_status {α : Type} (f : Value D → α → Status × α) (g : Value D → Status)
    (h : ∀ v o, (f v o).1 = g v) (v : Value D) (name : Bytes) (old : α) :
    (desNamed f v name old).1 = validateNamed g v name := by
  unfold desNamed validateNamed
  cases v with
  | obj m o =>
    dsimp only
    cases findMapElement nameLt name m with
    | none => rfl
    | some e => exact h _ _
  | _ => rfl

mutual
theorem des_status (dflt : (t : Ty) → t.Den D) : ∀ (t : Ty) (v : Value D) (old : t.Den D),
    (deserialize dflt t v old).1 = validate t v
  | .str, v, old => by cases v <;> rfl
  | .num, v, old => by cases v <;> rfl
  | .bool, v, old => by cases v <;> rfl
  | .null, v, old => by cases v <;> rfl
  | .stdString, v, old => by cases v <;> rfl
  | .arr t, v, old => by
    cases v with
    | arr l => simp only [deserialize, validate, desElems_status, des_status dflt t]
    | _ => rfl
  | .map t, v, old => by
    cases v with
    | obj m o => simp only [deserialize, validate]; exact desMap_status _ _ (des_status dflt t) _ _ _
    | _ => rfl
  | .vec t, v, old => by
    cases v with
    | arr l => simp only [deserialize, validate, desElems_status, des_status dflt t]
    | _ => rfl
  | .stdMap t, v, old => by
    cases v with
    | obj m o => simp only [deserialize, validate]; exact desStdMap_status _ _ (des_status dflt t) _ _ _
    | _ => rfl
  | .struct _ fs, v, old => by simp only [deserialize, validate, desProto_status dflt fs]
theorem desProto_status (dflt : (t : Ty) → t.Den D) : ∀ (fs : Fields) (v : Value D) (old : fs.Den D),
    (desProto dflt fs v old).1 = validateProto fs v
  | .nil, v, old => rfl
  | .here t rest, v, old => by
    simp only [desProto, validateProto, des_status dflt t]
    split
    · rfl
    · exact desProto_status dflt rest _ _
  | .named opt name t rest, v, old => by
    simp only [desProto, validateProto, desNamed_status _ _ (des_status dflt t)]
    split
    · rfl
    · exact desProto_status dflt rest _ _
end

/-! ## Which types and data survive -/

mutual
/-- Names a type puts into the object it shares with its surroundings. -/
def Ty.names : Ty → List Bytes
  | .struct _ fs => fs.names
  | _ => []
/-- Names of the fields of a list. -/
def Fields.names : Fields → List Bytes
  | .nil => []
  | .here t rest => t.names ++ rest.names
  | .named _ name _ rest => name :: rest.names
end

mutual
/-- Types without `std::vector` and with field lists that have distinct names and use the `here` form for
user types only. -/
def Ty.Plain : Ty → Prop
  | .arr t => t.Plain
  | .map t => t.Plain
  | .vec _ => False
  | .stdMap t => t.Plain
  | .struct _ fs => fs.Plain ∧ fs.names.Nodup
  | _ => True
/-- The same for field lists. -/
def Fields.Plain : Fields → Prop
  | .nil => True
  | .here (.struct _ fs) rest => fs.Plain ∧ rest.Plain
  | .here _ _ => False
  | .named _ _ t rest => t.Plain ∧ rest.Plain
end

mutual
/-- Data that the C++ types can hold (maps have sorted distinct keys) and without NUL in `std::string`s. -/
def Ty.Wf : (t : Ty) → t.Den D → Prop
  | .stdString, s => (0 : Byte) ∉ s
  | .arr t, l => ∀ x ∈ l, t.Wf x
  | .map t, l => Sorted nameLt l ∧ ∀ e ∈ l, t.Wf e.2
  | .vec t, l => ∀ x ∈ l, t.Wf x
  | .stdMap t, l => Sorted nameLt l ∧ ∀ e ∈ l, (0 : Byte) ∉ e.1 ∧ t.Wf e.2
  | .struct _ fs, d => fs.Wf d
  | .str, _ => True
  | .num, _ => True
  | .bool, _ => True
  | .null, _ => True
/-- The same for field lists. -/
def Fields.Wf : (fs : Fields) → fs.Den D → Prop
  | .nil, _ => True
  | .here t rest, d => t.Wf d.1 ∧ rest.Wf d.2
  | .named _ _ t rest, d => t.Wf d.1 ∧ rest.Wf d.2
end

mutual
/-- A target whose maps are empty. -/
def Ty.Fresh : (t : Ty) → t.Den D → Prop
  | .map _, l => l = []
  | .stdMap _, l => l = []
  | .struct _ fs, d => fs.Fresh d
  | .str, _ => True
  | .num, _ => True
  | .bool, _ => True
  | .null, _ => True
  | .stdString, _ => True
  | .arr _, _ => True
  | .vec _, _ => True
/-- The same for field lists. -/
def Fields.Fresh : (fs : Fields) → fs.Den D → Prop
  | .nil, _ => True
  | .here t rest, d => t.Fresh d.1 ∧ rest.Fresh d.2
  | .named _ _ t rest, d => t.Fresh d.1 ∧ rest.Fresh d.2
end

/-! ## Loops -/

/-- The value of a finished serialization. -/
def resVal (r : Out (Status × Value D)) : Value D :=
  match r with
  | .ok (_, v) => v
  | _ => .null

theorem serElems_spec {α : Type} (f : α → Out (Status × Value D)) (ds : List α) (acc : List (Value D))
    (h : ∀ d ∈ ds, f d = .ok (.kOk, resVal (f d))) :
    serElems f ds acc = .ok (.kOk, .arr (acc ++ ds.map fun d => resVal (f d))) := by
  induction ds generalizing acc with
  | nil => simp [serElems]
  | cons d ds ih =>
    simp only [serElems]
    rw [h d (by simp)]
    simp only [Out.ok_bind, ne_eq, not_true, if_false]
    rw [ih _ (fun x hx => h x (by simp [hx]))]
    simp

theorem desElems_spec {α : Type} (g : Value D → Status × α) (r : α → Value D) (ds data : List α)
    (h : ∀ d ∈ ds, g (r d) = (.kOk, d)) : desElems g (ds.map r) data = (.kOk, data ++ ds) := by
  induction ds generalizing data with
  | nil => simp [desElems]
  | cons d ds ih =>
    simp only [List.map_cons, desElems, h d (by simp), if_true]
    rw [ih _ (fun x hx => h x (by simp [hx]))]
    simp

theorem find_insert {m : Tree Bytes (Value D)} (hm : TreeOk m) (k : Bytes) (v : Value D)
    (hk : findMapElement nameLt k m = none) :
    ∃ m', insertMapElement nameLt m k v = some (true, m') ∧ TreeOk m' ∧ findMapElement nameLt k m' = some (k, v) ∧
      ∀ k', k' ≠ k → findMapElement nameLt k' m' = findMapElement nameLt k' m := by
  obtain ⟨A, hA⟩ := hm
  obtain ⟨m', e, h'⟩ := mapInv_insert nameLt_strict hA k v
  have hAk : A k = none := by
    rw [mapInv_find nameLt_strict hA] at hk
    cases h : A k <;> simp_all
  refine ⟨m', by rw [e, hAk]; rfl, ⟨_, h'⟩, ?_, ?_⟩
  · rw [mapInv_find nameLt_strict h']; simp [AMap.insertNew, hAk]
  · intro k' hne
    rw [mapInv_find nameLt_strict h', mapInv_find nameLt_strict hA]
    simp [AMap.insertNew, hne]

theorem insert_last {m : Tree Bytes (Value D)} (hm : TreeOk m) (k : Bytes) (v : Value D)
    (hk : ∀ e ∈ toList m, nameLt e.1 k = true) :
    ∃ m', insertMapElement nameLt m k v = some (true, m') ∧ TreeOk m' ∧ toList m' = toList m ++ [(k, v)] := by
  obtain ⟨A, hA⟩ := hm
  have hi := mapInv_insert nameLt_strict hA k v
  rcases insert_spec nameLt_strict m k v hA.bal hA.sorted with ⟨⟨x, hx⟩, -⟩ | ⟨-, t', a, c, h1, h2, h3, h4, h5, h6⟩
  · rw [find_spec nameLt_strict k m hA.sorted] at hx
    have := hk x hx.2
    rw [hx.1, nameLt_strict.irrefl] at this
    simp at this
  · have hc : c = [] := by
      cases c with
      | nil => rfl
      | cons y c =>
        have e1 := h6 y (by simp)
        have e2 := hk y (by rw [h3]; simp)
        have := nameLt_strict.trans _ _ _ e1 e2
        rw [nameLt_strict.irrefl] at this
        simp at this
    subst hc
    obtain ⟨t'', e, h'⟩ := hi
    rw [h1] at e
    simp only [Option.some.injEq, Prod.mk.injEq] at e
    refine ⟨t', h1, ⟨_, e.2 ▸ h'⟩, ?_⟩
    rw [h4, h3]; simp

theorem serEntries_spec {α : Type} (f : α → Out (Status × Value D)) (key : Bytes → Bytes) (order : List Bytes)
    (ds : List (Bytes × α)) (m : Tree Bytes (Value D)) (hm : TreeOk m)
    (h : ∀ e ∈ ds, f e.2 = .ok (.kOk, resVal (f e.2)) ∧ key e.1 = e.1)
    (hs : Sorted nameLt ds) (hlt : ∀ e ∈ toList m, ∀ d ∈ ds, nameLt e.1 d.1 = true) :
    ∃ m', serEntries f key order ds m = .ok (.kOk, .obj m' order) ∧ TreeOk m' ∧
      toList m' = toList m ++ ds.map fun e => (e.1, resVal (f e.2)) := by
  induction ds generalizing m with
  | nil => exact ⟨m, rfl, hm, by simp⟩
  | cons e ds ih =>
    obtain ⟨k, d⟩ := e
    obtain ⟨h1, h2⟩ := h (k, d) (by simp)
    simp only at h1 h2
    obtain ⟨m1, e1, e2, e3⟩ := insert_last hm k (resVal (f d)) (fun e he => hlt e he (k, d) (by simp))
    have hs' := List.pairwise_cons.1 hs
    obtain ⟨m', e4, e5, e6⟩ := ih m1 e2 (fun x hx => h x (by simp [hx])) hs'.2 (by
      intro x hx y hy
      rw [e3, List.mem_append, List.mem_singleton] at hx
      rcases hx with hx | rfl
      · exact hlt x hx y (by simp [hy])
      · exact hs'.1 y hy)
    refine ⟨m', ?_, e5, ?_⟩
    · simp only [serEntries]
      rw [h1]
      simp only [Out.ok_bind, ne_eq, not_true, if_false, h2, e1]
      exact e4
    · rw [e6, e3]; simp

theorem get_none {α : Type} {k : Bytes} {data : List (Bytes × α)} (h : ∀ e ∈ data, nameLt e.1 k = true) :
    get k data = none := by
  induction data with
  | nil => rfl
  | cons e data ih =>
    obtain ⟨k', y⟩ := e
    have h1 := h (k', y) (by simp)
    simp only [get]
    rw [if_neg, ih (fun x hx => h x (by simp [hx]))]
    rintro rfl
    rw [nameLt_strict.irrefl] at h1
    simp at h1

theorem put_last {α : Type} {k : Bytes} {x : α} {data : List (Bytes × α)} (h : ∀ e ∈ data, nameLt e.1 k = true) :
    put k x data = data ++ [(k, x)] := by
  induction data with
  | nil => rfl
  | cons e data ih =>
    obtain ⟨k', y⟩ := e
    have h1 := h (k', y) (by simp)
    simp only [put]
    rw [if_neg, if_neg, ih (fun x hx => h x (by simp [hx])), List.cons_append]
    · intro hc
      have := nameLt_strict.trans _ _ _ h1 hc
      rw [nameLt_strict.irrefl] at this
      simp at this
    · rintro rfl
      rw [nameLt_strict.irrefl] at h1
      simp at h1

theorem desMap_spec {α : Type} (g : Value D → α → Status × α) (dflt : α) (r : α → Value D)
    (ds data : List (Bytes × α)) (h : ∀ e ∈ ds, g (r e.2) dflt = (.kOk, e.2)) (hs : Sorted nameLt (data ++ ds)) :
    desMap g dflt (ds.map fun e => (e.1, r e.2)) data = (.kOk, data ++ ds) := by
  induction ds generalizing data with
  | nil => simp [desMap]
  | cons e ds ih =>
    obtain ⟨k, x⟩ := e
    have hlt : ∀ e ∈ data, nameLt e.1 k = true := by
      intro e he
      exact (List.pairwise_append.1 hs).2.2 e he (k, x) (by simp)
    simp only [List.map_cons, desMap, get_none hlt, h (k, x) (by simp), ne_eq, not_true, if_false, put_last hlt]
    rw [ih _ (fun y hy => h y (by simp [hy])) (by simpa using hs)]
    simp

theorem desStdMap_spec {α : Type} (g : Value D → α → Status × α) (dflt : α) (r : α → Value D)
    (ds data : List (Bytes × α)) (h : ∀ e ∈ ds, g (r e.2) dflt = (.kOk, e.2) ∧ (0 : Byte) ∉ e.1)
    (hs : Sorted nameLt (data ++ ds)) :
    desStdMap g dflt (ds.map fun e => (e.1, r e.2)) data = (.kOk, data ++ ds) := by
  induction ds generalizing data with
  | nil => simp [desStdMap]
  | cons e ds ih =>
    obtain ⟨k, x⟩ := e
    have hlt : ∀ e ∈ data, nameLt e.1 k = true := by
      intro e he
      exact (List.pairwise_append.1 hs).2.2 e he (k, x) (by simp)
    obtain ⟨h1, h2⟩ := h (k, x) (by simp)
    simp only [List.map_cons, desStdMap, cText_nul_free h2, get_none hlt, Option.getD_none, h1, ne_eq, not_true,
      if_false, put_last hlt]
    rw [ih _ (fun y hy => h y (by simp [hy])) (by simpa using hs)]
    simp

/-! ## Round trip -/

variable (init : D) (dflt : (t : Ty) → t.Den D)

mutual
theorem ser_des (hd : ∀ t, Ty.Fresh t (dflt t)) : ∀ (t : Ty), t.Plain → ∀ (d : t.Den D), t.Wf d →
    ∃ v, serialize init t d (createValueFor init t) = .ok (.kOk, v) ∧
      ∀ old, t.Fresh old → deserialize dflt t v old = (.kOk, d)
  | .str, _, d, _ => ⟨_, rfl, fun _ _ => rfl⟩
  | .num, _, d, _ => ⟨_, rfl, fun _ _ => rfl⟩
  | .bool, _, d, _ => ⟨_, rfl, fun _ _ => rfl⟩
  | .null, _, d, _ => ⟨_, rfl, fun _ _ => rfl⟩
  | .stdString, _, d, hw => by
    refine ⟨_, rfl, fun _ _ => ?_⟩
    simp only [deserialize]
    rw [cText_nul_free (s := d) hw, cText_nul_free (s := d) hw]
  | .arr t, hp, d, hw => by
    have ih := ser_des hd t hp
    have h1 : ∀ x ∈ d, serialize init t x (createValueFor init t) =
        .ok (.kOk, resVal (serialize init t x (createValueFor init t))) := by
      intro x hx
      obtain ⟨v, e, -⟩ := ih x (hw x hx)
      rw [e]; rfl
    refine ⟨_, serElems_spec _ d [] h1, fun old _ => ?_⟩
    simp only [deserialize, List.nil_append]
    have := desElems_spec (fun x => deserialize dflt t x (dflt t))
      (fun d => resVal (serialize init t d (createValueFor init t))) d [] (by
        intro x hx
        obtain ⟨v, e, e'⟩ := ih x (hw x hx)
        rw [e]; exact e' _ (hd t))
    simpa using this
  | .map t, hp, d, hw => by
    have ih := ser_des hd t hp
    obtain ⟨m', h1, h2, h3⟩ := serEntries_spec (fun x => serialize init t x (createValueFor init t)) id [] d .nil
      treeOk_nil (by
        intro e he
        obtain ⟨v, e', -⟩ := ih e.2 (hw.2 e he)
        simp only [e', resVal, id, and_self]) hw.1 (by simp [toList])
    refine ⟨_, h1, fun old ho => ?_⟩
    have ho : old = [] := ho
    subst ho
    simp only [deserialize, h3, toList, List.nil_append]
    have := desMap_spec (deserialize dflt t) (dflt t) (fun x => resVal (serialize init t x (createValueFor init t))) d []
      (by
        intro x hx
        obtain ⟨v, e, e'⟩ := ih x.2 (hw.2 x hx)
        rw [e]; exact e' _ (hd t)) (by simpa using hw.1)
    simpa using this
  | .vec t, hp, d, hw => hp.elim
  | .stdMap t, hp, d, hw => by
    have ih := ser_des hd t hp
    obtain ⟨m', h1, h2, h3⟩ := serEntries_spec (fun x => serialize init t x (createValueFor init t)) cText [] d .nil
      treeOk_nil (by
        intro e he
        obtain ⟨v, e', -⟩ := ih e.2 (hw.2 e he).2
        simp only [e', resVal, cText_nul_free (hw.2 e he).1, and_self]) hw.1 (by simp [toList])
    refine ⟨_, h1, fun old ho => ?_⟩
    have ho : old = [] := ho
    subst ho
    simp only [deserialize, h3, toList, List.nil_append]
    have := desStdMap_spec (deserialize dflt t) (dflt t)
      (fun x => resVal (serialize init t x (createValueFor init t))) d []
      (by
        intro x hx
        obtain ⟨v, e, e'⟩ := ih x.2 (hw.2 x hx).2
        rw [e]; exact ⟨e' _ (hd t), (hw.2 x hx).1⟩) (by simpa using hw.1)
    simpa using this
  | .struct _ fs, hp, d, hw => by
    obtain ⟨m', o', h1, -, -, h4⟩ := serProto_des hd fs hp.1 hp.2 d hw .nil [] treeOk_nil (by
      intro n _; rfl)
    exact ⟨_, h1, fun old ho => h4 _ _ (fun _ _ => rfl) old ho⟩
theorem serProto_des (hd : ∀ t, Ty.Fresh t (dflt t)) : ∀ (fs : Fields), fs.Plain → fs.names.Nodup → ∀ (d : fs.Den D),
    fs.Wf d → ∀ (m : Tree Bytes (Value D)) (o : List Bytes), TreeOk m →
    (∀ n ∈ fs.names, findMapElement nameLt n m = none) →
    ∃ m' o', serProto init fs d (.obj m o) = .ok (.kOk, .obj m' o') ∧ TreeOk m' ∧
      (∀ k, k ∉ fs.names → findMapElement nameLt k m' = findMapElement nameLt k m) ∧
      ∀ m'' o'', (∀ n ∈ fs.names, findMapElement nameLt n m'' = findMapElement nameLt n m') →
        ∀ old, fs.Fresh old → desProto dflt fs (.obj m'' o'') old = (.kOk, d)
  | .nil, _, _, d, _, m, o, hm, _ => ⟨m, o, rfl, hm, fun _ _ => rfl, fun _ _ _ _ _ => rfl⟩
  | .named opt name t rest, hp, hnd, d, hw, m, o, hm, hn => by
    obtain ⟨v, e1, e2⟩ := ser_des hd t hp.1 d.1 hw.1
    simp only [Fields.names, List.nodup_cons] at hnd
    obtain ⟨m1, i1, i2, i3, i4⟩ := find_insert hm name v (hn name (by simp [Fields.names]))
    obtain ⟨m', o', h1, h2, h3, h4⟩ := serProto_des hd rest hp.2 hnd.2 d.2 hw.2 m1 (o ++ [name]) i2 (by
      intro n hx
      rw [i4 n (by rintro rfl; exact hnd.1 hx)]
      exact hn n (by simp [Fields.names, hx]))
    refine ⟨m', o', ?_, h2, ?_, ?_⟩
    · simp only [serProto, serNamed, e1, Out.ok_bind, insertAccounted, i1, ne_eq, not_true, if_false]
      exact h1
    · intro k hk
      simp only [Fields.names, List.mem_cons, not_or] at hk
      rw [h3 k hk.2, i4 k hk.1]
    · intro m'' o'' hf old ho
      have hf1 : findMapElement nameLt name m'' = some (name, v) := by
        rw [hf name (by simp [Fields.names]), h3 name hnd.1, i3]
      simp only [desProto, desNamed, hf1, e2 old.1 ho.1, ne_eq, not_true, false_and, if_false]
      rw [h4 m'' o'' (fun n hx => hf n (by simp [Fields.names, hx])) old.2 ho.2]
  | .here (.struct id fs) rest, hp, hnd, d, hw, m, o, hm, hn => by
    simp only [Fields.names, Ty.names, List.nodup_append] at hnd
    obtain ⟨m1, o1, a1, a2, a3, a4⟩ := serProto_des hd fs hp.1 hnd.1 d.1 hw.1 m o hm (fun n hx =>
      hn n (by simp [Fields.names, Ty.names, hx]))
    have hdis : ∀ n ∈ rest.names, n ∉ fs.names := fun n h1 h2 => hnd.2.2 n h2 n h1 rfl
    obtain ⟨m', o', b1, b2, b3, b4⟩ := serProto_des hd rest hp.2 hnd.2.1 d.2 hw.2 m1 o1 a2 (by
      intro n hx
      rw [a3 n (hdis n hx)]
      exact hn n (by simp [Fields.names, Ty.names, hx]))
    refine ⟨m', o', ?_, b2, ?_, ?_⟩
    · simp only [serProto, serialize, a1, Out.ok_bind, ne_eq, not_true, if_false]
      exact b1
    · intro k hk
      simp only [Fields.names, Ty.names, List.mem_append, not_or] at hk
      rw [b3 k hk.2, a3 k hk.1]
    · intro m'' o'' hf old ho
      have := a4 m'' o'' (by
        intro n hx
        rw [hf n (by simp [Fields.names, Ty.names, hx]), b3 n (fun h => hdis n h hx)]) old.1 ho.1
      simp only [desProto, deserialize, this, ne_eq, not_true, if_false]
      rw [b4 m'' o'' (fun n hx => hf n (by simp [Fields.names, Ty.names, hx])) old.2 ho.2]
  | .here .str _, hp, _, _, _, _, _, _, _ => hp.elim
  | .here .num _, hp, _, _, _, _, _, _, _ => hp.elim
  | .here .bool _, hp, _, _, _, _, _, _, _ => hp.elim
  | .here .null _, hp, _, _, _, _, _, _, _ => hp.elim
  | .here .stdString _, hp, _, _, _, _, _, _, _ => hp.elim
  | .here (.arr _) _, hp, _, _, _, _, _, _, _ => hp.elim
  | .here (.map _) _, hp, _, _, _, _, _, _, _ => hp.elim
  | .here (.vec _) _, hp, _, _, _, _, _, _, _ => hp.elim
  | .here (.stdMap _) _, hp, _, _, _, _, _, _, _ => hp.elim
end

end Verif.Serial
