import Verif.Lemmas.Serial
import Verif.Lemmas.Walk

/-!
# Serializing onto values that have contents

`Deep full v`: every object below `v` has a search tree, and if `full` holds it lists only names it has.
-/

namespace Verif.Serial

open Verif Verif.Map Verif.Text Verif.Number Verif.Parser Verif.Write Verif.Spec Verif.Doc

variable {D : Type}

/-- The condition on a single value. -/
def Node (full : Prop) : Value D → Prop
  | .obj m o => TreeOk m ∧ (full → ∀ n ∈ o, (findMapElement nameLt n m).isSome)
  | _ => True

/-- The condition on a value and everything below it. -/
def Deep (full : Prop) (v : Value D) : Prop := ∀ p x, walk v p = some x → Node full x

theorem Deep.node {full : Prop} {v : Value D} (h : Deep full v) : Node full v := h [] v rfl

theorem Deep.child {full : Prop} {v x : Value D} (h : Deep full v) {s : Step} (hx : step v s = some x) : Deep full x :=
  fun p y hy => h (s :: p) y (by simp [walk, hx, hy])

theorem deep_leaf {full : Prop} {v : Value D} (h : Node full v) (hs : ∀ s, step v s = none) : Deep full v := by
  intro path x hx
  cases path with
  | nil => simp only [walk, Option.some.injEq] at hx; subst hx; exact h
  | cons s p => simp [walk, hs] at hx

theorem deep_arr {full : Prop} {l : List (Value D)} : Deep full (.arr l) ↔ ∀ x ∈ l, Deep full x := by
  constructor
  · intro h x hx
    obtain ⟨i, hi⟩ := List.getElem?_of_mem hx
    exact h.child (s := .index i) (by simp [step, hi])
  · intro h path x hx
    cases path with
    | nil => simp only [walk, Option.some.injEq] at hx; subst hx; trivial
    | cons s p =>
      cases s with
      | index i =>
        simp only [walk, step, Option.bind_eq_some_iff] at hx
        obtain ⟨y, hy, hw⟩ := hx
        exact h y (List.mem_of_getElem? hy) p x hw
      | member k => simp [walk, step] at hx

theorem deep_obj {full : Prop} {m : Tree Bytes (Value D)} {o : List Bytes} : Deep full (.obj m o) ↔
    TreeOk m ∧ (full → ∀ n ∈ o, (findMapElement nameLt n m).isSome) ∧
      ∀ k x, findMapElement nameLt k m = some x → Deep full x.2 := by
  constructor
  · intro h
    refine ⟨h.node.1, h.node.2, fun k x hx => h.child (s := .member k) (by simp [step, hx])⟩
  · rintro ⟨h1, h2, h3⟩ path x hx
    cases path with
    | nil => simp only [walk, Option.some.injEq] at hx; subst hx; exact ⟨h1, h2⟩
    | cons s p =>
      cases s with
      | index i => simp [walk, step] at hx
      | member k =>
        simp only [walk, step, Option.bind_eq_some_iff, Option.map_eq_some_iff] at hx
        obtain ⟨y, ⟨e, he, rfl⟩, hw⟩ := hx
        exact h3 k e he p x hw

theorem deep_empty {full : Prop} : Deep full (.obj .nil [] : Value D) :=
  deep_obj.2 ⟨treeOk_nil, by simp, by simp [findMapElement]⟩

/-- Inserting a member: the tree stays a search tree, holds the name afterwards, keeps the members it had, and has no other
member than these and the new one. -/
theorem insert_any {m : Tree Bytes (Value D)} (hm : TreeOk m) (k : Bytes) (v : Value D) :
    ∃ b m', insertMapElement nameLt m k v = some (b, m') ∧ TreeOk m' ∧ (findMapElement nameLt k m').isSome ∧
      (∀ k' x, findMapElement nameLt k' m = some x → findMapElement nameLt k' m' = some x) ∧
      (∀ k' x, findMapElement nameLt k' m' = some x → findMapElement nameLt k' m = some x ∨ x = (k, v)) := by
  obtain ⟨A, hA⟩ := hm
  obtain ⟨m', e, h'⟩ := mapInv_insert nameLt_strict hA k v
  refine ⟨_, m', e, ⟨_, h'⟩, ?_, fun k' x => ?_, fun k' x => ?_⟩
  all_goals (simp only [mapInv_find nameLt_strict hA, mapInv_find nameLt_strict h', AMap.insertNew])
  · cases h : A k <;> simp [h]
  · intro hx
    by_cases hk : k' = k
    · subst hk
      cases h : A k' with
      | none => simp [h] at hx
      | some y => simpa [h] using hx
    · simpa [hk] using hx
  · intro hx
    by_cases hk : k' = k
    · subst hk
      cases h : A k' with
      | none => simp only [h, and_self, if_true, Option.map_some, Option.some.injEq] at hx; exact .inr hx.symm
      | some y => exact .inl (by simpa [h] using hx)
    · exact .inl (by simpa [hk] using hx)

/-- Inserting a name that is present changes nothing. -/
theorem insert_present {m : Tree Bytes (Value D)} {k : Bytes} (v : Value D) (hk : (findMapElement nameLt k m).isSome) :
    insertMapElement nameLt m k v = some (false, m) := by
  obtain ⟨x, hx⟩ := Option.isSome_iff_exists.1 hk
  unfold insertMapElement
  have := (descend_none (lt := nameLt) k m []).2 ⟨x, hx⟩
  rw [this]

theorem deep_insert {full : Prop} {m m' : Tree Bytes (Value D)} {o o' : List Bytes} {k : Bytes} {v : Value D} {b : Bool}
    (h : Deep full (.obj m o)) (hv : Deep full v) (e : insertMapElement nameLt m k v = some (b, m'))
    (ho : ∀ n ∈ o', n ∈ o ∨ n = k) : Deep full (.obj m' o') := by
  obtain ⟨h1, h2, h3⟩ := deep_obj.1 h
  obtain ⟨b', m'', e', a1, a2, a3, a4⟩ := insert_any h1 k v
  rw [e] at e'
  simp only [Option.some.injEq, Prod.mk.injEq] at e'
  obtain ⟨-, rfl⟩ := e'
  refine deep_obj.2 ⟨a1, fun hf n hn => ?_, fun k' x hx => ?_⟩
  · rcases ho n hn with hn | rfl
    · obtain ⟨x, hx⟩ := Option.isSome_iff_exists.1 (h2 hf n hn)
      rw [a3 n x hx]; rfl
    · exact a2
  · rcases a4 k' x hx with hx | rfl
    · exact h3 k' x hx
    · exact hv

mutual
/-- A type whose data are never written over the members of an object: neither a map nor a field list that begins with
one in the same value. -/
def Ty.Onto : Ty → Prop
  | .map _ => False
  | .stdMap _ => False
  | .struct _ fs => fs.Onto
  | _ => True
/-- The same for field lists. -/
def Fields.Onto : Fields → Prop
  | .nil => True
  | .here t rest => t.Onto ∧ rest.Onto
  | .named _ _ _ rest => rest.Onto
end

mutual
/-- No field list in the type puts a map into the value of the list itself. -/
def Ty.Calm : Ty → Prop
  | .arr t => t.Calm
  | .map t => t.Calm
  | .vec t => t.Calm
  | .stdMap t => t.Calm
  | .struct _ fs => fs.Calm
  | _ => True
/-- The same for field lists. -/
def Fields.Calm : Fields → Prop
  | .nil => True
  | .here t rest => t.Calm ∧ t.Onto ∧ rest.Calm
  | .named _ _ t rest => t.Calm ∧ rest.Calm
end

theorem calm_onto : ∀ fs : Fields, fs.Calm → fs.Onto
  | .nil, _ => trivial
  | .here _ rest, h => ⟨h.2.1, calm_onto rest h.2.2⟩
  | .named _ _ _ rest, h => calm_onto rest h.2

/-- What `Serialize` may do to `v`. -/
def Done (full : Prop) (r : Out (Status × Value D)) : Prop :=
  ∃ st v', r = .ok (st, v') ∧ (st = .kOk ∨ st = .kInvalidValueType) ∧ Deep full v'

theorem serElems_done {full : Prop} {α : Type} {f : α → Out (Status × Value D)} (hf : ∀ d, Done full (f d)) (ds : List α)
    (acc : List (Value D)) (ha : ∀ x ∈ acc, Deep full x) : Done full (serElems f ds acc) := by
  induction ds generalizing acc with
  | nil => exact ⟨_, _, rfl, .inl rfl, deep_arr.2 ha⟩
  | cons d ds ih =>
    obtain ⟨st, v', e, hs, hd⟩ := hf d
    simp only [serElems, e, Out.ok_bind]
    split
    · exact ⟨_, _, rfl, hs, deep_arr.2 ha⟩
    · exact ih _ (by
        intro x hx
        rcases List.mem_append.1 hx with hx | hx
        · exact ha x hx
        · rw [List.mem_singleton.1 hx]; exact hd)

theorem serVector_done {full : Prop} {α : Type} {f : α → Out (Status × Value D)} (hf : ∀ d, Done full (f d)) (ds : List α)
    (acc : List (Value D)) (ha : ∀ x ∈ acc, Deep full x) : Done full (serVector f ds acc) := by
  induction ds generalizing acc with
  | nil => exact ⟨_, _, rfl, .inl rfl, deep_arr.2 ha⟩
  | cons d ds ih =>
    obtain ⟨st, v', e, hs, hd⟩ := hf d
    have ha' : ∀ x ∈ acc ++ [v'], Deep full x := by
      intro x hx
      rcases List.mem_append.1 hx with hx | hx
      · exact ha x hx
      · rw [List.mem_singleton.1 hx]; exact hd
    simp only [serVector, e, Out.ok_bind]
    split
    · exact ⟨_, _, rfl, hs, deep_arr.2 ha'⟩
    · exact ih _ ha'

theorem serEntries_done {full : Prop} {α : Type} {f : α → Out (Status × Value D)} (hf : ∀ d, Done full (f d))
    (key : Bytes → Bytes) (order : List Bytes) (ds : List (Bytes × α)) (m : Tree Bytes (Value D))
    (hm : Deep full (.obj m order)) : Done full (serEntries f key order ds m) := by
  induction ds generalizing m with
  | nil => exact ⟨_, _, rfl, .inl rfl, hm⟩
  | cons d ds ih =>
    obtain ⟨k, d⟩ := d
    obtain ⟨st, v', e, hs, hd⟩ := hf d
    simp only [serEntries, e, Out.ok_bind]
    split
    · exact ⟨_, _, rfl, hs, hm⟩
    · obtain ⟨b, m', e', -⟩ := insert_any (deep_obj.1 hm).1 (key k) v'
      simp only [e']
      exact ih m' (deep_insert hm hd e' fun n hn => .inl hn)

theorem serNamed_done {full : Prop} {f : Out (Status × Value D)} (hf : Done full f) (v : Value D) (hv : Deep full v)
    (name : Bytes) : Done full (serNamed f v name) := by
  obtain ⟨st, x, e, hs, hd⟩ := hf
  cases v with
  | obj m o =>
    obtain ⟨b, m', e', -⟩ := insert_any (deep_obj.1 hv).1 name x
    simp only [serNamed, e, Out.ok_bind, insertAccounted, e']
    refine ⟨_, _, rfl, .inl rfl, deep_insert hv hd e' ?_⟩
    intro n hn
    rcases List.mem_append.1 hn with hn | hn
    · exact .inl hn
    · exact .inr (List.mem_singleton.1 hn)
  | arr l =>
    simp only [serNamed, e, Out.ok_bind]
    refine ⟨_, _, rfl, hs, deep_arr.2 ?_⟩
    intro y hy
    rcases List.mem_append.1 hy with hy | hy
    · exact deep_arr.1 hv y hy
    · rw [List.mem_singleton.1 hy]; exact hd
  | str _ => exact ⟨_, _, rfl, .inr rfl, hv⟩
  | num _ => exact ⟨_, _, rfl, .inr rfl, hv⟩
  | bool _ => exact ⟨_, _, rfl, .inr rfl, hv⟩
  | null => exact ⟨_, _, rfl, .inr rfl, hv⟩

theorem deep_scalar {full : Prop} {v : Value D} (h : ∀ l, v ≠ .arr l) (h' : ∀ m o, v ≠ .obj m o) : Deep full v := by
  cases v with
  | arr l => exact absurd rfl (h l)
  | obj m o => exact absurd rfl (h' m o)
  | _ => exact deep_leaf trivial fun s => rfl

theorem deep_create {full : Prop} (init : D) (t : Ty) : Deep full (createValueFor init t) := by
  cases t <;> first
    | exact deep_empty
    | exact deep_arr.2 (by simp)
    | exact deep_leaf trivial fun s => rfl

/-- The members of the object have not been listed. -/
def Unlisted (v : Value D) : Prop := ∀ m o, v = .obj m o → o = []

theorem unlisted_create (init : D) (t : Ty) : Unlisted (createValueFor init t) := by
  intro m o h
  cases t <;> simp [createValueFor] at h <;> exact h.2

mutual
theorem serialize_done {full : Prop} (init : D) : ∀ (t : Ty) (d : t.Den D) (v : Value D), Deep full v →
    (full → t.Calm ∧ (t.Onto ∨ Unlisted v)) → Done full (serialize init t d v)
  | .str, d, v, hv, _ => by
    unfold serialize
    split
    · exact ⟨_, _, rfl, .inl rfl, deep_leaf trivial fun s => rfl⟩
    · exact ⟨_, _, rfl, .inr rfl, hv⟩
  | .num, d, v, hv, _ => by
    unfold serialize
    split
    · exact ⟨_, _, rfl, .inl rfl, deep_leaf trivial fun s => rfl⟩
    · exact ⟨_, _, rfl, .inr rfl, hv⟩
  | .bool, d, v, hv, _ => by
    unfold serialize
    split
    · exact ⟨_, _, rfl, .inl rfl, deep_leaf trivial fun s => rfl⟩
    · exact ⟨_, _, rfl, .inr rfl, hv⟩
  | .null, d, v, hv, _ => by
    unfold serialize
    split
    · exact ⟨_, _, rfl, .inl rfl, deep_leaf trivial fun s => rfl⟩
    · exact ⟨_, _, rfl, .inr rfl, hv⟩
  | .stdString, d, v, hv, _ => by
    unfold serialize
    split
    · exact ⟨_, _, rfl, .inl rfl, deep_leaf trivial fun s => rfl⟩
    · exact ⟨_, _, rfl, .inr rfl, hv⟩
  | .arr t, d, v, hv, h => by
    unfold serialize
    split
    · exact serElems_done (fun x => serialize_done init t x _ (deep_create init t)
        fun hf => ⟨(h hf).1, .inr (unlisted_create init t)⟩) d [] (by simp)
    · exact ⟨_, _, rfl, .inr rfl, hv⟩
  | .vec t, d, v, hv, h => by
    unfold serialize
    split
    · exact serVector_done (fun x => serialize_done init t x _ (deep_create init t)
        fun hf => ⟨(h hf).1, .inr (unlisted_create init t)⟩) d [] (by simp)
    · exact ⟨_, _, rfl, .inr rfl, hv⟩
  | .map t, d, v, hv, h => by
    unfold serialize
    split
    · rename_i m order
      refine serEntries_done (fun x => serialize_done init t x _ (deep_create init t)
        fun hf => ⟨(h hf).1, .inr (unlisted_create init t)⟩) id order d .nil (deep_obj.2 ⟨treeOk_nil, fun hf => ?_, by
          simp [findMapElement]⟩)
      rcases (h hf).2 with h | h
      · exact h.elim
      · rw [h m order rfl]; simp
    · exact ⟨_, _, rfl, .inr rfl, hv⟩
  | .stdMap t, d, v, hv, h => by
    unfold serialize
    split
    · rename_i m order
      refine serEntries_done (fun x => serialize_done init t x _ (deep_create init t)
        fun hf => ⟨(h hf).1, .inr (unlisted_create init t)⟩) cText order d .nil (deep_obj.2 ⟨treeOk_nil, fun hf => ?_, by
          simp [findMapElement]⟩)
      rcases (h hf).2 with h | h
      · exact h.elim
      · rw [h m order rfl]; simp
    · exact ⟨_, _, rfl, .inr rfl, hv⟩
  | .struct _ fs, d, v, hv, h => by
    unfold serialize
    exact serProto_done init fs d v hv fun hf => (h hf).1
theorem serProto_done {full : Prop} (init : D) : ∀ (fs : Fields) (d : fs.Den D) (v : Value D), Deep full v →
    (full → fs.Calm) → Done full (serProto init fs d v)
  | .nil, d, v, hv, _ => ⟨_, _, rfl, .inl rfl, hv⟩
  | .here t rest, d, v, hv, h => by
    unfold serProto
    obtain ⟨st, v', e, hs, hd⟩ := serialize_done init t d.1 v hv fun hf => ⟨(h hf).1, .inl (h hf).2.1⟩
    simp only [e, Out.ok_bind]
    split
    · exact ⟨_, _, rfl, hs, hd⟩
    · exact serProto_done init rest d.2 v' hd fun hf => (h hf).2.2
  | .named opt name t rest, d, v, hv, h => by
    unfold serProto
    obtain ⟨st, v', e, hs, hd⟩ := serNamed_done (serialize_done init t d.1 _ (deep_create init t)
      fun hf => ⟨(h hf).1, .inr (unlisted_create init t)⟩) v hv name
    simp only [e, Out.ok_bind]
    split
    · exact ⟨_, _, rfl, hs, hd⟩
    · exact serProto_done init rest d.2 v' hd fun hf => (h hf).2
end

/-! ### Named fields that are present -/

/-- The field list consists of named fields, possibly in user types that share the value. -/
def Fields.Members : Fields → Prop
  | .nil => True
  | .here (.struct _ fs) rest => fs.Members ∧ rest.Members
  | .here _ _ => False
  | .named _ _ _ rest => rest.Members

/-- Serializing fields that are present leaves the members as they are and lists the names again. -/
theorem serProto_present (init : D) : ∀ (fs : Fields), fs.Members → ∀ (d : fs.Den D) (m : Tree Bytes (Value D))
    (o : List Bytes), (∀ n ∈ fs.names, (findMapElement nameLt n m).isSome) →
    serProto init fs d (.obj m o) = .ok (.kOk, .obj m (o ++ fs.names))
  | .nil, _, d, m, o, _ => by simp [serProto, Fields.names]
  | .here (.struct id fs) rest, hm, d, m, o, h => by
    simp only [Fields.names, Ty.names, List.mem_append] at h
    have h1 := serProto_present init fs hm.1 d.1 m o fun n hn => h n (.inl hn)
    have h2 := serProto_present init rest hm.2 d.2 m (o ++ fs.names) fun n hn => h n (.inr hn)
    simp [serProto, serialize, h1, h2, Fields.names, Ty.names]
  | .named opt name t rest, hm, d, m, o, h => by
    simp only [Fields.names, List.mem_cons, forall_eq_or_imp] at h
    obtain ⟨st, x, e, -⟩ := serialize_done (full := False) init t d.1 _ (deep_create init t) (fun hf => hf.elim)
    have h2 := serProto_present init rest hm d.2 m (o ++ [name]) h.2
    have h3 := insert_present x h.1
    simp [serProto, serNamed, e, insertAccounted, h3, h2, Fields.names]

theorem insert_names {m m' : Tree Bytes (Value D)} (hm : TreeOk m) {k : Bytes} {v : Value D} {b : Bool}
    (e : insertMapElement nameLt m k v = some (b, m')) : TreeOk m' ∧ (findMapElement nameLt k m').isSome ∧
      ∀ n, (findMapElement nameLt n m).isSome → (findMapElement nameLt n m').isSome := by
  obtain ⟨b', m'', e', a1, a2, a3, -⟩ := insert_any hm k v
  rw [e] at e'
  simp only [Option.some.injEq, Prod.mk.injEq] at e'
  obtain ⟨-, rfl⟩ := e'
  refine ⟨a1, a2, fun n hn => ?_⟩
  obtain ⟨x, hx⟩ := Option.isSome_iff_exists.1 hn
  rw [a3 n x hx]; rfl

/-- Serializing fields makes them present and lists their names. -/
theorem serProto_makes (init : D) : ∀ (fs : Fields), fs.Members → ∀ (d : fs.Den D) (m : Tree Bytes (Value D))
    (o : List Bytes), TreeOk m → ∃ m', serProto init fs d (.obj m o) = .ok (.kOk, .obj m' (o ++ fs.names)) ∧ TreeOk m' ∧
      (∀ n, (findMapElement nameLt n m).isSome → (findMapElement nameLt n m').isSome) ∧
      (∀ n ∈ fs.names, (findMapElement nameLt n m').isSome)
  | .nil, _, d, m, o, hm => ⟨m, by simp [serProto, Fields.names], hm, fun _ h => h, by simp [Fields.names]⟩
  | .here (.struct id fs) rest, hm, d, m, o, ht => by
    obtain ⟨m1, e1, t1, k1, n1⟩ := serProto_makes init fs hm.1 d.1 m o ht
    obtain ⟨m2, e2, t2, k2, n2⟩ := serProto_makes init rest hm.2 d.2 m1 (o ++ fs.names) t1
    refine ⟨m2, by simp [serProto, serialize, e1, e2, Fields.names, Ty.names], t2, fun n hn => k2 n (k1 n hn), ?_⟩
    intro n hn
    simp only [Fields.names, Ty.names, List.mem_append] at hn
    rcases hn with hn | hn
    · exact k2 n (n1 n hn)
    · exact n2 n hn
  | .named opt name t rest, hm, d, m, o, ht => by
    obtain ⟨st, x, e, -⟩ := serialize_done (full := False) init t d.1 _ (deep_create init t) (fun hf => hf.elim)
    obtain ⟨b, m1, e1, -⟩ := insert_any ht name x
    obtain ⟨t1, a1, k1⟩ := insert_names ht e1
    obtain ⟨m2, e2, t2, k2, n2⟩ := serProto_makes init rest hm d.2 m1 (o ++ [name]) t1
    refine ⟨m2, by simp [serProto, serNamed, e, insertAccounted, e1, e2, Fields.names], t2, fun n hn => k2 n (k1 n hn), ?_⟩
    intro n hn
    simp only [Fields.names, List.mem_cons] at hn
    rcases hn with rfl | hn
    · exact k2 n a1
    · exact n2 n hn

/-- Members of maps are not listed. -/
theorem serEntries_order {α : Type} (f : α → Out (Status × Value D)) (key : Bytes → Bytes) (order : List Bytes)
    (ds : List (Bytes × α)) (m : Tree Bytes (Value D)) {st : Status} {v : Value D}
    (h : serEntries f key order ds m = .ok (st, v)) : ∃ m', v = .obj m' order := by
  induction ds generalizing m with
  | nil => simp only [serEntries, Out.ok.injEq, Prod.mk.injEq] at h; exact ⟨m, h.2.symm⟩
  | cons d ds ih =>
    obtain ⟨k, d⟩ := d
    simp only [serEntries, Out.bind_eq_ok] at h
    obtain ⟨r, -, h⟩ := h
    split at h
    · simp only [Out.ok.injEq, Prod.mk.injEq] at h; exact ⟨m, h.2.symm⟩
    · split at h
      · simp at h
      · exact ih _ h

/-- Elements are written to an array. -/
theorem serElems_arr {α : Type} (f : α → Out (Status × Value D)) (ds : List α) (acc : List (Value D)) {st : Status}
    {v : Value D} (h : serElems f ds acc = .ok (st, v)) : ∃ l, v = .arr l := by
  induction ds generalizing acc with
  | nil => simp only [serElems, Out.ok.injEq, Prod.mk.injEq] at h; exact ⟨acc, h.2.symm⟩
  | cons d ds ih =>
    simp only [serElems, Out.bind_eq_ok] at h
    obtain ⟨r, -, h⟩ := h
    split at h
    · simp only [Out.ok.injEq, Prod.mk.injEq] at h; exact ⟨acc, h.2.symm⟩
    · exact ih _ h

/-! ### Documents that have been parsed -/

mutual
theorem interp_deep {full : Prop} (N : NumOps D) : ∀ j : J, Deep full (interp N j)
  | .null => deep_leaf trivial fun s => rfl
  | .bool _ => deep_leaf trivial fun s => rfl
  | .num _ => deep_leaf trivial fun s => rfl
  | .str _ => deep_leaf trivial fun s => rfl
  | .arr l => deep_arr.2 (interpL_deep N l)
  | .obj m => by
    have := interpM_deep (full := full) N m .nil [] deep_empty
    simpa [interp] using this
theorem interpL_deep {full : Prop} (N : NumOps D) : ∀ l : JL, ∀ x ∈ interpL N l, Deep full x
  | .nil => by simp [interpL]
  | .cons j l => by
    intro x hx
    simp only [interpL, List.mem_cons] at hx
    rcases hx with rfl | hx
    · exact interp_deep N j
    · exact interpL_deep N l x hx
theorem interpM_deep {full : Prop} (N : NumOps D) : ∀ (m : JM) (t : Tree Bytes (Value D)) (o : List Bytes),
    Deep full (.obj t o) → Deep full (.obj (interpM N m t) (o ++ m.names))
  | .nil, t, o, h => by simpa [interpM, JM.names] using h
  | .cons k j m, t, o, h => by
    obtain ⟨b, t', e, -⟩ := insert_any (deep_obj.1 h).1 k (interp N j)
    have e' : addMember t k (interp N j) = t' := by unfold addMember; rw [e]
    have := interpM_deep N m t' (o ++ [k]) (deep_insert h (interp_deep N j) e (by
      intro n hn
      rcases List.mem_append.1 hn with hn | hn
      · exact .inl hn
      · exact .inr (List.mem_singleton.1 hn)))
    simpa [interpM, JM.names, e'] using this
end

/-! ### Replacing a value in place -/

/-- The member `k` replaced. -/
def setMember (k : Bytes) (x : Value D) : Tree Bytes (Value D) → Tree Bytes (Value D)
  | .nil => .nil
  | .node b l nk nv r => .node b (setMember k x l) nk (if nk = k then x else nv) (setMember k x r)

/-- The value reached by a step replaced by `x`. -/
def replaceChild (v : Value D) (s : Step) (x : Value D) : Value D :=
  match v, s with
  | .arr l, .index i => .arr (l.set i x)
  | .obj m o, .member k => .obj (setMember k x m) o
  | v, _ => v

theorem setMember_toList (k : Bytes) (x : Value D) (m : Tree Bytes (Value D)) :
    toList (setMember k x m) = (toList m).map fun e => (e.1, if e.1 = k then x else e.2) := by
  induction m with
  | nil => rfl
  | node b l nk nv r ihl ihr => simp [setMember, toList, ihl, ihr]

theorem setMember_height (k : Bytes) (x : Value D) (m : Tree Bytes (Value D)) : height (setMember k x m) = height m := by
  induction m with
  | nil => rfl
  | node b l nk nv r ihl ihr => simp [setMember, height, ihl, ihr]

theorem setMember_bal (k : Bytes) (x : Value D) (m : Tree Bytes (Value D)) (h : Bal m) : Bal (setMember k x m) := by
  induction m with
  | nil => trivial
  | node b l nk nv r ihl ihr =>
    obtain ⟨h1, h2, h3⟩ := h
    exact ⟨ihl h1, ihr h2, by simpa [setMember_height] using h3⟩

theorem setMember_inv {m : Tree Bytes (Value D)} {A : AMap Bytes (Value D)} (h : MapInv nameLt m A) (k : Bytes)
    (x : Value D) : MapInv nameLt (setMember k x m) (fun n => if n = k then (A n).map fun _ => x else A n) := by
  refine ⟨setMember_bal k x m h.bal, ?_, fun n v => ?_⟩
  · rw [setMember_toList]
    exact List.pairwise_map.2 h.sorted
  · rw [setMember_toList]
    simp only [List.mem_map, Prod.mk.injEq, Prod.exists]
    constructor
    · rintro ⟨a, b, hab, rfl, rfl⟩
      have := (h.mem a b).1 hab
      by_cases ha : a = k <;> simp [ha, this]
      subst ha; exact ⟨_, this⟩
    · intro hv
      by_cases hn : n = k
      · rw [if_pos hn] at hv
        simp only [Option.map_eq_some_iff] at hv
        obtain ⟨b, hb, rfl⟩ := hv
        exact ⟨n, b, (h.mem n b).2 hb, rfl, by simp [hn]⟩
      · rw [if_neg hn] at hv
        exact ⟨n, v, (h.mem n v).2 hv, rfl, by simp [hn]⟩

theorem deep_replace {full : Prop} {v x : Value D} (hv : Deep full v) (hx : Deep full x) (s : Step) :
    Deep full (replaceChild v s x) := by
  cases v with
  | arr l =>
    cases s with
    | index i =>
      refine deep_arr.2 fun y hy => ?_
      rcases List.mem_or_eq_of_mem_set hy with hy | rfl
      · exact deep_arr.1 hv y hy
      · exact hx
    | member k => exact hv
  | obj m o =>
    cases s with
    | index i => exact hv
    | member k =>
      obtain ⟨⟨A, hA⟩, h2, h3⟩ := deep_obj.1 hv
      have h' := setMember_inv hA k x
      refine deep_obj.2 ⟨⟨_, h'⟩, fun hf n hn => ?_, fun n e he => ?_⟩
      · have := h2 hf n hn
        rw [mapInv_find nameLt_strict hA] at this
        rw [mapInv_find nameLt_strict h']
        by_cases h : n = k <;> simp_all
      · rw [mapInv_find nameLt_strict h'] at he
        by_cases h : n = k
        · subst h
          cases hAn : A n with
          | none => simp [hAn] at he
          | some y => simp [hAn] at he; subst he; exact hx
        · have : findMapElement nameLt n m = some e := by
            rw [mapInv_find nameLt_strict hA]; simpa [h] using he
          exact h3 n e this
  | str _ => exact hv
  | num _ => exact hv
  | bool _ => exact hv
  | null => exact hv

end Verif.Serial
