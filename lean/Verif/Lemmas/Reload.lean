import Verif.Spec.Reload
import Verif.Lemmas.SerialFields
import Verif.Lemmas.Reserial

/-!
# Reading a document twice
-/

namespace Verif.Serial

open Verif Verif.Map Verif.Text Verif.Parser Verif.Write Verif.Spec Verif.Doc

variable {D : Type}

/-! ## Sorted lists -/

theorem get_mem {α : Type} {k : Bytes} {x : α} {l : List (Bytes × α)} (h : get k l = some x) : (k, x) ∈ l := by
  induction l with
  | nil => simp [get] at h
  | cons e l ih =>
    obtain ⟨a, y⟩ := e
    simp only [get] at h
    split at h
    · rename_i e
      simp only [Option.some.injEq] at h
      subst e h; simp
    · exact List.mem_cons_of_mem _ (ih h)

theorem put_mem {α : Type} {k : Bytes} {x : α} {l : List (Bytes × α)} {e : Bytes × α} (h : e ∈ put k x l) :
    e = (k, x) ∨ e ∈ l := by
  induction l with
  | nil => simpa [put] using h
  | cons a l ih =>
    obtain ⟨a, y⟩ := a
    simp only [put] at h
    split at h
    · rcases List.mem_cons.1 h with h | h
      · exact .inl h
      · exact .inr (List.mem_cons_of_mem _ h)
    · split at h
      · rcases List.mem_cons.1 h with h | h
        · exact .inl h
        · exact .inr h
      · rcases List.mem_cons.1 h with h | h
        · exact .inr (h ▸ List.mem_cons_self)
        · exact (ih h).imp id (List.mem_cons_of_mem _)

theorem put_sorted {α : Type} (k : Bytes) (x : α) (l : List (Bytes × α)) (hs : Sorted nameLt l) : Sorted nameLt (put k x l) := by
  induction l with
  | nil => simp [put, Sorted]
  | cons e l ih =>
    obtain ⟨a, y⟩ := e
    have hs' := List.pairwise_cons.1 hs
    simp only [put]
    split
    · rename_i e
      subst e
      exact List.pairwise_cons.2 ⟨hs'.1, hs'.2⟩
    · split
      · rename_i h
        refine List.pairwise_cons.2 ⟨fun b hb => ?_, hs⟩
        rcases List.mem_cons.1 hb with rfl | hb
        · exact h
        · exact nameLt_strict.trans _ _ _ h (hs'.1 b hb)
      · rename_i h1 h2
        refine List.pairwise_cons.2 ⟨fun b hb => ?_, ih hs'.2⟩
        rcases put_mem hb with rfl | hb
        · cases h : nameLt a k with
          | true => rfl
          | false => exact absurd (nameLt_strict.total _ _ h (by simpa using h2)) h1
        · exact hs'.1 b hb

theorem put_same {α : Type} {k : Bytes} {x : α} {l : List (Bytes × α)} (hs : Sorted nameLt l) (h : get k l = some x) :
    put k x l = l := by
  induction l with
  | nil => simp [get] at h
  | cons e l ih =>
    obtain ⟨a, y⟩ := e
    have hs' := List.pairwise_cons.1 hs
    simp only [get] at h
    simp only [put]
    split at h
    · rename_i e
      simp only [Option.some.injEq] at h
      subst e h
      simp
    · rename_i hne
      rw [if_neg hne]
      have := hs'.1 _ (get_mem h)
      rw [if_neg (by rw [StrictTotal.asymm nameLt_strict this]; simp), ih hs'.2 h]

/-! ## The loops -/

section
variable {α : Type} {P : α → Prop} {f : Value D → α → Status × α} {dflt : α}

theorem desMap_keeps (hP : ∀ x o, P o → P (f x o).2) (hd : P dflt) (l : List (Bytes × Value D)) (data : List (Bytes × α))
    (hs : Sorted nameLt data) (hp : ∀ e ∈ data, P e.2) :
    Sorted nameLt (desMap f dflt l data).2 ∧ ∀ e ∈ (desMap f dflt l data).2, P e.2 := by
  induction l generalizing data with
  | nil => exact ⟨hs, hp⟩
  | cons a l ih =>
    obtain ⟨k, v⟩ := a
    have key : ∀ o, P o → Sorted nameLt (put k (f v o).2 data) ∧ ∀ e ∈ put k (f v o).2 data, P e.2 := by
      intro o ho
      refine ⟨put_sorted _ _ _ hs, fun e he => ?_⟩
      rcases put_mem he with rfl | he
      · exact hP _ _ ho
      · exact hp e he
    simp only [desMap]
    cases hg : get k data with
    | some old =>
      have := key old (hp _ (get_mem hg))
      dsimp only
      split
      · exact this
      · exact ih _ this.1 this.2
    | none =>
      have := key dflt hd
      dsimp only
      split
      · exact ⟨hs, hp⟩
      · exact ih _ this.1 this.2

theorem desStdMap_keeps (hP : ∀ x o, P o → P (f x o).2) (hd : P dflt) (l : List (Bytes × Value D)) (data : List (Bytes × α))
    (hs : Sorted nameLt data) (hp : ∀ e ∈ data, P e.2) :
    Sorted nameLt (desStdMap f dflt l data).2 ∧ ∀ e ∈ (desStdMap f dflt l data).2, P e.2 := by
  induction l generalizing data with
  | nil => exact ⟨hs, hp⟩
  | cons a l ih =>
    obtain ⟨k, v⟩ := a
    have h0 : P ((get (cText k) data).getD dflt) := by
      cases hg : get (cText k) data with
      | none => exact hd
      | some old => exact hp _ (get_mem hg)
    have := put_sorted (cText k) (f v ((get (cText k) data).getD dflt)).2 data hs
    have h2 : ∀ e ∈ put (cText k) (f v ((get (cText k) data).getD dflt)).2 data, P e.2 := by
      intro e he
      rcases put_mem he with rfl | he
      · exact hP _ _ h0
      · exact hp e he
    simp only [desStdMap]
    split
    · exact ⟨this, h2⟩
    · exact ih _ this h2

theorem desMap_other (l : List (Bytes × Value D)) (data : List (Bytes × α)) (k : Bytes) (hk : k ∉ l.map fun e => e.1) :
    get k (desMap f dflt l data).2 = get k data := by
  induction l generalizing data with
  | nil => rfl
  | cons a l ih =>
    obtain ⟨k', v⟩ := a
    simp only [List.map_cons, List.mem_cons, not_or] at hk
    simp only [desMap]
    split <;> split <;> simp [ih _ hk.2, get_put, hk.1]

theorem desStdMap_other (l : List (Bytes × Value D)) (data : List (Bytes × α)) (k : Bytes) (hk : k ∉ l.map fun e => cText e.1) :
    get k (desStdMap f dflt l data).2 = get k data := by
  induction l generalizing data with
  | nil => rfl
  | cons a l ih =>
    obtain ⟨k', v⟩ := a
    simp only [List.map_cons, List.mem_cons, not_or] at hk
    simp only [desStdMap]
    split <;> simp [ih _ hk.2, get_put, hk.1]

theorem desMap_twice (hP : ∀ x o, P o → P (f x o).2) (hd : P dflt) (l : List (Bytes × Value D)) (data : List (Bytes × α))
    (hf : ∀ e ∈ l, ∀ o, P o → f e.2 (f e.2 o).2 = f e.2 o) (hn : (l.map fun e => e.1).Nodup)
    (hs : Sorted nameLt data) (hp : ∀ e ∈ data, P e.2) :
    desMap f dflt l (desMap f dflt l data).2 = desMap f dflt l data := by
  induction l generalizing data with
  | nil => rfl
  | cons a l ih =>
    obtain ⟨k, v⟩ := a
    simp only [List.map_cons, List.nodup_cons] at hn
    -- the state after this entry, for the contents `o` it found or made
    have key : ∀ o, P o → (f v o).1 = .kOk → ∀ R, R = desMap f dflt l (put k (f v o).2 data) →
        desMap f dflt ((k, v) :: l) R.2 = R := by
      intro o ho hk R hR
      have hsp := put_sorted k (f v o).2 data hs
      have hpp : ∀ e ∈ put k (f v o).2 data, P e.2 := by
        intro e he
        rcases put_mem he with rfl | he
        · exact hP _ _ ho
        · exact hp e he
      have hg : get k R.2 = some (f v o).2 := by
        rw [hR, desMap_other l _ k hn.1, get_put, if_pos rfl]
      have hi := hf (k, v) (by simp) o ho
      have hRs := (desMap_keeps hP hd l _ hsp hpp).1
      rw [← hR] at hRs
      simp only [desMap, hg]
      dsimp only at hi
      rw [hi, if_neg (by simpa using hk), put_same hRs hg, hR]
      exact ih _ (fun e he => hf e (by simp [he])) hn.2 hsp hpp
    have hi := fun o ho => hf (k, v) (by simp) o ho
    cases hg : get k data with
    | some old =>
      have ho := hp _ (get_mem hg)
      by_cases hk : (f v old).1 = .kOk
      · have e : desMap f dflt ((k, v) :: l) data = desMap f dflt l (put k (f v old).2 data) := by
          simp only [desMap, hg]; rw [if_neg (by simpa using hk)]
        rw [e]
        exact key old ho hk _ rfl
      · have e : desMap f dflt ((k, v) :: l) data = ((f v old).1, put k (f v old).2 data) := by
          simp only [desMap, hg]; rw [if_pos hk]
        rw [e]
        have hg' : get k (put k (f v old).2 data) = some (f v old).2 := by rw [get_put, if_pos rfl]
        simp only [desMap, hg']
        have := hi old ho
        dsimp only at this
        rw [this, if_pos hk, put_same (put_sorted _ _ _ hs) hg']
    | none =>
      by_cases hk : (f v dflt).1 = .kOk
      · have e : desMap f dflt ((k, v) :: l) data = desMap f dflt l (put k (f v dflt).2 data) := by
          simp only [desMap, hg]; rw [if_neg (by simpa using hk)]
        rw [e]
        exact key dflt hd hk _ rfl
      · have e : desMap f dflt ((k, v) :: l) data = ((f v dflt).1, data) := by
          simp only [desMap, hg]; rw [if_pos hk]
        rw [e]
        exact e

theorem desStdMap_twice (hP : ∀ x o, P o → P (f x o).2) (hd : P dflt) (l : List (Bytes × Value D)) (data : List (Bytes × α))
    (hf : ∀ e ∈ l, ∀ o, P o → f e.2 (f e.2 o).2 = f e.2 o) (hn : (l.map fun e => cText e.1).Nodup)
    (hs : Sorted nameLt data) (hp : ∀ e ∈ data, P e.2) :
    desStdMap f dflt l (desStdMap f dflt l data).2 = desStdMap f dflt l data := by
  induction l generalizing data with
  | nil => rfl
  | cons a l ih =>
    obtain ⟨k, v⟩ := a
    simp only [List.map_cons, List.nodup_cons] at hn
    have ho : P ((get (cText k) data).getD dflt) := by
      cases hg : get (cText k) data with
      | none => exact hd
      | some old => exact hp _ (get_mem hg)
    generalize hoe : (get (cText k) data).getD dflt = o at ho
    have hi := hf (k, v) (by simp) o ho
    dsimp only at hi
    have hsp := put_sorted (cText k) (f v o).2 data hs
    have hpp : ∀ e ∈ put (cText k) (f v o).2 data, P e.2 := by
      intro e he
      rcases put_mem he with rfl | he
      · exact hP _ _ ho
      · exact hp e he
    by_cases hk : (f v o).1 = .kOk
    · have e : desStdMap f dflt ((k, v) :: l) data = desStdMap f dflt l (put (cText k) (f v o).2 data) := by
        simp only [desStdMap, hoe]; rw [if_neg (by simpa using hk)]
      rw [e]
      have hg : get (cText k) (desStdMap f dflt l (put (cText k) (f v o).2 data)).2 = some (f v o).2 := by
        rw [desStdMap_other l _ _ hn.1, get_put, if_pos rfl]
      have hRs := (desStdMap_keeps hP hd l _ hsp hpp).1
      rw [desStdMap]
      simp only [hg, Option.getD_some, hi]
      rw [if_neg (by simpa using hk), put_same hRs hg]
      exact ih _ (fun e he => hf e (by simp [he])) hn.2 hsp hpp
    · have e : desStdMap f dflt ((k, v) :: l) data = ((f v o).1, put (cText k) (f v o).2 data) := by
        simp only [desStdMap, hoe]; rw [if_pos hk]
      rw [e]
      have hg' : get (cText k) (put (cText k) (f v o).2 data) = some (f v o).2 := by rw [get_put, if_pos rfl]
      simp only [desStdMap, hg', Option.getD_some, hi]
      rw [if_pos hk, put_same hsp hg']

theorem desElems_keeps {g : Value D → Status × α} (hg : ∀ x, P (g x).2) (l : List (Value D)) (data : List α) (hp : ∀ x ∈ data, P x) :
    ∀ x ∈ (desElems g l data).2, P x := by
  induction l generalizing data with
  | nil => exact hp
  | cons v l ih =>
    simp only [desElems]
    split
    · refine ih _ fun x hx => ?_
      rcases List.mem_append.1 hx with hx | hx
      · exact hp x hx
      · rw [List.mem_singleton.1 hx]; exact hg v
    · exact hp
end

/-! ## All types -/

variable (dflt : (t : Ty) → t.Den D)

theorem desNamed_keeps {α : Type} {P : α → Prop} {f : Value D → α → Status × α} (hP : ∀ x o, P o → P (f x o).2) (v : Value D) (n : Bytes)
    (o : α) (ho : P o) : P (desNamed f v n o).2 := by
  unfold desNamed
  split
  · split
    · exact ho
    · exact hP _ _ ho
  · exact ho

mutual
theorem des_ordered (hd : ∀ t, Ty.Ordered t (dflt t)) : ∀ (t : Ty) (v : Value D) (o : t.Den D), t.Ordered o →
    t.Ordered (deserialize dflt t v o).2
  | .str, _, _, _ => trivial
  | .num, _, _, _ => trivial
  | .bool, _, _, _ => trivial
  | .null, _, _, _ => trivial
  | .stdString, _, _, _ => trivial
  | .arr t, v, o, ho => by
    cases v with
    | arr l => exact desElems_keeps (P := t.Ordered) (fun x => des_ordered hd t x _ (hd t)) l [] (by simp)
    | _ => exact ho
  | .vec t, v, o, ho => by
    cases v with
    | arr l => exact desElems_keeps (P := t.Ordered) (fun x => des_ordered hd t x _ (hd t)) l [] (by simp)
    | _ => exact ho
  | .map t, v, o, ho => by
    cases v with
    | obj m _ => exact desMap_keeps (P := t.Ordered) (fun x o h => des_ordered hd t x o h) (hd t) _ o ho.1 ho.2
    | _ => exact ho
  | .stdMap t, v, o, ho => by
    cases v with
    | obj m _ => exact desStdMap_keeps (P := t.Ordered) (fun x o h => des_ordered hd t x o h) (hd t) _ o ho.1 ho.2
    | _ => exact ho
  | .struct _ fs, v, o, ho => desProto_ordered hd fs v o ho
theorem desProto_ordered (hd : ∀ t, Ty.Ordered t (dflt t)) : ∀ (fs : Fields) (v : Value D) (o : fs.Den D), fs.Ordered o →
    fs.Ordered (desProto dflt fs v o).2
  | .nil, _, _, _ => trivial
  | .here t rest, v, o, ho => by
    simp only [desProto]
    have h1 := des_ordered hd t v o.1 ho.1
    split
    · exact ⟨h1, ho.2⟩
    · exact ⟨h1, desProto_ordered hd rest v o.2 ho.2⟩
  | .named opt name t rest, v, o, ho => by
    simp only [desProto]
    have h1 : t.Ordered (desNamed (deserialize dflt t) v name o.1).2 :=
      desNamed_keeps (P := t.Ordered) (fun x o h => des_ordered hd t x o h) v name o.1 ho.1
    split
    · exact ⟨h1, ho.2⟩
    · exact ⟨h1, desProto_ordered hd rest v o.2 ho.2⟩
end

mutual
theorem des_twice (hd : ∀ t, Ty.Ordered t (dflt t)) : ∀ (t : Ty) (v : Value D) (o : t.Den D), Apart t v → t.Ordered o →
    deserialize dflt t v (deserialize dflt t v o).2 = deserialize dflt t v o
  | .str, v, _, _, _ => by cases v <;> rfl
  | .num, v, _, _, _ => by cases v <;> rfl
  | .bool, v, _, _, _ => by cases v <;> rfl
  | .null, v, _, _, _ => by cases v <;> rfl
  | .stdString, v, _, _, _ => by cases v <;> rfl
  | .arr t, v, o, _, _ => by cases v <;> rfl
  | .vec t, v, o, _, _ => by cases v <;> rfl
  | .map t, v, o, ha, ho => by
    cases v with
    | obj m _ =>
      simp only [Apart] at ha
      exact desMap_twice (P := t.Ordered) (fun x o h => des_ordered dflt hd t x o h) (hd t) _ o
        (fun e he o ho => des_twice hd t e.2 o (ha.2 e he) ho) ha.1 ho.1 ho.2
    | _ => rfl
  | .stdMap t, v, o, ha, ho => by
    cases v with
    | obj m _ =>
      simp only [Apart] at ha
      exact desStdMap_twice (P := t.Ordered) (fun x o h => des_ordered dflt hd t x o h) (hd t) _ o
        (fun e he o ho => des_twice hd t e.2 o (ha.2 e he) ho) ha.1 ho.1 ho.2
    | _ => rfl
  | .struct _ fs, v, o, ha, ho => desProto_twice hd fs v o (by simpa only [Apart] using ha) ho
theorem desProto_twice (hd : ∀ t, Ty.Ordered t (dflt t)) : ∀ (fs : Fields) (v : Value D) (o : fs.Den D), ApartF fs v → fs.Ordered o →
    desProto dflt fs v (desProto dflt fs v o).2 = desProto dflt fs v o
  | .nil, _, _, _, _ => rfl
  | .here t rest, v, o, ha, ho => by
    simp only [ApartF] at ha
    have h1 := des_twice hd t v o.1 ha.1 ho.1
    have h2 := desProto_twice hd rest v o.2 ha.2 ho.2
    simp only [desProto]
    by_cases hs : (deserialize dflt t v o.1).1 ≠ .kOk
    · simp only [if_pos hs, h1]
    · simp only [if_neg hs, h1, h2]
  | .named opt name t rest, v, o, ha, ho => by
    simp only [ApartF] at ha
    have h1 : desNamed (deserialize dflt t) v name (desNamed (deserialize dflt t) v name o.1).2 =
        desNamed (deserialize dflt t) v name o.1 := by
      cases v with
      | obj m ord =>
        cases hf : findMapElement nameLt name m with
        | none => simp [desNamed, hf]
        | some e => simpa [desNamed, hf] using des_twice hd t e.2 o.1 (ha.1 m ord e.1 e.2 rfl hf) ho.1
      | _ => rfl
    have h2 := desProto_twice hd rest v o.2 ha.2 ho.2
    simp only [desProto]
    by_cases hs : (desNamed (deserialize dflt t) v name o.1).1 ≠ .kOk ∧
        (opt = false ∨ (desNamed (deserialize dflt t) v name o.1).1 ≠ .kNameNotPresent)
    · simp only [if_pos hs, h1]
    · simp only [if_neg hs, h1, h2]
end

/-! ## Documents -/

/-- No name in the document contains a NUL. -/
def NulFreeNames (v : Value D) : Prop := ∀ p m o, walk v p = some (.obj m o) → ∀ e ∈ toList m, (0 : Byte) ∉ e.1

theorem treeOk_mem {m : Tree Bytes (Value D)} (h : TreeOk m) : Sorted nameLt (toList m) ∧
    ∀ e ∈ toList m, findMapElement nameLt e.1 m = some e := by
  obtain ⟨A, hA⟩ := h
  refine ⟨hA.sorted, fun e he => ?_⟩
  rw [mapInv_find nameLt_strict hA, (hA.mem e.1 e.2).1 he]
  rfl

theorem sorted_nodup {α : Type} {l : List (Bytes × α)} (h : Sorted nameLt l) : (l.map fun e => e.1).Nodup := by
  rw [List.nodup_iff_pairwise_ne, List.pairwise_map]
  refine h.imp fun {a b} hab he => ?_
  rw [he] at hab
  have := StrictTotal.asymm nameLt_strict hab
  rw [hab] at this
  simp at this

/-- Below `v`: search trees, and names without NUL if `nul` is false. -/
def Below (nul : Bool) (v : Value D) : Prop := Deep False v ∧ (nul = false → NulFreeNames v)

theorem Below.child {nul : Bool} {v x : Value D} (h : Below nul v) {s : Step} (hx : step v s = some x) : Below nul x :=
  ⟨h.1.child hx, fun hn p m o hw => h.2 hn (s :: p) m o (by simp [walk, hx, hw])⟩

theorem Below.elem {nul : Bool} {l : List (Value D)} (h : Below nul (.arr l)) {x : Value D} (hx : x ∈ l) : Below nul x := by
  obtain ⟨i, hi⟩ := List.getElem?_of_mem hx
  exact h.child (s := .index i) (by simp [step, hi])

theorem Below.found {nul : Bool} {m : Tree Bytes (Value D)} {o : List Bytes} (h : Below nul (.obj m o)) {n : Bytes} {e : Bytes × Value D}
    (he : findMapElement nameLt n m = some e) : Below nul e.2 :=
  h.child (s := .member n) (by simp [step, he])

theorem Below.entry {nul : Bool} {m : Tree Bytes (Value D)} {o : List Bytes} (h : Below nul (.obj m o)) {e : Bytes × Value D}
    (he : e ∈ toList m) : Below nul e.2 :=
  h.found ((treeOk_mem (deep_obj.1 h.1).1).2 e he)

mutual
/-- Has the type a `std::map`? -/
def Ty.hasStdMap : Ty → Bool
  | .stdMap _ => true
  | .arr t => t.hasStdMap
  | .vec t => t.hasStdMap
  | .map t => t.hasStdMap
  | .struct _ fs => fs.hasStdMap
  | .str => false
  | .num => false
  | .bool => false
  | .null => false
  | .stdString => false
/-- The same for field lists. -/
def Fields.hasStdMap : Fields → Bool
  | .nil => false
  | .here t rest => t.hasStdMap || rest.hasStdMap
  | .named _ _ t rest => t.hasStdMap || rest.hasStdMap
end

mutual
theorem apart_of : ∀ (t : Ty) (v : Value D) (nul : Bool), Below nul v → (nul = true → t.hasStdMap = false) → Apart t v
  | .str, v, _, _, _ => by cases v <;> simp [Apart]
  | .num, v, _, _, _ => by cases v <;> simp [Apart]
  | .bool, v, _, _, _ => by cases v <;> simp [Apart]
  | .null, v, _, _, _ => by cases v <;> simp [Apart]
  | .stdString, v, _, _, _ => by cases v <;> simp [Apart]
  | .arr t, v, nul, h, hn => by
    cases v with
    | arr l => simp only [Apart]; exact fun x hx => apart_of t x nul (h.elem hx) hn
    | _ => simp [Apart]
  | .vec t, v, nul, h, hn => by
    cases v with
    | arr l => simp only [Apart]; exact fun x hx => apart_of t x nul (h.elem hx) hn
    | _ => simp [Apart]
  | .map t, v, nul, h, hn => by
    cases v with
    | obj m o =>
      simp only [Apart]
      exact ⟨sorted_nodup (treeOk_mem (deep_obj.1 h.1).1).1, fun e he => apart_of t e.2 nul (h.entry he) hn⟩
    | _ => simp [Apart]
  | .stdMap t, v, nul, h, hn => by
    cases nul with
    | true => exact absurd (hn rfl) (by simp [Ty.hasStdMap])
    | false =>
      cases v with
      | obj m o =>
        simp only [Apart]
        refine ⟨?_, fun e he => apart_of t e.2 false (h.entry he) (by simp)⟩
        have : (toList m).map (fun e => cText e.1) = (toList m).map fun e => e.1 :=
          List.map_congr_left fun e he => cText_nul_free (h.2 rfl [] m o rfl e he)
        rw [this]
        exact sorted_nodup (treeOk_mem (deep_obj.1 h.1).1).1
      | _ => simp [Apart]
  | .struct _ fs, v, nul, h, hn => by
    simp only [Apart]
    exact apartF_of fs v nul h hn
theorem apartF_of : ∀ (fs : Fields) (v : Value D) (nul : Bool), Below nul v → (nul = true → fs.hasStdMap = false) → ApartF fs v
  | .nil, _, _, _, _ => by simp [ApartF]
  | .here t rest, v, nul, h, hn => by
    simp only [ApartF]
    have hn' : nul = true → t.hasStdMap = false ∧ rest.hasStdMap = false := fun e => by simpa [Fields.hasStdMap] using hn e
    exact ⟨apart_of t v nul h fun e => (hn' e).1, apartF_of rest v nul h fun e => (hn' e).2⟩
  | .named _ name t rest, v, nul, h, hn => by
    simp only [ApartF]
    have hn' : nul = true → t.hasStdMap = false ∧ rest.hasStdMap = false := fun e => by simpa [Fields.hasStdMap] using hn e
    refine ⟨fun m o k x hv hf => ?_, apartF_of rest v nul h fun e => (hn' e).2⟩
    subst hv
    exact apart_of t x nul (h.found hf) fun e => (hn' e).1
end

end Verif.Serial
