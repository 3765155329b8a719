import Verif.Spec.Evolve
import Verif.Lemmas.Serial

/-!
# Reading data of another version
-/

namespace Verif.Serial

open Verif Verif.Map Verif.Text Verif.Parser Verif.Write

variable {D : Type}

/-! ## Statuses -/

theorem firstBad_cases {α : Type} (f : α → Status) (P : Status → Prop) (h0 : P .kOk) (l : List α) (h : ∀ a ∈ l, P (f a)) :
    P (firstBad f l) := by
  induction l with
  | nil => exact h0
  | cons a l ih =>
    simp only [firstBad]
    split
    · exact h a (by simp)
    · exact ih fun a ha => h a (by simp [ha])

/-- The statuses of `Validate`. -/
def Usual (st : Status) : Prop := st = .kOk ∨ st = .kNameNotPresent ∨ st = .kInvalidValueType

theorem usual_ok : Usual .kOk := .inl rfl
theorem usual_inv : Usual .kInvalidValueType := .inr (.inr rfl)

theorem validateNamed_usual {f : Value D → Status} (hf : ∀ v, Usual (f v)) (v : Value D) (n : Bytes) :
    Usual (validateNamed f v n) := by
  unfold validateNamed
  split
  · split
    · exact .inr (.inl rfl)
    · exact hf _
  · exact usual_inv

mutual
theorem validate_usual : ∀ (t : Ty) (v : Value D), Usual (validate t v)
  | .str, v => by unfold validate; split <;> first | exact usual_ok | exact usual_inv
  | .num, v => by unfold validate; split <;> first | exact usual_ok | exact usual_inv
  | .bool, v => by unfold validate; split <;> first | exact usual_ok | exact usual_inv
  | .null, v => by unfold validate; split <;> first | exact usual_ok | exact usual_inv
  | .stdString, v => by unfold validate; split <;> first | exact usual_ok | exact usual_inv
  | .arr t, v => by
    unfold validate
    split
    · exact firstBad_cases _ _ usual_ok _ fun a _ => validate_usual t a
    · exact usual_inv
  | .vec t, v => by
    unfold validate
    split
    · exact firstBad_cases _ _ usual_ok _ fun a _ => validate_usual t a
    · exact usual_inv
  | .map t, v => by
    unfold validate
    split
    · exact firstBad_cases _ _ usual_ok _ fun a _ => validate_usual t a.2
    · exact usual_inv
  | .stdMap t, v => by
    unfold validate
    split
    · exact firstBad_cases _ _ usual_ok _ fun a _ => validate_usual t a.2
    · exact usual_inv
  | .struct _ fs, v => by unfold validate; exact validateProto_usual fs v
theorem validateProto_usual : ∀ (fs : Fields) (v : Value D), Usual (validateProto fs v)
  | .nil, _ => usual_ok
  | .here t rest, v => by
    unfold validateProto
    simp only
    split
    · exact validate_usual t v
    · exact validateProto_usual rest v
  | .named opt name t rest, v => by
    unfold validateProto
    simp only
    split
    · exact validateNamed_usual (validate_usual t) v name
    · exact validateProto_usual rest v
end

/-! ## The earlier version reads documents of the later one -/

theorem desElems_proj {α β : Type} (f : Value D → Status × α) (f' : Value D → Status × β) (p : α → β)
    (hf : ∀ x, (f x).1 ≠ .kInvalidValueType → f' x = ((f x).1, p (f x).2)) (l : List (Value D)) (data : List α)
    (h : (desElems f l data).1 ≠ .kInvalidValueType) :
    desElems f' l (data.map p) = ((desElems f l data).1, (desElems f l data).2.map p) := by
  induction l generalizing data with
  | nil => rfl
  | cons x l ih =>
    simp only [desElems] at h ⊢
    by_cases hs : (f x).1 = .kOk
    · rw [if_pos hs] at h ⊢
      have := hf x (by rw [hs]; decide)
      rw [this, if_pos hs]
      have := ih _ h
      simpa using this
    · rw [if_neg hs] at h ⊢
      have := hf x h
      rw [this, if_neg hs]

theorem get_map {α β : Type} (p : α → β) (k : Bytes) (l : List (Bytes × α)) :
    get k (l.map fun e => (e.1, p e.2)) = (get k l).map p := by
  induction l with
  | nil => rfl
  | cons e l ih =>
    obtain ⟨k', x⟩ := e
    simp only [List.map_cons, get]
    split
    · rfl
    · exact ih

theorem put_map {α β : Type} (p : α → β) (k : Bytes) (x : α) (l : List (Bytes × α)) :
    put k (p x) (l.map fun e => (e.1, p e.2)) = (put k x l).map fun e => (e.1, p e.2) := by
  induction l with
  | nil => rfl
  | cons e l ih =>
    obtain ⟨k', y⟩ := e
    simp only [List.map_cons, put]
    split
    · rfl
    · split
      · rfl
      · simp [ih]

theorem desMap_proj {α β : Type} (f : Value D → α → Status × α) (f' : Value D → β → Status × β) (p : α → β) (dflt : α)
    (hf : ∀ x o, (f x o).1 ≠ .kInvalidValueType → f' x (p o) = ((f x o).1, p (f x o).2)) (l : List (Bytes × Value D))
    (data : List (Bytes × α)) (h : (desMap f dflt l data).1 ≠ .kInvalidValueType) :
    desMap f' (p dflt) l (data.map fun e => (e.1, p e.2)) =
      ((desMap f dflt l data).1, (desMap f dflt l data).2.map fun e => (e.1, p e.2)) := by
  induction l generalizing data with
  | nil => rfl
  | cons x l ih =>
    obtain ⟨k, v⟩ := x
    simp only [desMap, get_map] at h ⊢
    cases hg : get k data with
    | some old =>
      simp only [hg] at h
      simp only [Option.map_some]
      by_cases hs : (f v old).1 = .kOk
      · rw [if_neg (by simpa using hs)] at h
        rw [hf v old (by rw [hs]; decide), if_neg (by simpa using hs), if_neg (by simpa using hs)]
        dsimp only
        rw [put_map]
        exact ih _ h
      · rw [if_pos hs] at h
        rw [hf v old h, if_pos hs, if_pos hs]
        dsimp only
        rw [put_map]
    | none =>
      simp only [hg] at h
      simp only [Option.map_none]
      by_cases hs : (f v dflt).1 = .kOk
      · rw [if_neg (by simpa using hs)] at h
        rw [hf v dflt (by rw [hs]; decide), if_neg (by simpa using hs), if_neg (by simpa using hs)]
        dsimp only
        rw [put_map]
        exact ih _ h
      · rw [if_pos hs] at h
        rw [hf v dflt h, if_pos hs, if_pos hs]

theorem desStdMap_proj {α β : Type} (f : Value D → α → Status × α) (f' : Value D → β → Status × β) (p : α → β) (dflt : α)
    (hf : ∀ x o, (f x o).1 ≠ .kInvalidValueType → f' x (p o) = ((f x o).1, p (f x o).2)) (l : List (Bytes × Value D))
    (data : List (Bytes × α)) (h : (desStdMap f dflt l data).1 ≠ .kInvalidValueType) :
    desStdMap f' (p dflt) l (data.map fun e => (e.1, p e.2)) =
      ((desStdMap f dflt l data).1, (desStdMap f dflt l data).2.map fun e => (e.1, p e.2)) := by
  induction l generalizing data with
  | nil => rfl
  | cons x l ih =>
    obtain ⟨k, v⟩ := x
    have hD : ((get (cText k) data).map p).getD (p dflt) = p ((get (cText k) data).getD dflt) := by
      cases get (cText k) data <;> rfl
    simp only [desStdMap, get_map, hD] at h ⊢
    by_cases hs : (f v ((get (cText k) data).getD dflt)).1 = .kOk
    · rw [if_neg (by simpa using hs)] at h
      rw [hf v _ (by rw [hs]; decide), if_neg (by simpa using hs), if_neg (by simpa using hs)]
      dsimp only
      rw [put_map]
      exact ih _ h
    · rw [if_pos hs] at h
      rw [hf v _ h, if_pos hs, if_pos hs]
      dsimp only
      rw [put_map]

/-- Default-initialised variables of the two versions differ in the added fields only. -/
def Compatible (dflt : (t : Ty) → t.Den D) : Prop := ∀ e : Ev, proj e (dflt e.new) = dflt e.old

variable (dflt : (t : Ty) → t.Den D)

theorem desNamed_usual (t : Ty) (v : Value D) (n : Bytes) (o : t.Den D) : Usual (desNamed (deserialize dflt t) v n o).1 := by
  rw [desNamed_status _ _ (des_status dflt t)]
  exact validateNamed_usual (validate_usual t) v n

mutual
theorem des_proj (hd : Compatible dflt) : ∀ (e : Ev) (v : Value D) (o : e.new.Den D),
    (deserialize dflt e.new v o).1 ≠ .kInvalidValueType →
    deserialize dflt e.old v (proj e o) = ((deserialize dflt e.new v o).1, proj e (deserialize dflt e.new v o).2)
  | .str, v, o, h => by cases v <;> rfl
  | .num, v, o, h => by cases v <;> rfl
  | .bool, v, o, h => by cases v <;> rfl
  | .null, v, o, h => by cases v <;> rfl
  | .stdString, v, o, h => by cases v <;> rfl
  | .arr e, v, o, h => by
    cases v with
    | arr l =>
      exact desElems_proj _ _ (proj e) (fun x hx => by
        have := des_proj hd e x (dflt e.new) hx
        rwa [hd e] at this) l [] h
    | _ => rfl
  | .vec e, v, o, h => by
    cases v with
    | arr l =>
      exact desElems_proj _ _ (proj e) (fun x hx => by
        have := des_proj hd e x (dflt e.new) hx
        rwa [hd e] at this) l [] h
    | _ => rfl
  | .map e, v, o, h => by
    cases v with
    | obj m _ =>
      have := desMap_proj _ _ (proj e) (dflt e.new) (fun x o hx => des_proj hd e x o hx) (toList m) o h
      rwa [hd e] at this
    | _ => rfl
  | .stdMap e, v, o, h => by
    cases v with
    | obj m _ =>
      have := desStdMap_proj _ _ (proj e) (dflt e.new) (fun x o hx => des_proj hd e x o hx) (toList m) o h
      rwa [hd e] at this
    | _ => rfl
  | .struct _ fs, v, o, h => desProto_proj hd fs v o h
theorem desProto_proj (hd : Compatible dflt) : ∀ (fs : EvF) (v : Value D) (o : fs.new.Den D),
    (desProto dflt fs.new v o).1 ≠ .kInvalidValueType →
    desProto dflt fs.old v (projF fs o) = ((desProto dflt fs.new v o).1, projF fs (desProto dflt fs.new v o).2)
  | .nil, v, o, h => rfl
  | .here e rest, v, o, h => by
    change (desProto dflt (.here e.new rest.new) v o).1 ≠ _ at h
    change desProto dflt (.here e.old rest.old) v (proj e o.1, projF rest o.2) =
      ((desProto dflt (.here e.new rest.new) v o).1, projF (.here e rest) (desProto dflt (.here e.new rest.new) v o).2)
    simp only [desProto] at h ⊢
    by_cases hs : (deserialize dflt e.new v o.1).1 = .kOk
    · rw [if_neg (by simpa using hs)] at h
      have h1 := des_proj hd e v o.1 (by rw [hs]; decide)
      have h2 := desProto_proj hd rest v o.2 h
      simp only [h1, h2, hs, ne_eq, not_true, if_false]
      rfl
    · rw [if_pos hs] at h
      have h1 := des_proj hd e v o.1 h
      simp only [h1, ne_eq, hs, not_false_eq_true, if_true]
      rfl
  | .named opt name e rest, v, o, h => by
    change (desProto dflt (.named opt name e.new rest.new) v o).1 ≠ _ at h
    change desProto dflt (.named opt name e.old rest.old) v (proj e o.1, projF rest o.2) =
      ((desProto dflt (.named opt name e.new rest.new) v o).1,
        projF (.named opt name e rest) (desProto dflt (.named opt name e.new rest.new) v o).2)
    have key : (desNamed (deserialize dflt e.new) v name o.1).1 ≠ .kInvalidValueType →
        desNamed (deserialize dflt e.old) v name (proj e o.1) =
          ((desNamed (deserialize dflt e.new) v name o.1).1, proj e (desNamed (deserialize dflt e.new) v name o.1).2) := by
      unfold desNamed
      split
      · split
        · intro _; rfl
        · intro hx; exact des_proj hd e _ _ hx
      · intro hx; exact absurd rfl hx
    simp only [desProto] at h ⊢
    by_cases hs : (desNamed (deserialize dflt e.new) v name o.1).1 ≠ .kOk ∧
        (opt = false ∨ (desNamed (deserialize dflt e.new) v name o.1).1 ≠ .kNameNotPresent)
    · rw [if_pos hs] at h
      have h1 := key h
      rw [if_pos hs, h1, if_pos hs]
      rfl
    · rw [if_neg hs] at h
      have h1 := key (by
        intro hc
        apply hs
        rw [hc]; exact ⟨by decide, .inr (by decide)⟩)
      have h2 := desProto_proj hd rest v o.2 h
      rw [if_neg hs, h1, if_neg hs]
      simp only [h2]
      rfl
  | .added name t rest, v, o, h => by
    change (desProto dflt (.named true name t rest.new) v o).1 ≠ _ at h
    change desProto dflt rest.old v (projF rest o.2) =
      ((desProto dflt (.named true name t rest.new) v o).1,
        projF (.added name t rest) (desProto dflt (.named true name t rest.new) v o).2)
    simp only [desProto] at h ⊢
    by_cases hs : (desNamed (deserialize dflt t) v name o.1).1 ≠ .kOk ∧
        (true = false ∨ (desNamed (deserialize dflt t) v name o.1).1 ≠ .kNameNotPresent)
    · rw [if_pos hs] at h
      rcases desNamed_usual dflt t v name o.1 with hu | hu | hu
      · exact absurd hu hs.1
      · exact absurd hu (hs.2.resolve_left (by decide))
      · exact absurd hu h
    · rw [if_neg hs] at h
      rw [if_neg hs]
      exact desProto_proj hd rest v o.2 h
end

/-! ## The later version reads documents of the earlier one -/

theorem desElems_graft {α β : Type} (g : Value D → Status × β) (r : α → Value D) (q : α → β) (ds : List α) (data : List β)
    (h : ∀ d ∈ ds, g (r d) = (.kOk, q d)) : desElems g (ds.map r) data = (.kOk, data ++ ds.map q) := by
  induction ds generalizing data with
  | nil => simp [desElems]
  | cons d ds ih =>
    simp only [List.map_cons, desElems, h d (by simp), if_true]
    rw [ih _ fun x hx => h x (by simp [hx])]
    simp

theorem desMap_graft {α β : Type} (g : Value D → β → Status × β) (dflt : β) (r : α → Value D) (q : α → β)
    (ds : List (Bytes × α)) (data : List (Bytes × β)) (h : ∀ e ∈ ds, g (r e.2) dflt = (.kOk, q e.2))
    (hlt : ∀ e ∈ data, ∀ d ∈ ds, nameLt e.1 d.1 = true) (hs : Sorted nameLt ds) :
    desMap g dflt (ds.map fun e => (e.1, r e.2)) data = (.kOk, data ++ ds.map fun e => (e.1, q e.2)) := by
  induction ds generalizing data with
  | nil => simp [desMap]
  | cons e ds ih =>
    obtain ⟨k, x⟩ := e
    have hk : ∀ e ∈ data, nameLt e.1 k = true := fun e he => hlt e he (k, x) (by simp)
    have hs' := List.pairwise_cons.1 hs
    simp only [List.map_cons, desMap, get_none hk, h (k, x) (by simp), ne_eq, not_true, if_false, put_last hk]
    rw [ih _ (fun y hy => h y (by simp [hy])) (by
      intro e he d hd
      rcases List.mem_append.1 he with he | he
      · exact hlt e he d (by simp [hd])
      · rw [List.mem_singleton.1 he]; exact hs'.1 d hd) hs'.2]
    simp

theorem desStdMap_graft {α β : Type} (g : Value D → β → Status × β) (dflt : β) (r : α → Value D) (q : α → β)
    (ds : List (Bytes × α)) (data : List (Bytes × β)) (h : ∀ e ∈ ds, g (r e.2) dflt = (.kOk, q e.2) ∧ (0 : Byte) ∉ e.1)
    (hlt : ∀ e ∈ data, ∀ d ∈ ds, nameLt e.1 d.1 = true) (hs : Sorted nameLt ds) :
    desStdMap g dflt (ds.map fun e => (e.1, r e.2)) data = (.kOk, data ++ ds.map fun e => (e.1, q e.2)) := by
  induction ds generalizing data with
  | nil => simp [desStdMap]
  | cons e ds ih =>
    obtain ⟨k, x⟩ := e
    have hk : ∀ e ∈ data, nameLt e.1 k = true := fun e he => hlt e he (k, x) (by simp)
    have hs' := List.pairwise_cons.1 hs
    obtain ⟨h1, h2⟩ := h (k, x) (by simp)
    simp only [List.map_cons, desStdMap, cText_nul_free h2, get_none hk, Option.getD_none, h1, ne_eq, not_true, if_false,
      put_last hk]
    rw [ih _ (fun y hy => h y (by simp [hy])) (by
      intro e he d hd
      rcases List.mem_append.1 he with he | he
      · exact hlt e he d (by simp [hd])
      · rw [List.mem_singleton.1 he]; exact hs'.1 d hd) hs'.2]
    simp

mutual
theorem old_names_sub : ∀ e : Ev, ∀ n ∈ e.old.names, n ∈ e.new.names
  | .str => by simp [Ty.names]
  | .num => by simp [Ty.names]
  | .bool => by simp [Ty.names]
  | .null => by simp [Ty.names]
  | .stdString => by simp [Ty.names]
  | .arr _ => by simp [Ty.names]
  | .map _ => by simp [Ty.names]
  | .vec _ => by simp [Ty.names]
  | .stdMap _ => by simp [Ty.names]
  | .struct _ fs => oldF_names_sub fs
theorem oldF_names_sub : ∀ fs : EvF, ∀ n ∈ fs.old.names, n ∈ fs.new.names
  | .nil => by simp [Fields.names]
  | .here e rest => by
    intro n hn
    simp only [EvF.old, EvF.new, Fields.names, List.mem_append] at hn ⊢
    exact hn.imp (old_names_sub e n) (oldF_names_sub rest n)
  | .named _ _ _ rest => by
    intro n hn
    simp only [EvF.old, EvF.new, Fields.names, List.mem_cons] at hn ⊢
    exact hn.imp id (oldF_names_sub rest n)
  | .added _ _ rest => by
    intro n hn
    simp only [EvF.old, EvF.new, Fields.names, List.mem_cons] at hn ⊢
    exact .inr (oldF_names_sub rest n hn)
end

variable (init : D)

mutual
theorem ser_graft (hd : ∀ t, Ty.Fresh t (dflt t)) : ∀ (e : Ev), e.new.Plain → ∀ (d : e.old.Den D), e.old.Wf d →
    ∃ v, serialize init e.old d (createValueFor init e.old) = .ok (.kOk, v) ∧
      ∀ o, e.new.Fresh o → deserialize dflt e.new v o = (.kOk, graft dflt e d o)
  | .str, _, d, _ => ⟨_, rfl, fun _ _ => rfl⟩
  | .num, _, d, _ => ⟨_, rfl, fun _ _ => rfl⟩
  | .bool, _, d, _ => ⟨_, rfl, fun _ _ => rfl⟩
  | .null, _, d, _ => ⟨_, rfl, fun _ _ => rfl⟩
  | .stdString, _, d, hw => by
    refine ⟨_, rfl, fun _ _ => ?_⟩
    simp only [deserialize]
    rw [cText_nul_free (s := d) hw, cText_nul_free (s := d) hw]
    rfl
  | .arr e, hp, d, hw => by
    have ih := ser_graft hd e hp
    have h1 : ∀ x ∈ d, serialize init e.old x (createValueFor init e.old) =
        .ok (.kOk, resVal (serialize init e.old x (createValueFor init e.old))) := by
      intro x hx
      obtain ⟨v, e', -⟩ := ih x (hw x hx)
      rw [e']; rfl
    refine ⟨_, serElems_spec _ d [] h1, fun o _ => ?_⟩
    change desElems _ ([] ++ _) [] = _
    have := desElems_graft (fun x => deserialize dflt e.new x (dflt e.new))
      (fun d => resVal (serialize init e.old d (createValueFor init e.old))) (fun x => graft dflt e x (dflt e.new)) d [] (by
        intro x hx
        obtain ⟨v, e1, e2⟩ := ih x (hw x hx)
        rw [e1]; exact e2 _ (hd _))
    rw [List.nil_append] at this
    exact this
  | .map e, hp, d, hw => by
    have ih := ser_graft hd e hp
    obtain ⟨m', h1, h2, h3⟩ := serEntries_spec (fun x => serialize init e.old x (createValueFor init e.old)) id [] d .nil
      treeOk_nil (by
        intro x hx
        obtain ⟨v, e', -⟩ := ih x.2 (hw.2 x hx)
        simp only [e', resVal, id, and_self]) hw.1 (by simp [toList])
    refine ⟨_, h1, fun o ho => ?_⟩
    have ho : o = [] := ho
    subst ho
    change desMap _ _ (toList m') [] = _
    rw [h3, toList, List.nil_append]
    have := desMap_graft (deserialize dflt e.new) (dflt e.new)
      (fun x => resVal (serialize init e.old x (createValueFor init e.old))) (fun x => graft dflt e x (dflt e.new)) d [] (by
        intro x hx
        obtain ⟨v, e1, e2⟩ := ih x.2 (hw.2 x hx)
        rw [e1]; exact e2 _ (hd _)) (by simp) hw.1
    rw [List.nil_append] at this
    exact this
  | .vec e, hp, d, hw => hp.elim
  | .stdMap e, hp, d, hw => by
    have ih := ser_graft hd e hp
    obtain ⟨m', h1, h2, h3⟩ := serEntries_spec (fun x => serialize init e.old x (createValueFor init e.old)) cText [] d .nil
      treeOk_nil (by
        intro x hx
        obtain ⟨v, e', -⟩ := ih x.2 (hw.2 x hx).2
        simp only [e', resVal, cText_nul_free (hw.2 x hx).1, and_self]) hw.1 (by simp [toList])
    refine ⟨_, h1, fun o ho => ?_⟩
    have ho : o = [] := ho
    subst ho
    change desStdMap _ _ (toList m') [] = _
    rw [h3, toList, List.nil_append]
    have := desStdMap_graft (deserialize dflt e.new) (dflt e.new)
      (fun x => resVal (serialize init e.old x (createValueFor init e.old))) (fun x => graft dflt e x (dflt e.new)) d [] (by
        intro x hx
        obtain ⟨v, e1, e2⟩ := ih x.2 (hw.2 x hx).2
        rw [e1]; exact ⟨e2 _ (hd _), (hw.2 x hx).1⟩) (by simp) hw.1
    rw [List.nil_append] at this
    exact this
  | .struct _ fs, hp, d, hw => by
    obtain ⟨m', o', h1, -, -, h4⟩ := serProto_graft hd fs hp.1 hp.2 d hw .nil [] treeOk_nil (by
      intro n _; rfl)
    exact ⟨_, h1, fun old ho => h4 _ _ (fun _ _ => rfl) old ho⟩
theorem serProto_graft (hd : ∀ t, Ty.Fresh t (dflt t)) : ∀ (fs : EvF), fs.new.Plain → fs.new.names.Nodup →
    ∀ (d : fs.old.Den D), fs.old.Wf d → ∀ (m : Tree Bytes (Value D)) (o : List Bytes), TreeOk m →
    (∀ n ∈ fs.new.names, findMapElement nameLt n m = none) →
    ∃ m' o', serProto init fs.old d (.obj m o) = .ok (.kOk, .obj m' o') ∧ TreeOk m' ∧
      (∀ k, k ∉ fs.old.names → findMapElement nameLt k m' = findMapElement nameLt k m) ∧
      ∀ m'' o'', (∀ n ∈ fs.new.names, findMapElement nameLt n m'' = findMapElement nameLt n m') →
        ∀ old, fs.new.Fresh old → desProto dflt fs.new (.obj m'' o'') old = (.kOk, graftF dflt fs d old)
  | .nil, _, _, d, _, m, o, hm, _ => ⟨m, o, rfl, hm, fun _ _ => rfl, fun _ _ _ _ _ => rfl⟩
  | .named opt name e rest, hp, hnd, d, hw, m, o, hm, hn => by
    obtain ⟨v, e1, e2⟩ := ser_graft hd e hp.1 d.1 hw.1
    simp only [EvF.new, Fields.names, List.nodup_cons] at hnd
    obtain ⟨m1, i1, i2, i3, i4⟩ := find_insert hm name v (hn name (by simp [EvF.new, Fields.names]))
    obtain ⟨m', o', h1, h2, h3, h4⟩ := serProto_graft hd rest hp.2 hnd.2 d.2 hw.2 m1 (o ++ [name]) i2 (by
      intro n hx
      rw [i4 n (by rintro rfl; exact hnd.1 hx)]
      exact hn n (by simp [EvF.new, Fields.names, hx]))
    have hno : name ∉ rest.old.names := fun h => hnd.1 (oldF_names_sub rest _ h)
    refine ⟨m', o', ?_, h2, ?_, ?_⟩
    · change serProto init (.named opt name e.old rest.old) d _ = _
      simp only [serProto, serNamed, e1, Out.ok_bind, insertAccounted, i1, ne_eq, not_true, if_false]
      exact h1
    · intro k hk
      simp only [EvF.old, Fields.names, List.mem_cons, not_or] at hk
      rw [h3 k hk.2, i4 k hk.1]
    · intro m'' o'' hf old ho
      have hf1 : findMapElement nameLt name m'' = some (name, v) := by
        rw [hf name (by simp [EvF.new, Fields.names]), h3 name hno, i3]
      change desProto dflt (.named opt name e.new rest.new) _ old = _
      simp only [desProto, desNamed, hf1, e2 old.1 ho.1, ne_eq, not_true, false_and, if_false]
      rw [h4 m'' o'' (fun n hx => hf n (by simp [EvF.new, Fields.names, hx])) old.2 ho.2]
      rfl
  | .added name t rest, hp, hnd, d, hw, m, o, hm, hn => by
    simp only [EvF.new, Fields.names, List.nodup_cons] at hnd
    obtain ⟨m', o', h1, h2, h3, h4⟩ := serProto_graft hd rest hp.2 hnd.2 d hw m o hm (by
      intro n hx
      exact hn n (by simp [EvF.new, Fields.names, hx]))
    have hno : name ∉ rest.old.names := fun h => hnd.1 (oldF_names_sub rest _ h)
    refine ⟨m', o', h1, h2, h3, ?_⟩
    intro m'' o'' hf old ho
    have hf1 : findMapElement nameLt name m'' = none := by
      rw [hf name (by simp [EvF.new, Fields.names]), h3 name hno]
      exact hn name (by simp [EvF.new, Fields.names])
    change desProto dflt (.named true name t rest.new) _ old = _
    simp only [desProto, desNamed, hf1]
    rw [if_neg (by simp)]
    rw [h4 m'' o'' (fun n hx => hf n (by simp [EvF.new, Fields.names, hx])) old.2 ho.2]
    rfl
  | .here (.struct id fs) rest, hp, hnd, d, hw, m, o, hm, hn => by
    simp only [EvF.new, Ev.new, Fields.names, Ty.names, List.nodup_append] at hnd
    obtain ⟨m1, o1, a1, a2, a3, a4⟩ := serProto_graft hd fs hp.1 hnd.1 d.1 hw.1 m o hm (fun n hx =>
      hn n (by simp [EvF.new, Ev.new, Fields.names, Ty.names, hx]))
    have hdis : ∀ n ∈ rest.new.names, n ∉ fs.new.names := fun n h1 h2 => hnd.2.2 n h2 n h1 rfl
    obtain ⟨m', o', b1, b2, b3, b4⟩ := serProto_graft hd rest hp.2 hnd.2.1 d.2 hw.2 m1 o1 a2 (by
      intro n hx
      rw [a3 n (fun h => hdis n hx (oldF_names_sub fs n h))]
      exact hn n (by simp [EvF.new, Ev.new, Fields.names, Ty.names, hx]))
    refine ⟨m', o', ?_, b2, ?_, ?_⟩
    · change serProto init (.here (.struct id fs.old) rest.old) d _ = _
      simp only [serProto, serialize, a1, Out.ok_bind, ne_eq, not_true, if_false]
      exact b1
    · intro k hk
      simp only [EvF.old, Ev.old, Fields.names, Ty.names, List.mem_append, not_or] at hk
      rw [b3 k hk.2, a3 k hk.1]
    · intro m'' o'' hf old ho
      have := a4 m'' o'' (by
        intro n hx
        rw [hf n (by simp [EvF.new, Ev.new, Fields.names, Ty.names, hx]),
          b3 n (fun h => hdis n (oldF_names_sub rest n h) hx)]) old.1 ho.1
      change desProto dflt (.here (.struct id fs.new) rest.new) _ old = _
      simp only [desProto, deserialize, this, ne_eq, not_true, if_false]
      rw [b4 m'' o'' (fun n hx => hf n (by simp [EvF.new, Ev.new, Fields.names, Ty.names, hx])) old.2 ho.2]
      rfl
  | .here .str _, hp, _, _, _, _, _, _, _ => hp.elim
  | .here .num _, hp, _, _, _, _, _, _, _ => hp.elim
  | .here .bool _, hp, _, _, _, _, _, _, _ => hp.elim
  | .here .null _, hp, _, _, _, _, _, _, _ => hp.elim
  | .here .stdString _, hp, _, _, _, _, _, _, _ => hp.elim
  | .here (.arr _) _, hp, _, _, _, _, _, _, _ => hp.elim
  | .here (.map _) _, hp, _, _, _, _, _, _, _ => hp.elim
  | .here (.vec _) _, hp, _, _, _, _, _, _, _ => hp.elim
  | .here (.stdMap _) _, hp, _, _, _, _, _, _, _ => hp.elim
end

/-! ## Acceptance of documents without the added fields -/

theorem firstBad_congr {α : Type} (f g : α → Status) (l : List α) (h : ∀ a ∈ l, f a = g a) : firstBad f l = firstBad g l := by
  induction l with
  | nil => rfl
  | cons a l ih => simp only [firstBad, h a (by simp), ih fun b hb => h b (by simp [hb])]

mutual
theorem validate_lacks : ∀ (e : Ev) (v : Value D), Lacks e v → validate e.new v = validate e.old v
  | .str, _, _ => rfl
  | .num, _, _ => rfl
  | .bool, _, _ => rfl
  | .null, _, _ => rfl
  | .stdString, _, _ => rfl
  | .arr e, v, h => by
    cases v with
    | arr l => exact firstBad_congr _ _ l fun x hx => validate_lacks e x (by simp only [Lacks] at h; exact h x hx)
    | _ => rfl
  | .vec e, v, h => by
    cases v with
    | arr l => exact firstBad_congr _ _ l fun x hx => validate_lacks e x (by simp only [Lacks] at h; exact h x hx)
    | _ => rfl
  | .map e, v, h => by
    cases v with
    | obj m o =>
      exact firstBad_congr _ _ (toList m) fun x hx => validate_lacks e x.2 (by simp only [Lacks] at h; exact h x hx)
    | _ => rfl
  | .stdMap e, v, h => by
    cases v with
    | obj m o =>
      exact firstBad_congr _ _ (toList m) fun x hx => validate_lacks e x.2 (by simp only [Lacks] at h; exact h x hx)
    | _ => rfl
  | .struct _ fs, v, h => validateProto_lacks fs v (by simp only [Lacks] at h; exact h)
theorem validateProto_lacks : ∀ (fs : EvF) (v : Value D), LacksF fs v → validateProto fs.new v = validateProto fs.old v
  | .nil, _, _ => rfl
  | .here e rest, v, h => by
    simp only [LacksF] at h
    simp only [EvF.new, EvF.old, validateProto, validate_lacks e v h.1, validateProto_lacks rest v h.2]
  | .named opt name e rest, v, h => by
    simp only [LacksF] at h
    have : validateNamed (validate e.new) v name = validateNamed (validate e.old) v name := by
      unfold validateNamed
      split
      · split
        · rfl
        · rename_i hf
          exact validate_lacks e _ (h.1 _ _ _ _ rfl hf)
      · rfl
    simp only [EvF.new, EvF.old, validateProto, this, validateProto_lacks rest v h.2]
  | .added name t rest, v, h => by
    simp only [LacksF] at h
    obtain ⟨⟨m, o, rfl, hf⟩, h2⟩ := h
    simp only [EvF.new, EvF.old, validateProto, validateNamed, hf]
    rw [if_neg (by simp)]
    exact validateProto_lacks rest _ h2
end

/-! ## Data of the two versions -/

theorem map_same {α β : Type} (f : α → β) (g : β → α) (l : List β) (h : ∀ x ∈ l, f (g x) = x) : (l.map g).map f = l := by
  induction l with
  | nil => rfl
  | cons x l ih => simp [h x (by simp), ih fun y hy => h y (by simp [hy])]

mutual
theorem proj_graft : ∀ (e : Ev) (d : e.old.Den D) (o : e.new.Den D), proj e (graft dflt e d o) = d
  | .str, _, _ => rfl
  | .num, _, _ => rfl
  | .bool, _, _ => rfl
  | .null, _, _ => rfl
  | .stdString, _, _ => rfl
  | .arr e, d, _ => map_same (proj e) (fun x => graft dflt e x (dflt e.new)) d fun x _ => proj_graft e x _
  | .vec e, d, _ => map_same (proj e) (fun x => graft dflt e x (dflt e.new)) d fun x _ => proj_graft e x _
  | .map e, d, _ => map_same (fun p : Bytes × e.new.Den D => (p.1, proj e p.2)) (fun p => (p.1, graft dflt e p.2 (dflt e.new))) d
      fun x _ => by simp only [proj_graft e x.2 _]
  | .stdMap e, d, _ => map_same (fun p : Bytes × e.new.Den D => (p.1, proj e p.2)) (fun p => (p.1, graft dflt e p.2 (dflt e.new))) d
      fun x _ => by simp only [proj_graft e x.2 _]
  | .struct _ fs, d, o => projF_graft fs d o
theorem projF_graft : ∀ (fs : EvF) (d : fs.old.Den D) (o : fs.new.Den D), projF fs (graftF dflt fs d o) = d
  | .nil, _, _ => rfl
  | .here e rest, d, o => by
    simp only [graftF, projF, proj_graft e, projF_graft rest]
  | .named _ _ e rest, d, o => by
    simp only [graftF, projF, proj_graft e, projF_graft rest]
  | .added _ _ rest, d, o => by
    simp only [graftF, projF, projF_graft rest]
end

mutual
theorem graft_fresh : ∀ (e : Ev) (d : e.old.Den D) (o : e.new.Den D), e.old.Fresh d → e.new.Fresh o →
    e.new.Fresh (graft dflt e d o)
  | .str, _, _, _, _ => trivial
  | .num, _, _, _, _ => trivial
  | .bool, _, _, _, _ => trivial
  | .null, _, _, _, _ => trivial
  | .stdString, _, _, _, _ => trivial
  | .arr _, _, _, _, _ => trivial
  | .vec _, _, _, _, _ => trivial
  | .map e, d, o, h, _ => by
    have h : d = [] := h
    subst h; rfl
  | .stdMap e, d, o, h, _ => by
    have h : d = [] := h
    subst h; rfl
  | .struct _ fs, d, o, h, h' => graftF_fresh fs d o h h'
theorem graftF_fresh : ∀ (fs : EvF) (d : fs.old.Den D) (o : fs.new.Den D), fs.old.Fresh d → fs.new.Fresh o →
    fs.new.Fresh (graftF dflt fs d o)
  | .nil, _, _, _, _ => trivial
  | .here e rest, d, o, h, h' => ⟨graft_fresh e d.1 o.1 h.1 h'.1, graftF_fresh rest d.2 o.2 h.2 h'.2⟩
  | .named _ _ e rest, d, o, h, h' => ⟨graft_fresh e d.1 o.1 h.1 h'.1, graftF_fresh rest d.2 o.2 h.2 h'.2⟩
  | .added _ _ rest, d, o, h, h' => ⟨h'.1, graftF_fresh rest d o.2 h h'.2⟩
end

end Verif.Serial
