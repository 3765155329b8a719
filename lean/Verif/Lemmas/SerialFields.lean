import Verif.Lemmas.SerialDoc

/-! # Field lists: locations of fields, concatenation, independence of the previous contents -/

namespace Verif.Serial

open Verif Verif.Map Verif.Text Verif.Number Verif.Parser Verif.Write Verif.Spec

variable {D : Type}

/-- A place in a field list holding a field with this name and type, possibly inside a user type that shares the
value. -/
inductive Loc (opt : Bool) (name : Bytes) (t : Ty) : Fields → Type where
  | head (rest : Fields) : Loc opt name t (.named opt name t rest)
  | named {rest : Fields} (o : Bool) (n : Bytes) (t' : Ty) (l : Loc opt name t rest) : Loc opt name t (.named o n t' rest)
  | here {rest : Fields} (t' : Ty) (l : Loc opt name t rest) : Loc opt name t (.here t' rest)
  | inside {fs : Fields} (id : Nat) (rest : Fields) (l : Loc opt name t fs) : Loc opt name t (.here (.struct id fs) rest)

/-- The data of the field. -/
def Loc.read {opt : Bool} {name : Bytes} {t : Ty} : {fs : Fields} → Loc opt name t fs → fs.Den D → t.Den D
  | _, .head _, d => d.1
  | _, .named _ _ _ l, d => l.read d.2
  | _, .here _ l, d => l.read d.2
  | _, .inside _ _ l, d => l.read d.1

/-- The list without the field. -/
def Loc.erase {opt : Bool} {name : Bytes} {t : Ty} : {fs : Fields} → Loc opt name t fs → Fields
  | _, .head rest => rest
  | _, .named o n t' l => .named o n t' l.erase
  | _, .here t' l => .here t' l.erase
  | _, .inside id rest l => .here (.struct id l.erase) rest

/-- Concatenation of field lists. -/
def Fields.append : Fields → Fields → Fields
  | .nil, fs => fs
  | .here t rest, fs => .here t (rest.append fs)
  | .named o n t rest, fs => .named o n t (rest.append fs)

theorem validateProto_here (t : Ty) (rest : Fields) (v : Value D) :
    validateProto (.here t rest) v = if validate t v = .kOk then validateProto rest v else validate t v := by
  have e : validateProto (.here t rest) v = if validate t v ≠ .kOk then validate t v else validateProto rest v := rfl
  rw [e]
  by_cases h : validate t v = .kOk <;> simp [h]

theorem validateProto_named (o : Bool) (n : Bytes) (t : Ty) (rest : Fields) (v : Value D) :
    validateProto (.named o n t rest) v =
      if validateNamed (validate t) v n = .kOk ∨ (o = true ∧ validateNamed (validate t) v n = .kNameNotPresent)
      then validateProto rest v else validateNamed (validate t) v n := by
  have e : validateProto (.named o n t rest) v =
      if validateNamed (validate t) v n ≠ .kOk ∧ (o = false ∨ validateNamed (validate t) v n ≠ .kNameNotPresent)
      then validateNamed (validate t) v n else validateProto rest v := rfl
  rw [e]
  by_cases h1 : validateNamed (validate t) v n = .kOk
  · simp [h1]
  · by_cases h2 : validateNamed (validate t) v n = .kNameNotPresent
    · cases o <;> simp [h2]
    · simp [h1, h2]

theorem validate_struct (id : Nat) (fs : Fields) (v : Value D) : validate (.struct id fs) v = validateProto fs v := rfl

theorem validateProto_append (fs fs' : Fields) (v : Value D) :
    validateProto (fs.append fs') v = if validateProto fs v = .kOk then validateProto fs' v else validateProto fs v := by
  match fs with
  | .nil => simp [Fields.append, validateProto]
  | .here t rest =>
    have ih := validateProto_append rest fs' v
    rw [Fields.append, validateProto_here, validateProto_here, ih]
    by_cases h : validate t v = .kOk
    · rw [if_pos h, if_pos h]
    · rw [if_neg h, if_neg h, if_neg h]
  | .named o n t rest =>
    have ih := validateProto_append rest fs' v
    rw [Fields.append, validateProto_named, validateProto_named, ih]
    by_cases h : validateNamed (validate t) v n = .kOk ∨ (o = true ∧ validateNamed (validate t) v n = .kNameNotPresent)
    · rw [if_pos h, if_pos h]
    · rw [if_neg h, if_neg h, if_neg (fun e => h (.inl e))]

/-- An absent optional field changes nothing: neither the status nor its own data. -/
theorem optional_absent (dflt : (t : Ty) → t.Den D) {name : Bytes} {t : Ty} {m : Tree Bytes (Value D)}
    (h : findMapElement nameLt name m = none) (o : List Bytes) :
    ∀ {fs : Fields} (l : Loc true name t fs) (old : fs.Den D),
      validateProto fs (.obj m o) = validateProto l.erase (.obj m o) ∧
      l.read (desProto dflt fs (.obj m o) old).2 = l.read old
  | _, .head rest, old => by
    constructor
    · simp [Loc.erase, validateProto, validateNamed, h]
    · simp [Loc.read, desProto, desNamed, h]
  | _, .named o' n t' l, old => by
    have ih := fun old => optional_absent dflt h o l old
    constructor
    · simp only [Loc.erase, validateProto, (ih old.2).1]
    · simp only [Loc.read, desProto]
      split
      · rfl
      · exact (ih old.2).2
  | _, .here t' l, old => by
    have ih := fun old => optional_absent dflt h o l old
    constructor
    · simp only [Loc.erase, validateProto, (ih old.2).1]
    · simp only [Loc.read, desProto]
      split
      · rfl
      · exact (ih old.2).2
  | _, .inside id rest l, old => by
    have ih := fun old => optional_absent dflt h o l old
    constructor
    · rw [Loc.erase, validateProto_here, validateProto_here, validate_struct, validate_struct, (ih old.1).1]
    · have e : deserialize dflt (.struct id _) (.obj m o) old.1 = desProto dflt _ (.obj m o) old.1 := rfl
      simp only [Loc.read, desProto]
      split
      · exact (ih old.1).2
      · exact (ih old.1).2

/-- If a list is accepted, each of its fields was acceptable and holds what its own `Deserialize` gave. -/
theorem field_of_accepted (dflt : (t : Ty) → t.Den D) {opt : Bool} {name : Bytes} {t : Ty} {v : Value D} :
    ∀ {fs : Fields} (l : Loc opt name t fs) (old : fs.Den D), validateProto fs v = .kOk →
      (validateNamed (validate t) v name = .kOk ∨ opt = true ∧ validateNamed (validate t) v name = .kNameNotPresent) ∧
      l.read (desProto dflt fs v old).2 = (desNamed (deserialize dflt t) v name (l.read old)).2
  | _, .head rest, old, h => by
    simp only [validateProto] at h
    have key : ¬ (validateNamed (validate t) v name ≠ .kOk ∧
        (opt = false ∨ validateNamed (validate t) v name ≠ .kNameNotPresent)) := by
      intro hc
      rw [if_pos hc] at h
      exact hc.1 h
    constructor
    · cases opt
      · left
        exact Decidable.byContradiction fun hc => key ⟨hc, .inl rfl⟩
      · by_cases h1 : validateNamed (validate t) v name = .kOk
        · exact .inl h1
        · exact .inr ⟨rfl, Decidable.byContradiction fun hc => key ⟨h1, .inr hc⟩⟩
    · have e := desNamed_status (deserialize dflt t) (validate t) (des_status dflt t) v name old.1
      simp only [Loc.read, desProto, e]
      rw [if_neg key]
  | _, .named o' n t' l, old, h => by
    simp only [validateProto] at h
    have key : ¬ (validateNamed (validate t') v n ≠ .kOk ∧
        (o' = false ∨ validateNamed (validate t') v n ≠ .kNameNotPresent)) := by
      intro hc
      rw [if_pos hc] at h
      exact hc.1 h
    rw [if_neg key] at h
    have ih := field_of_accepted dflt l old.2 h
    refine ⟨ih.1, ?_⟩
    have e := desNamed_status (deserialize dflt t') (validate t') (des_status dflt t') v n old.1
    simp only [Loc.read, desProto, e]
    rw [if_neg key]
    exact ih.2
  | _, .here t' l, old, h => by
    simp only [validateProto] at h
    have key : ¬ validate t' v ≠ .kOk := by
      intro hc
      rw [if_pos hc] at h
      exact hc h
    rw [if_neg key] at h
    have ih := field_of_accepted dflt l old.2 h
    refine ⟨ih.1, ?_⟩
    simp only [Loc.read, desProto, des_status]
    rw [if_neg key]
    exact ih.2
  | .here (.struct _ fs) _, .inside id rest l, old, h => by
    rw [validateProto_here, validate_struct] at h
    have h' : validateProto fs v = .kOk := by
      apply Decidable.byContradiction
      intro hc
      rw [if_neg hc] at h
      exact hc h
    have ih := field_of_accepted dflt l old.1 h'
    refine ⟨ih.1, ?_⟩
    have key : ¬ (desProto dflt fs v old.1).1 ≠ .kOk := by rw [desProto_status, h']; simp
    have e : (desProto dflt (.here (.struct id fs) rest) v old).2.1 = (desProto dflt fs v old.1).2 := by
      have : desProto dflt (.here (.struct id fs) rest) v old =
        if (desProto dflt fs v old.1).1 ≠ .kOk then ((desProto dflt fs v old.1).1, ((desProto dflt fs v old.1).2, old.2))
        else ((desProto dflt rest v old.2).1, ((desProto dflt fs v old.1).2, (desProto dflt rest v old.2).2)) := rfl
      rw [this, if_neg key]
    simp only [Loc.read, e]
    exact ih.2

/-! ## Only the named members matter -/

/-- Entries without a name are user types with field lists, and so on. -/
def Fields.Closed : Fields → Prop
  | .nil => True
  | .here (.struct _ fs) rest => fs.Closed ∧ rest.Closed
  | .here _ _ => False
  | .named _ _ _ rest => rest.Closed

theorem desProto_named_only (dflt : (t : Ty) → t.Den D) {m m' : Tree Bytes (Value D)} {o o' : List Bytes} :
    ∀ (fs : Fields), fs.Closed →
      (∀ n ∈ fs.names, (findMapElement nameLt n m).map (·.2) = (findMapElement nameLt n m').map (·.2)) →
      ∀ old : fs.Den D, desProto dflt fs (.obj m o) old = desProto dflt fs (.obj m' o') old
  | .nil, _, _, _ => rfl
  | .named opt name t rest, hc, h, old => by
    have ih := desProto_named_only dflt (m := m) (m' := m') (o := o) (o' := o') rest hc (fun n hn => h n (by simp [Fields.names, hn]))
    have e : desNamed (deserialize dflt t) (.obj m o) name old.1 = desNamed (deserialize dflt t) (.obj m' o') name old.1 := by
      have := h name (by simp [Fields.names])
      simp only [desNamed]
      cases h1 : findMapElement nameLt name m <;> cases h2 : findMapElement nameLt name m' <;> simp_all
    simp only [desProto, e, ih old.2]
  | .here (.struct id fs) rest, hc, h, old => by
    have ih := desProto_named_only dflt (m := m) (m' := m') (o := o) (o' := o') rest hc.2 (fun n hn => h n (by simp [Fields.names, hn]))
    have ih' := desProto_named_only dflt (m := m) (m' := m') (o := o) (o' := o') fs hc.1
      (fun n hn => h n (by simp [Fields.names, Ty.names, hn]))
    have e : ∀ x, deserialize dflt (.struct id fs) x old.1 = desProto dflt fs x old.1 := fun _ => rfl
    simp only [desProto, e, ih' old.1, ih old.2]
  | .here .str _, hc, _, _ => hc.elim
  | .here .num _, hc, _, _ => hc.elim
  | .here .bool _, hc, _, _ => hc.elim
  | .here .null _, hc, _, _ => hc.elim
  | .here .stdString _, hc, _, _ => hc.elim
  | .here (.arr _) _, hc, _, _ => hc.elim
  | .here (.map _) _, hc, _, _ => hc.elim
  | .here (.vec _) _, hc, _, _ => hc.elim
  | .here (.stdMap _) _, hc, _, _ => hc.elim

/-! ## Independence of the previous contents -/

mutual
/-- No maps outside of arrays. -/
def Ty.NoMerge : Ty → Prop
  | .map _ => False
  | .stdMap _ => False
  | .struct _ fs => fs.NoMerge
  | _ => True
/-- The same for field lists. -/
def Fields.NoMerge : Fields → Prop
  | .nil => True
  | .here t rest => t.NoMerge ∧ rest.NoMerge
  | .named _ _ t rest => t.NoMerge ∧ rest.NoMerge
end

mutual
/-- All optional fields outside of arrays are present and conform. -/
def Ty.Covered : Ty → Value D → Prop
  | .struct _ fs, v => fs.Covered v
  | _, _ => True
/-- The same for field lists. -/
def Fields.Covered : Fields → Value D → Prop
  | .nil, _ => True
  | .here t rest, v => t.Covered v ∧ rest.Covered v
  | .named opt name t rest, v =>
      (opt = true → validateNamed (validate t) v name = .kOk) ∧
      (∀ m o e, v = .obj m o → findMapElement nameLt name m = some e → t.Covered e.2) ∧ rest.Covered v
end

mutual
theorem des_indep (dflt : (t : Ty) → t.Den D) : ∀ (t : Ty), t.NoMerge → ∀ (v : Value D), t.Covered v → validate t v = .kOk →
    ∀ old old' : t.Den D, deserialize dflt t v old = deserialize dflt t v old'
  | .str, _, v, _, hv, old, old' => by cases v <;> first | rfl | simp [validate] at hv
  | .num, _, v, _, hv, old, old' => by cases v <;> first | rfl | simp [validate] at hv
  | .bool, _, v, _, hv, old, old' => by cases v <;> first | rfl | simp [validate] at hv
  | .null, _, v, _, hv, old, old' => by cases v <;> first | rfl | simp [validate] at hv
  | .stdString, _, v, _, hv, old, old' => by cases v <;> first | rfl | simp [validate] at hv
  | .arr t, _, v, _, hv, old, old' => by cases v <;> first | rfl | simp [validate] at hv
  | .vec t, _, v, _, hv, old, old' => by cases v <;> first | rfl | simp [validate] at hv
  | .map _, hn, _, _, _, _, _ => hn.elim
  | .stdMap _, hn, _, _, _, _, _ => hn.elim
  | .struct _ fs, hn, v, hc, hv, old, old' => desProto_indep dflt fs hn v hc hv old old'
theorem desProto_indep (dflt : (t : Ty) → t.Den D) : ∀ (fs : Fields), fs.NoMerge → ∀ (v : Value D), fs.Covered v →
    validateProto fs v = .kOk → ∀ old old' : fs.Den D, desProto dflt fs v old = desProto dflt fs v old'
  | .nil, _, _, _, _, _, _ => rfl
  | .here t rest, hn, v, hc, hv, old, old' => by
    simp only [validateProto] at hv
    have h1 : validate t v = .kOk := by
      apply Decidable.byContradiction
      intro h
      rw [if_pos h] at hv
      exact h hv
    rw [if_neg (by simp [h1])] at hv
    simp only [desProto, des_indep dflt t hn.1 v hc.1 h1 old.1 old'.1, desProto_indep dflt rest hn.2 v hc.2 hv old.2 old'.2]
    simp only [des_status, h1, ne_eq, not_true, if_false]
  | .named opt name t rest, hn, v, hc, hv, old, old' => by
    simp only [validateProto] at hv
    have h1 : validateNamed (validate t) v name = .kOk := by
      cases opt with
      | true => exact hc.1 rfl
      | false =>
        apply Decidable.byContradiction
        intro h
        rw [if_pos ⟨h, .inl rfl⟩] at hv
        exact h hv
    rw [if_neg (by simp [h1])] at hv
    have e : desNamed (deserialize dflt t) v name old.1 = desNamed (deserialize dflt t) v name old'.1 := by
      cases v with
      | obj m o =>
        simp only [desNamed, validateNamed] at h1 ⊢
        cases hf : findMapElement nameLt name m with
        | none => simp [hf] at h1
        | some x =>
          rw [hf] at h1
          exact des_indep dflt t hn.1 x.2 (hc.2.1 m o x rfl hf) h1 _ _
      | _ => simp [validateNamed] at h1
    have e2 := desNamed_status (deserialize dflt t) (validate t) (des_status dflt t) v name old'.1
    simp only [desProto, e, desProto_indep dflt rest hn.2 v hc.2.2 hv old.2 old'.2]
    rw [e2, h1]
    simp
end

/-! ## What maps do with previous contents -/

theorem get_put {α : Type} (k k' : Bytes) (x : α) (l : List (Bytes × α)) :
    get k' (put k x l) = if k' = k then some x else get k' l := by
  induction l with
  | nil =>
    simp only [put, get]
    by_cases h : k' = k
    · simp [h]
    · rw [if_neg (fun e => h e.symm), if_neg h]
  | cons e l ih =>
    obtain ⟨a, y⟩ := e
    simp only [put]
    by_cases h1 : a = k
    · subst h1
      simp only [if_true, get]
      by_cases h : k' = a
      · simp [h]
      · rw [if_neg (fun e => h e.symm), if_neg h, if_neg (fun e => h e.symm)]
    · rw [if_neg h1]
      by_cases h2 : nameLt k a = true
      · rw [if_pos h2]
        simp only [get]
        by_cases h : k' = k
        · simp [h]
        · rw [if_neg (fun e => h e.symm), if_neg h]
      · rw [if_neg h2]
        simp only [get, ih]
        by_cases h : a = k'
        · subst h; simp [h1]
        · simp [h]

theorem desMap_merge {α : Type} (f : Value D → α → Status × α) (dflt : α) (l : List (Bytes × Value D))
    (data : List (Bytes × α)) (hs : Sorted nameLt l) (h : (desMap f dflt l data).1 = .kOk) (k : Bytes) :
    (∀ v, (k, v) ∈ l → get k (desMap f dflt l data).2 = some (f v ((get k data).getD dflt)).2) ∧
    ((∀ v, (k, v) ∉ l) → get k (desMap f dflt l data).2 = get k data) := by
  induction l generalizing data with
  | nil => simp [desMap]
  | cons e l ih =>
    obtain ⟨a, w⟩ := e
    have step : ∀ data', desMap f dflt ((a, w) :: l) data = desMap f dflt l data' →
        (∀ k', get k' data' = if k' = a then some (f w ((get a data).getD dflt)).2 else get k' data) →
        (∀ v, (k, v) ∈ (a, w) :: l → get k (desMap f dflt ((a, w) :: l) data).2 = some (f v ((get k data).getD dflt)).2) ∧
        ((∀ v, (k, v) ∉ (a, w) :: l) → get k (desMap f dflt ((a, w) :: l) data).2 = get k data) := by
      intro data' e hg
      have ih' := ih data' hs.tail (by rw [← e]; exact h)
      rw [e]
      have hnot : ∀ v, (a, v) ∉ l := by
        intro v hv
        have := (List.pairwise_cons.1 hs).1 _ hv
        simp [nameLt_strict.irrefl] at this
      refine ⟨?_, ?_⟩
      · intro v hv
        rcases List.mem_cons.1 hv with hv | hv
        · cases hv
          rw [ih'.2 hnot, hg]; simp
        · have hka : k ≠ a := fun e => hnot v (e ▸ hv)
          rw [ih'.1 v hv, hg, if_neg hka]
      · intro hv
        have hka : k ≠ a := by rintro rfl; exact hv w (by simp)
        rw [ih'.2 (fun v hm => hv v (by simp [hm])), hg, if_neg hka]
    simp only [desMap] at h step ⊢
    cases hga : get a data with
    | some old =>
      rw [hga] at h step
      simp only at h step ⊢
      by_cases hst : (f w old).1 = .kOk
      · simp only [hst, ne_eq, not_true, if_false] at step ⊢
        exact step (put a (f w old).2 data) rfl (fun k' => by rw [get_put]; rfl)
      · simp only [ne_eq, hst, not_false_iff, if_true] at h
    | none =>
      rw [hga] at h step
      simp only at h step ⊢
      by_cases hst : (f w dflt).1 = .kOk
      · simp only [hst, ne_eq, not_true, if_false] at step ⊢
        exact step (put a (f w dflt).2 data) rfl (fun k' => by rw [get_put]; rfl)
      · simp only [ne_eq, hst, not_false_iff, if_true] at h

end Verif.Serial
