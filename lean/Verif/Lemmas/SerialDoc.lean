import Verif.Lemmas.Serial
import Verif.Props.Write

/-! # Serialized documents can be written and read back; `Deserialize` sees only the document -/

namespace Verif.Serial

open Verif Verif.Map Verif.Text Verif.Number Verif.Parser Verif.Write Verif.Spec Verif.Doc Verif.Props

variable {D : Type}

/-! ## Readable documents -/

/-- Text that survives writing and parsing. -/
def ReadableText (s : Bytes) : Prop :=
  ∃ cps : List Nat, (∀ cp ∈ cps, cp < 0x110000 ∧ 0x20 ≤ cp ∧ cp ≠ 0x22 ∧ cp ≠ 0x5C ∧ cp ≠ 0x7F) ∧ s = utf8s cps

theorem ReadableText.nul_free {s : Bytes} (h : ReadableText s) : (0 : Byte) ∉ s := by
  obtain ⟨cps, hc, rfl⟩ := h
  exact utf8s_nul_free fun cp hcp => ⟨(hc cp hcp).1, (hc cp hcp).2.1⟩

theorem readable_leaf {N : NumOps D} {v : Value D} (h : ReadableNode N v) (hs : ∀ s, step v s = none) :
    ReadableDoc N v := by
  intro path x hx
  cases path with
  | nil => simp only [walk, Option.some.injEq] at hx; subst hx; exact h
  | cons s p => simp [walk, hs] at hx

theorem readable_arr {N : NumOps D} {l : List (Value D)} (h : ∀ x ∈ l, ReadableDoc N x) :
    ReadableDoc N (.arr l) := by
  intro path x hx
  cases path with
  | nil => simp only [walk, Option.some.injEq] at hx; subst hx; trivial
  | cons s p =>
    cases s with
    | index i =>
      simp only [walk, step, Option.bind_eq_some_iff] at hx
      obtain ⟨y, hy, hw⟩ := hx
      exact h y (List.mem_of_getElem? hy) p x hw
    | member k => simp [walk, step] at hx

/-- What makes an object readable. -/
structure ObjReadable (N : NumOps D) (m : Tree Bytes (Value D)) (o : List Bytes) : Prop where
  listed : ∀ k, (findMapElement nameLt k m).isSome ↔ k ∈ o
  names : ∀ k ∈ o, ReadableText k
  members : ∀ k x, findMapElement nameLt k m = some x → ReadableDoc N x.2

theorem ObjReadable.doc {N : NumOps D} {m : Tree Bytes (Value D)} {o : List Bytes} (h : ObjReadable N m o) :
    ReadableDoc N (.obj m o) := by
  intro path x hx
  cases path with
  | nil =>
    simp only [walk, Option.some.injEq] at hx
    subst hx
    exact ⟨h.listed, h.names⟩
  | cons s p =>
    cases s with
    | index i => simp [walk, step] at hx
    | member k =>
      simp only [walk, step, Option.bind_eq_some_iff, Option.map_eq_some_iff] at hx
      obtain ⟨y, ⟨z, hz, rfl⟩, hw⟩ := hx
      exact h.members k z hz p x hw

mutual
/-- Data with empty maps and no vectors whose texts and numbers survive writing and parsing. -/
def Ty.Savable (N : NumOps D) : (t : Ty) → t.Den D → Prop
  | .str, s => ReadableText s
  | .num, x => ∃ d : Dec, SafeNum (N.fmt x) d ∧ x = N.conv d.neg d.mantissa d.exponent
  | .bool, _ => True
  | .null, _ => True
  | .stdString, s => ReadableText s
  | .arr t, l => ∀ x ∈ l, t.Savable N x
  | .map _, l => l = []
  | .vec _, _ => False
  | .stdMap _, l => l = []
  | .struct _ fs, d => fs.Savable N d
/-- The same for field lists. -/
def Fields.Savable (N : NumOps D) : (fs : Fields) → fs.Den D → Prop
  | .nil, _ => True
  | .here t rest, d => t.Savable N d.1 ∧ rest.Savable N d.2
  | .named _ name t rest, d => ReadableText name ∧ t.Savable N d.1 ∧ rest.Savable N d.2
end

mutual
/-- Types without maps. -/
def Ty.NoMaps : Ty → Prop
  | .arr t => t.NoMaps
  | .map _ => False
  | .vec t => t.NoMaps
  | .stdMap _ => False
  | .struct _ fs => fs.NoMaps
  | _ => True
/-- The same for field lists. -/
def Fields.NoMaps : Fields → Prop
  | .nil => True
  | .here t rest => t.NoMaps ∧ rest.NoMaps
  | .named _ _ t rest => t.NoMaps ∧ rest.NoMaps
end

mutual
theorem savable_wf (N : NumOps D) : ∀ (t : Ty) (d : t.Den D), t.Savable N d → t.Wf d
  | .str, _, _ => trivial
  | .num, _, _ => trivial
  | .bool, _, _ => trivial
  | .null, _, _ => trivial
  | .stdString, _, h => ReadableText.nul_free h
  | .arr t, _, h => fun x hx => savable_wf N t x (h x hx)
  | .map _, _, h => by rw [show _ = [] from h]; exact ⟨List.Pairwise.nil, by simp⟩
  | .vec _, _, h => h.elim
  | .stdMap _, _, h => by rw [show _ = [] from h]; exact ⟨List.Pairwise.nil, by simp⟩
  | .struct _ fs, d, h => savableF_wf N fs d h
theorem savableF_wf (N : NumOps D) : ∀ (fs : Fields) (d : fs.Den D), fs.Savable N d → fs.Wf d
  | .nil, _, _ => trivial
  | .here t rest, d, h => ⟨savable_wf N t d.1 h.1, savableF_wf N rest d.2 h.2⟩
  | .named _ _ t rest, d, h => ⟨savable_wf N t d.1 h.2.1, savableF_wf N rest d.2 h.2.2⟩
end

theorem objReadable_insert {N : NumOps D} {m m' : Tree Bytes (Value D)} {o : List Bytes} (h : ObjReadable N m o)
    {k : Bytes} {v : Value D} (hk : ReadableText k) (hv : ReadableDoc N v)
    (h1 : findMapElement nameLt k m' = some (k, v))
    (h2 : ∀ k', k' ≠ k → findMapElement nameLt k' m' = findMapElement nameLt k' m) :
    ObjReadable N m' (o ++ [k]) := by
  refine ⟨?_, ?_, ?_⟩
  · intro k'
    by_cases e : k' = k
    · subst e; simp [h1]
    · rw [h2 k' e, h.listed]; simp [e]
  · intro k' hk'
    rcases List.mem_append.1 hk' with hk' | hk'
    · exact h.names k' hk'
    · simp only [List.mem_singleton] at hk'
      subst hk'; exact hk
  · intro k' x hx
    by_cases e : k' = k
    · subst e
      rw [h1] at hx
      simp only [Option.some.injEq] at hx
      subst hx; exact hv
    · rw [h2 k' e] at hx; exact h.members k' x hx

mutual
theorem ser_readable (N : NumOps D) (init : D) : ∀ (t : Ty), t.Plain → ∀ (d : t.Den D), t.Savable N d →
    ∃ v, serialize init t d (createValueFor init t) = .ok (.kOk, v) ∧ ReadableDoc N v
  | .str, _, d, h => ⟨_, rfl, readable_leaf h (by intro s; cases s <;> rfl)⟩
  | .num, _, d, h => ⟨_, rfl, readable_leaf h (by intro s; cases s <;> rfl)⟩
  | .bool, _, d, h => ⟨_, rfl, readable_leaf trivial (by intro s; cases s <;> rfl)⟩
  | .null, _, d, h => ⟨_, rfl, readable_leaf trivial (by intro s; cases s <;> rfl)⟩
  | .stdString, _, d, h => ⟨_, rfl, readable_leaf (by
      rw [cText_nul_free (s := d) (ReadableText.nul_free h)]; exact h) (by intro s; cases s <;> rfl)⟩
  | .arr t, hp, d, h => by
    have ih := ser_readable N init t hp
    refine ⟨_, serElems_spec _ d [] ?_, ?_⟩
    · intro x hx
      obtain ⟨v, e, -⟩ := ih x (h x hx)
      rw [e]; rfl
    · apply readable_arr
      intro y hy
      simp only [List.nil_append, List.mem_map] at hy
      obtain ⟨x, hx, rfl⟩ := hy
      obtain ⟨v, e, hv⟩ := ih x (h x hx)
      rw [e]; exact hv
  | .map _, _, _, h => by
    rw [show _ = [] from h]
    exact ⟨_, rfl, (ObjReadable.mk (by simp [findMapElement]) (by simp) (by simp [findMapElement]) : ObjReadable N .nil []).doc⟩
  | .vec _, _, _, h => h.elim
  | .stdMap _, _, _, h => by
    rw [show _ = [] from h]
    exact ⟨_, rfl, (ObjReadable.mk (by simp [findMapElement]) (by simp) (by simp [findMapElement]) : ObjReadable N .nil []).doc⟩
  | .struct _ fs, hp, d, h => by
    obtain ⟨m', o', h1, -, -, h4⟩ := serProto_readable N init fs hp.1 hp.2 d h .nil [] treeOk_nil
      (by intro n _; rfl) ⟨by simp [findMapElement], by simp, by simp [findMapElement]⟩
    exact ⟨_, h1, h4.doc⟩
theorem serProto_readable (N : NumOps D) (init : D) : ∀ (fs : Fields), fs.Plain → fs.names.Nodup → ∀ (d : fs.Den D),
    fs.Savable N d → ∀ (m : Tree Bytes (Value D)) (o : List Bytes), TreeOk m →
    (∀ n ∈ fs.names, findMapElement nameLt n m = none) → ObjReadable N m o →
    ∃ m' o', serProto init fs d (.obj m o) = .ok (.kOk, .obj m' o') ∧ TreeOk m' ∧
      (∀ k, k ∉ fs.names → findMapElement nameLt k m' = findMapElement nameLt k m) ∧ ObjReadable N m' o'
  | .nil, _, _, d, _, m, o, hm, _, hr => ⟨m, o, rfl, hm, fun _ _ => rfl, hr⟩
  | .named opt name t rest, hp, hnd, d, hw, m, o, hm, hn, hr => by
    obtain ⟨v, e1, e2⟩ := ser_readable N init t hp.1 d.1 hw.2.1
    simp only [Fields.names, List.nodup_cons] at hnd
    obtain ⟨m1, i1, i2, i3, i4⟩ := find_insert hm name v (hn name (by simp [Fields.names]))
    obtain ⟨m', o', h1, h2, h3, h4⟩ := serProto_readable N init rest hp.2 hnd.2 d.2 hw.2.2 m1 (o ++ [name]) i2 (by
      intro n hx
      rw [i4 n (by rintro rfl; exact hnd.1 hx)]
      exact hn n (by simp [Fields.names, hx])) (objReadable_insert hr hw.1 e2 i3 i4)
    refine ⟨m', o', ?_, h2, ?_, h4⟩
    · simp only [serProto, serNamed, e1, Out.ok_bind, insertAccounted, i1, ne_eq, not_true, if_false]
      exact h1
    · intro k hk
      simp only [Fields.names, List.mem_cons, not_or] at hk
      rw [h3 k hk.2, i4 k hk.1]
  | .here (.struct id fs) rest, hp, hnd, d, hw, m, o, hm, hn, hr => by
    simp only [Fields.names, Ty.names, List.nodup_append] at hnd
    obtain ⟨m1, o1, a1, a2, a3, a4⟩ := serProto_readable N init fs hp.1 hnd.1 d.1 hw.1 m o hm (fun n hx =>
      hn n (by simp [Fields.names, Ty.names, hx])) hr
    have hdis : ∀ n ∈ rest.names, n ∉ fs.names := fun n h1 h2 => hnd.2.2 n h2 n h1 rfl
    obtain ⟨m', o', b1, b2, b3, b4⟩ := serProto_readable N init rest hp.2 hnd.2.1 d.2 hw.2 m1 o1 a2 (by
      intro n hx
      rw [a3 n (hdis n hx)]
      exact hn n (by simp [Fields.names, Ty.names, hx])) a4
    refine ⟨m', o', ?_, b2, ?_, b4⟩
    · simp only [serProto, serialize, a1, Out.ok_bind, ne_eq, not_true, if_false]
      exact b1
    · intro k hk
      simp only [Fields.names, Ty.names, List.mem_append, not_or] at hk
      rw [b3 k hk.2, a3 k hk.1]
  | .here .str _, hp, _, _, _, _, _, _, _, _ => hp.elim
  | .here .num _, hp, _, _, _, _, _, _, _, _ => hp.elim
  | .here .bool _, hp, _, _, _, _, _, _, _, _ => hp.elim
  | .here .null _, hp, _, _, _, _, _, _, _, _ => hp.elim
  | .here .stdString _, hp, _, _, _, _, _, _, _, _ => hp.elim
  | .here (.arr _) _, hp, _, _, _, _, _, _, _, _ => hp.elim
  | .here (.map _) _, hp, _, _, _, _, _, _, _, _ => hp.elim
  | .here (.vec _) _, hp, _, _, _, _, _, _, _, _ => hp.elim
  | .here (.stdMap _) _, hp, _, _, _, _, _, _, _, _ => hp.elim
end

/-! ## `Deserialize` cannot tell equal documents apart -/

theorem sameDoc_alike {v v' : Value D} (h : SameDoc v v') : Alike v v' := by
  rcases h [] with ⟨h1, -⟩ | ⟨x, x', h1, h2, h3⟩
  · simp [walk] at h1
  · simp only [walk, Option.some.injEq] at h1 h2
    subst h1; subst h2; exact h3

theorem sameDoc_child {v v' x x' : Value D} (h : SameDoc v v') (s : Step) (h1 : step v s = some x)
    (h2 : step v' s = some x') : SameDoc x x' := by
  intro p
  have := h (s :: p)
  simpa [walk, h1, h2] using this

theorem sameDoc_step {v v' : Value D} (h : SameDoc v v') (s : Step) :
    (step v s = none ∧ step v' s = none) ∨ ∃ x x', step v s = some x ∧ step v' s = some x' ∧ SameDoc x x' := by
  rcases h [s] with ⟨h1, h2⟩ | ⟨x, x', h1, h2, -⟩
  · left
    simpa [walk] using And.intro h1 h2
  · right
    have e1 : step v s = some x := by simpa [walk] using h1
    have e2 : step v' s = some x' := by simpa [walk] using h2
    exact ⟨x, x', e1, e2, sameDoc_child h s e1 e2⟩

theorem desElems_congr {α : Type} (f : Value D → Status × α) (l l' : List (Value D)) (hl : l'.length = l.length)
    (h : ∀ (i : Nat) x x', l[i]? = some x → l'[i]? = some x' → f x = f x') (data : List α) :
    desElems f l data = desElems f l' data := by
  induction l generalizing l' data with
  | nil => cases l' with
    | nil => rfl
    | cons _ _ => simp at hl
  | cons v l ih => cases l' with
    | nil => simp at hl
    | cons v' l' =>
      have e := h 0 v v' rfl rfl
      simp only [desElems, e]
      rw [ih l' (by simpa using hl) (fun i x x' h1 h2 => h (i + 1) x x' (by simpa using h1) (by simpa using h2))]

theorem desNamed_congr {α : Type} (f : Value D → α → Status × α) (h : ∀ x x' o, SameDoc x x' → f x o = f x' o)
    {v v' : Value D} (hs : SameDoc v v') (name : Bytes) (old : α) :
    desNamed f v name old = desNamed f v' name old := by
  have ha := sameDoc_alike hs
  cases v with
  | obj m o =>
    cases v' with
    | obj m' o' =>
      have := sameDoc_step hs (.member name)
      simp only [step, Option.map_eq_none_iff, Option.map_eq_some_iff] at this
      simp only [desNamed]
      rcases this with ⟨h1, h2⟩ | ⟨x, x', ⟨e1, h1, rfl⟩, ⟨e2, h2, rfl⟩, h3⟩
      · rw [h1, h2]
      · rw [h1, h2]; exact h _ _ _ h3
    | _ => simp [Alike] at ha
  | _ => cases v' <;> first | rfl | (simp [Alike] at ha)

mutual
theorem des_same (dflt : (t : Ty) → t.Den D) : ∀ (t : Ty), t.NoMaps → ∀ (v v' : Value D) (old : t.Den D), SameDoc v v' →
    deserialize dflt t v old = deserialize dflt t v' old
  | .str, _, v, v', old, h => by
    have := sameDoc_alike h
    cases v <;> cases v' <;> first | rfl | (simp only [Alike] at this; done) | (simp only [Alike] at this; subst this; rfl)
  | .num, _, v, v', old, h => by
    have := sameDoc_alike h
    cases v <;> cases v' <;> first | rfl | (simp only [Alike] at this; done) | (simp only [Alike] at this; subst this; rfl)
  | .bool, _, v, v', old, h => by
    have := sameDoc_alike h
    cases v <;> cases v' <;> first | rfl | (simp only [Alike] at this; done) | (simp only [Alike] at this; subst this; rfl)
  | .null, _, v, v', old, h => by
    have := sameDoc_alike h
    cases v <;> cases v' <;> first | rfl | (simp only [Alike] at this; done)
  | .stdString, _, v, v', old, h => by
    have := sameDoc_alike h
    cases v <;> cases v' <;> first | rfl | (simp only [Alike] at this; done) | (simp only [Alike] at this; subst this; rfl)
  | .arr t, hn, v, v', old, h => by
    have ih := des_same dflt t hn
    have := sameDoc_alike h
    cases v with
    | arr l =>
      cases v' with
      | arr l' =>
        simp only [deserialize]
        exact desElems_congr _ l l' this (fun i x x' h1 h2 => ih x x' _ (sameDoc_child h (.index i) h1 h2)) _
      | _ => simp [Alike] at this
    | _ => cases v' <;> first | rfl | (simp only [Alike] at this; done)
  | .vec t, hn, v, v', old, h => by
    have ih := des_same dflt t hn
    have := sameDoc_alike h
    cases v with
    | arr l =>
      cases v' with
      | arr l' =>
        simp only [deserialize]
        exact desElems_congr _ l l' this (fun i x x' h1 h2 => ih x x' _ (sameDoc_child h (.index i) h1 h2)) _
      | _ => simp [Alike] at this
    | _ => cases v' <;> first | rfl | (simp only [Alike] at this; done)
  | .map _, hn, _, _, _, _ => hn.elim
  | .stdMap _, hn, _, _, _, _ => hn.elim
  | .struct _ fs, hn, v, v', old, h => desProto_same dflt fs hn v v' old h
theorem desProto_same (dflt : (t : Ty) → t.Den D) : ∀ (fs : Fields), fs.NoMaps → ∀ (v v' : Value D) (old : fs.Den D),
    SameDoc v v' → desProto dflt fs v old = desProto dflt fs v' old
  | .nil, _, _, _, _, _ => rfl
  | .here t rest, hn, v, v', old, h => by
    simp only [desProto, des_same dflt t hn.1 v v' old.1 h, desProto_same dflt rest hn.2 v v' old.2 h]
  | .named opt name t rest, hn, v, v', old, h => by
    simp only [desProto, desNamed_congr _ (fun x x' o => des_same dflt t hn.1 x x' o) h,
      desProto_same dflt rest hn.2 v v' old.2 h]
end

end Verif.Serial
