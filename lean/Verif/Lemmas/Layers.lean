import Verif.Spec.Layers
import Verif.Lemmas.Reload
import Verif.Lemmas.SerialFields

/-!
# Documents in layers
-/

namespace Verif.Serial

open Verif Verif.Map Verif.Text Verif.Parser Verif.Doc Verif.Write Verif.Spec

variable {D : Type}

theorem get_above {α : Type} {k : Bytes} {l : List (Bytes × α)} (h : ∀ e ∈ l, nameLt k e.1 = true) : get k l = none := by
  cases hg : get k l with
  | none => rfl
  | some x =>
    have := h _ (get_mem hg)
    simp [nameLt_strict.irrefl] at this

/-- Sorted lists with the same entries are equal. -/
theorem sorted_ext {α : Type} {l l' : List (Bytes × α)} (h1 : Sorted nameLt l) (h2 : Sorted nameLt l') (h : ∀ k, get k l = get k l') :
    l = l' := by
  induction l generalizing l' with
  | nil =>
    cases l' with
    | nil => rfl
    | cons e l' =>
      have := h e.1
      simp [Serial.get] at this
  | cons e l ih =>
    obtain ⟨a, x⟩ := e
    cases l' with
    | nil =>
      have := h a
      simp [Serial.get] at this
    | cons e' l' =>
      obtain ⟨b, y⟩ := e'
      have s1 := List.pairwise_cons.1 h1
      have s2 := List.pairwise_cons.1 h2
      by_cases hab : a = b
      · subst hab
        have hx : x = y := by
          have := h a
          simpa [Serial.get] using this
        subst hx
        congr 1
        refine ih s1.2 s2.2 fun k => ?_
        by_cases hk : a = k
        · subst hk
          rw [get_above s1.1, get_above s2.1]
        · have := h k
          simpa [Serial.get, hk] using this
      · have e1 := h a
        have e2 := h b
        simp only [Serial.get, if_true, if_neg hab, if_neg (Ne.symm hab)] at e1 e2
        have l1 := s2.1 _ (get_mem e1.symm)
        have l2 := s1.1 _ (get_mem e2)
        have := StrictTotal.asymm nameLt_strict l1
        dsimp only at l2 this
        rw [l2] at this
        cases this

theorem firstBad_ok {α : Type} {f : α → Status} {l : List α} (h : ∀ a ∈ l, f a = .kOk) : firstBad f l = .kOk := by
  induction l with
  | nil => rfl
  | cons a l ih =>
    simp only [firstBad]
    rw [if_neg (by simpa using h a (by simp))]
    exact ih fun b hb => h b (by simp [hb])

theorem look_found {m : Tree Bytes (Value D)} {o : List Bytes} {k : Bytes} {x : Value D} (h : look (.obj m o) k = some x) :
    ∃ e, findMapElement nameLt k m = some e ∧ e.2 = x := by
  simpa [look] using h

theorem look_absent {m : Tree Bytes (Value D)} {o : List Bytes} {k : Bytes} (h : look (.obj m o) k = none) :
    findMapElement nameLt k m = none := by
  simpa [look] using h

theorem Below.look {nul : Bool} {v x : Value D} (h : Below nul v) {k : Bytes} (hx : look v k = some x) : Below nul x := by
  cases v with
  | obj m o =>
    obtain ⟨e, he, rfl⟩ := look_found hx
    exact h.found he
  | _ => simp [Serial.look] at hx

mutual
theorem conforms_ok : ∀ (t : Ty) (v : Value D) (nul : Bool), Below nul v → Conforms t v → validate t v = .kOk
  | .str, _, _, _, h => by obtain ⟨s, rfl⟩ := h; rfl
  | .num, _, _, _, h => by obtain ⟨s, rfl⟩ := h; rfl
  | .bool, _, _, _, h => by obtain ⟨s, rfl⟩ := h; rfl
  | .null, _, _, _, h => by cases h; rfl
  | .stdString, _, _, _, h => by obtain ⟨s, rfl⟩ := h; rfl
  | .arr t, _, nul, hb, h => by
    obtain ⟨l, rfl, h⟩ := h
    exact firstBad_ok fun x hx => conforms_ok t x nul (hb.elem hx) (h x hx)
  | .vec t, _, nul, hb, h => by
    obtain ⟨l, rfl, h⟩ := h
    exact firstBad_ok fun x hx => conforms_ok t x nul (hb.elem hx) (h x hx)
  | .map t, _, nul, hb, h => by
    obtain ⟨⟨m, o, rfl⟩, h⟩ := h
    exact firstBad_ok fun e he => conforms_ok t e.2 nul (hb.entry he)
      (h e.1 e.2 (by simp [look, (treeOk_mem (deep_obj.1 hb.1).1).2 e he]))
  | .stdMap t, _, nul, hb, h => by
    obtain ⟨⟨m, o, rfl⟩, h⟩ := h
    exact firstBad_ok fun e he => conforms_ok t e.2 nul (hb.entry he)
      (h e.1 e.2 (by simp [look, (treeOk_mem (deep_obj.1 hb.1).1).2 e he]))
  | .struct _ fs, v, nul, hb, h => conformsF_ok fs v nul hb h
theorem conformsF_ok : ∀ (fs : Fields) (v : Value D) (nul : Bool), Below nul v → ConformsF fs v → validateProto fs v = .kOk
  | .nil, _, _, _, _ => rfl
  | .here t rest, v, nul, hb, h => by
    simp only [validateProto, conforms_ok t v nul hb h.1, ne_eq, not_true, if_false]
    exact conformsF_ok rest v nul hb h.2
  | .named opt name t rest, _, nul, hb, h => by
    obtain ⟨⟨m, o, rfl⟩, h1, h2, h3⟩ := h
    have ih := conformsF_ok rest _ nul hb h3
    cases hl : look (.obj m o) name with
    | none =>
      have hn : validateNamed (validate t) (.obj m o) name = .kNameNotPresent := by simp [validateNamed, look_absent hl]
      simp [validateProto, hn, h1 hl, ih]
    | some x =>
      have hx := conforms_ok t x nul (hb.look hl) (h2 x hl)
      obtain ⟨e, he, rfl⟩ := look_found hl
      have hn : validateNamed (validate t) (.obj m o) name = .kOk := by simp [validateNamed, he, hx]
      simp [validateProto, hn, ih]
end

mutual
theorem layered_conforms : ∀ (t : Ty) (v w u : Value D), Conforms t v → Conforms t w → Layered t v w u → Conforms t u
  | .str, _, _, _, _, hw, h => by cases h; exact hw
  | .num, _, _, _, _, hw, h => by cases h; exact hw
  | .bool, _, _, _, _, hw, h => by cases h; exact hw
  | .null, _, _, _, _, hw, h => by cases h; exact hw
  | .stdString, _, _, _, _, hw, h => by cases h; exact hw
  | .arr _, _, _, _, _, hw, h => by cases h; exact hw
  | .vec _, _, _, _, _, hw, h => by cases h; exact hw
  | .map t, v, w, u, hv, hw, h => by
    refine ⟨h.1, fun k x hx => ?_⟩
    have := h.2 k
    rw [hx] at this
    cases h1 : look v k <;> cases h2 : look w k <;> simp only [h1, h2, Over, reduceCtorEq, Option.some.injEq] at this
    · subst this; exact hw.2 k _ h2
    · subst this; exact hv.2 k _ h1
    · obtain ⟨z, rfl, hz⟩ := this
      exact layered_conforms t _ _ _ (hv.2 k _ h1) (hw.2 k _ h2) hz
  | .stdMap t, v, w, u, hv, hw, h => by
    refine ⟨h.1, fun k x hx => ?_⟩
    have := h.2 k
    rw [hx] at this
    cases h1 : look v k <;> cases h2 : look w k <;> simp only [h1, h2, Over, reduceCtorEq, Option.some.injEq] at this
    · subst this; exact hw.2 k _ h2
    · subst this; exact hv.2 k _ h1
    · obtain ⟨z, rfl, hz⟩ := this
      exact layered_conforms t _ _ _ (hv.2 k _ h1) (hw.2 k _ h2) hz
  | .struct _ fs, v, w, u, hv, hw, h => layeredF_conforms fs v w u hv hw h
theorem layeredF_conforms : ∀ (fs : Fields) (v w u : Value D), ConformsF fs v → ConformsF fs w → LayeredF fs v w u → ConformsF fs u
  | .nil, _, _, _, _, _, _ => trivial
  | .here t rest, v, w, u, hv, hw, h =>
    ⟨layered_conforms t v w u hv.1 hw.1 h.1, layeredF_conforms rest v w u hv.2 hw.2 h.2⟩
  | .named opt name t rest, v, w, u, hv, hw, h => by
    refine ⟨h.1, fun hn => ?_, fun x hx => ?_, layeredF_conforms rest v w u hv.2.2.2 hw.2.2.2 h.2.2⟩
    · have := h.2.1
      rw [hn] at this
      cases h1 : look v name <;> cases h2 : look w name <;> simp only [h1, h2, Over, reduceCtorEq, Option.some.injEq] at this
      · exact hv.2.1 h1
      · obtain ⟨z, hz, -⟩ := this
        cases hz
    · have := h.2.1
      rw [hx] at this
      cases h1 : look v name <;> cases h2 : look w name <;> simp only [h1, h2, Over, reduceCtorEq, Option.some.injEq] at this
      · subst this; exact hw.2.2.1 _ h2
      · subst this; exact hv.2.2.1 _ h1
      · obtain ⟨z, rfl, hz⟩ := this
        exact layered_conforms t _ _ _ (hv.2.2.1 _ h1) (hw.2.2.1 _ h2) hz
end

/-- With names that have no NUL, the loop for `std::map` does what the one for `ObjectMap` does. -/
theorem desStdMap_eq {α : Type} (f : Value D → α → Status × α) (dflt : α) (l : List (Bytes × Value D)) (data : List (Bytes × α))
    (hk : ∀ e ∈ l, (0 : Byte) ∉ e.1) (hf : ∀ e ∈ l, ∀ o, (f e.2 o).1 = .kOk) : desStdMap f dflt l data = desMap f dflt l data := by
  induction l generalizing data with
  | nil => rfl
  | cons e l ih =>
    obtain ⟨k, v⟩ := e
    have h1 : cText k = k := cText_nul_free (hk (k, v) (by simp))
    have h2 := hf (k, v) (by simp)
    simp only [desStdMap, desMap, h1]
    cases hg : get k data <;> simp [h2, ih _ (fun e he => hk e (by simp [he])) (fun e he => hf e (by simp [he]))]

variable (dflt : (t : Ty) → t.Den D)

/-- One member read over an entry. -/
def laid (t : Ty) (a : Option (Value D)) (old : Option (t.Den D)) : Option (t.Den D) :=
  match a with
  | some x => some (deserialize dflt t x (old.getD (dflt t))).2
  | none => old

/-- What reading a map does to each key. -/
theorem map_get (t : Ty) {m : Tree Bytes (Value D)} {o : List Bytes} (hb : Below false (.obj m o)) (h : ∀ k x, look (.obj m o) k = some x → Conforms t x)
    (old : List (Bytes × t.Den D)) (k : Bytes) :
    get k (desMap (deserialize dflt t) (dflt t) (toList m) old).2 = laid dflt t (look (.obj m o) k) (get k old) := by
  have htree := (deep_obj.1 hb.1).1
  obtain ⟨A, hA⟩ := htree
  have hok : (desMap (deserialize dflt t) (dflt t) (toList m) old).1 = .kOk := by
    have := des_status dflt (.map t) (.obj m o) old
    rw [conforms_ok (.map t) (.obj m o) false hb ⟨⟨m, o, rfl⟩, h⟩] at this
    exact this
  have hm := desMap_merge (deserialize dflt t) (dflt t) (toList m) old hA.sorted hok k
  have hf := mapInv_find nameLt_strict hA k
  cases hk : A k with
  | none =>
    rw [hk] at hf
    simp only [laid, look, hf]
    exact hm.2 (fun v hv => by rw [hA.mem] at hv; rw [hk] at hv; simp at hv)
  | some x =>
    rw [hk] at hf
    simp only [laid, look, hf]
    exact hm.1 x ((hA.mem k x).2 hk)

/-- Reading a conforming document into a map. -/
theorem des_map_eq (t : Ty) {m : Tree Bytes (Value D)} {o : List Bytes} (hb : Below false (.obj m o))
    (h : ∀ k x, look (.obj m o) k = some x → Conforms t x) (old : List (Bytes × t.Den D)) :
    deserialize dflt (.map t) (.obj m o) old = (.kOk, (desMap (deserialize dflt t) (dflt t) (toList m) old).2) ∧
    deserialize dflt (.stdMap t) (.obj m o) old = (.kOk, (desMap (deserialize dflt t) (dflt t) (toList m) old).2) := by
  have h1 : deserialize dflt (.map t) (.obj m o) old = (.kOk, (desMap (deserialize dflt t) (dflt t) (toList m) old).2) := by
    refine Prod.ext ?_ rfl
    rw [des_status, conforms_ok (.map t) (.obj m o) false hb ⟨⟨m, o, rfl⟩, h⟩]
  refine ⟨h1, ?_⟩
  rw [← h1]
  show desStdMap _ _ _ _ = desMap _ _ _ _
  refine desStdMap_eq _ _ _ _ (fun e he => hb.2 rfl [] m o rfl e he) fun e he o' => ?_
  rw [des_status]
  exact conforms_ok t e.2 false (hb.entry he) (h e.1 e.2 (by simp [look, (treeOk_mem (deep_obj.1 hb.1).1).2 e he]))

/-- One member of a map, or one field, in layers. -/
theorem over_des {t : Ty} {a b c : Option (Value D)} (hd : t.Ordered (dflt t))
    (ih : ∀ x y z (o : t.Den D), a = some x → b = some y → c = some z → Layered t x y z → t.Ordered o →
      deserialize dflt t z o = deserialize dflt t y (deserialize dflt t x o).2)
    (h : Over (Layered t) a b c) (old : Option (t.Den D)) (ho : ∀ x, old = some x → t.Ordered x) :
    laid dflt t c old = laid dflt t b (laid dflt t a old) := by
  have ho' : t.Ordered (old.getD (dflt t)) := by
    cases old with
    | none => exact hd
    | some x => exact ho x rfl
  cases a <;> cases b <;> simp only [Over] at h
  · subst h; rfl
  · subst h; rfl
  · subst h; rfl
  · obtain ⟨z, rfl, hz⟩ := h
    simp only [laid, Option.getD_some]
    rw [ih _ _ _ _ rfl rfl rfl hz ho']

theorem map_layers (t : Ty) (hd : ∀ t, Ty.Ordered t (dflt t)) {v w u : Value D} (bv : Below false v) (bw : Below false w) (bu : Below false u)
    (hv : Conforms (.map t) v) (hw : Conforms (.map t) w) (h : Layered (.map t) v w u)
    (ih : ∀ x y z (o : t.Den D), Below false x → Below false y → Below false z → Conforms t x → Conforms t y → Layered t x y z →
      t.Ordered o → deserialize dflt t z o = deserialize dflt t y (deserialize dflt t x o).2)
    (old : (Ty.map t).Den D) (ho : (Ty.map t).Ordered old) :
    deserialize dflt (.map t) u old = deserialize dflt (.map t) w (deserialize dflt (.map t) v old).2 ∧
    deserialize dflt (.stdMap t) u old = deserialize dflt (.stdMap t) w (deserialize dflt (.stdMap t) v old).2 := by
  have hu := layered_conforms (.map t) v w u hv hw h
  obtain ⟨⟨m1, o1, rfl⟩, hv⟩ := hv
  obtain ⟨⟨m2, o2, rfl⟩, hw⟩ := hw
  obtain ⟨⟨m3, o3, rfl⟩, hu⟩ := hu
  have hl : (desMap (deserialize dflt t) (dflt t) (toList m3) old).2 =
      (desMap (deserialize dflt t) (dflt t) (toList m2) (desMap (deserialize dflt t) (dflt t) (toList m1) old).2).2 := by
    have s1 := des_ordered dflt hd (.map t) (.obj m1 o1) old ho
    have s2 := des_ordered dflt hd (.map t) (.obj m2 o2) _ s1
    have s3 := des_ordered dflt hd (.map t) (.obj m3 o3) old ho
    refine sorted_ext s3.1 s2.1 fun k => ?_
    rw [map_get dflt t bu hu, map_get dflt t bw hw, map_get dflt t bv hv]
    refine over_des dflt (hd t) (fun x y z o e1 e2 e3 hz ho => ?_) (h.2 k) (get k old) (fun x hx => ho.2 _ (get_mem hx))
    exact ih x y z o (bv.look e1) (bw.look e2) (bu.look e3) (hv k x e1) (hw k y e2) hz ho
  rw [(des_map_eq dflt t bu hu old).1, (des_map_eq dflt t bv hv old).1, (des_map_eq dflt t bw hw _).1,
    (des_map_eq dflt t bu hu old).2, (des_map_eq dflt t bv hv old).2, (des_map_eq dflt t bw hw _).2, hl]
  exact ⟨rfl, rfl⟩

theorem desNamed_look (t : Ty) {v : Value D} (hv : IsObj v) (name : Bytes) (o : t.Den D) :
    some (desNamed (deserialize dflt t) v name o).2 = laid dflt t (look v name) (some o) := by
  obtain ⟨m, o', rfl⟩ := hv
  cases hf : findMapElement nameLt name m <;> simp [desNamed, laid, look, hf]

theorem desProto_named_ok (opt : Bool) (name : Bytes) (t : Ty) (rest : Fields) {v : Value D} (bv : Below false v)
    (hv : ConformsF (.named opt name t rest) v) (old : (Fields.named opt name t rest).Den D) :
    desProto dflt (.named opt name t rest) v old =
      (.kOk, ((desNamed (deserialize dflt t) v name old.1).2, (desProto dflt rest v old.2).2)) := by
  have hst := desProto_status dflt (.named opt name t rest) v old
  rw [conformsF_ok _ v false bv hv] at hst
  refine Prod.ext hst ?_
  simp only [desProto] at hst ⊢
  split
  · rename_i hc
    rw [if_pos hc] at hst
    exact absurd hst hc.1
  · rfl

mutual
theorem des_layers (hd : ∀ t, Ty.Ordered t (dflt t)) : ∀ (t : Ty) (v w u : Value D) (old : t.Den D), Below false v → Below false w →
    Below false u → Conforms t v → Conforms t w → Layered t v w u → t.Ordered old →
    deserialize dflt t u old = deserialize dflt t w (deserialize dflt t v old).2
  | .str, _, _, _, _, _, _, _, hv, hw, h, _ => by cases h; obtain ⟨x, rfl⟩ := hw; rfl
  | .num, _, _, _, _, _, _, _, hv, hw, h, _ => by cases h; obtain ⟨x, rfl⟩ := hw; rfl
  | .bool, _, _, _, _, _, _, _, hv, hw, h, _ => by cases h; obtain ⟨x, rfl⟩ := hw; rfl
  | .null, _, _, _, _, _, _, _, hv, hw, h, _ => by cases h; cases hw; rfl
  | .stdString, _, _, _, _, _, _, _, hv, hw, h, _ => by cases h; obtain ⟨x, rfl⟩ := hw; rfl
  | .arr _, _, _, _, _, _, _, _, hv, hw, h, _ => by cases h; obtain ⟨x, rfl, -⟩ := hw; rfl
  | .vec _, _, _, _, _, _, _, _, hv, hw, h, _ => by cases h; obtain ⟨x, rfl, -⟩ := hw; rfl
  | .map t, v, w, u, old, bv, bw, bu, hv, hw, h, ho =>
    (map_layers dflt t hd bv bw bu hv hw h (fun x y z o b1 b2 b3 h1 h2 h3 h4 => des_layers hd t x y z o b1 b2 b3 h1 h2 h3 h4) old ho).1
  | .stdMap t, v, w, u, old, bv, bw, bu, hv, hw, h, ho =>
    (map_layers dflt t hd bv bw bu hv hw h (fun x y z o b1 b2 b3 h1 h2 h3 h4 => des_layers hd t x y z o b1 b2 b3 h1 h2 h3 h4) old ho).2
  | .struct _ fs, v, w, u, old, bv, bw, bu, hv, hw, h, ho => desProto_layers hd fs v w u old bv bw bu hv hw h ho
theorem desProto_layers (hd : ∀ t, Ty.Ordered t (dflt t)) : ∀ (fs : Fields) (v w u : Value D) (old : fs.Den D), Below false v → Below false w →
    Below false u → ConformsF fs v → ConformsF fs w → LayeredF fs v w u → fs.Ordered old →
    desProto dflt fs u old = desProto dflt fs w (desProto dflt fs v old).2
  | .nil, _, _, _, _, _, _, _, _, _, _, _ => rfl
  | .here t rest, v, w, u, old, bv, bw, bu, hv, hw, h, ho => by
    have hu := layeredF_conforms (.here t rest) v w u hv hw h
    have e1 := des_layers hd t v w u old.1 bv bw bu hv.1 hw.1 h.1 ho.1
    have e2 := desProto_layers hd rest v w u old.2 bv bw bu hv.2 hw.2 h.2 ho.2
    have key : ∀ x, Below false x → ConformsF (.here t rest) x → ∀ o : (Fields.here t rest).Den D, desProto dflt (.here t rest) x o =
        ((desProto dflt rest x o.2).1, ((deserialize dflt t x o.1).2, (desProto dflt rest x o.2).2)) := by
      intro x bx hx o
      have : (deserialize dflt t x o.1).1 = .kOk := by rw [des_status]; exact conforms_ok t x false bx hx.1
      simp only [desProto, this, ne_eq, not_true, if_false]
    rw [key u bu hu, key v bv hv, key w bw hw, e1, e2]
  | .named opt name t rest, v, w, u, old, bv, bw, bu, hv, hw, h, ho => by
    have hu := layeredF_conforms (.named opt name t rest) v w u hv hw h
    have e2 := desProto_layers hd rest v w u old.2 bv bw bu hv.2.2.2 hw.2.2.2 h.2.2 ho.2
    rw [desProto_named_ok dflt opt name t rest bu hu, desProto_named_ok dflt opt name t rest bv hv, desProto_named_ok dflt opt name t rest bw hw,
      e2]
    have := over_des dflt (hd t) (a := look v name) (b := look w name) (c := look u name)
      (fun x y z o e1 e2 e3 hz ho => des_layers hd t x y z o (bv.look e1) (bw.look e2) (bu.look e3) (hv.2.2.1 x e1) (hw.2.2.1 y e2) hz ho)
      h.2.1 (some old.1) (fun x hx => by cases hx; exact ho.1)
    rw [← desNamed_look dflt t h.1, ← desNamed_look dflt t hv.1, ← desNamed_look dflt t hw.1, Option.some.injEq] at this
    rw [this]
end

end Verif.Serial
