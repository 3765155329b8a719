import Verif.Spec.Workflow
import Verif.Lemmas.Reload
import Verif.Props.Stable

/-!
# Data that a program loads, changes and saves
-/

namespace Verif.Serial

open Verif Verif.Map Verif.Text Verif.Parser Verif.Doc Verif.Write Verif.Spec Verif.B64 Verif.Props

mutual
theorem storable_savable : ∀ (t : Ty), t.Plain → t.NoMaps → t.NamesOk → ∀ d : t.Den Dbl, t.Storable d → t.Savable ops d
  | .str, _, _, _, _, h => h
  | .num, _, _, _, _, h => finite_safe h
  | .bool, _, _, _, _, _ => trivial
  | .null, _, _, _, _, _ => trivial
  | .stdString, _, _, _, _, h => h
  | .arr t, h1, h2, h3, _, h => fun x hx => storable_savable t h1 h2 h3 x (h x hx)
  | .map _, _, h2, _, _, _ => h2.elim
  | .vec _, h1, _, _, _, _ => h1
  | .stdMap _, _, h2, _, _, _ => h2.elim
  | .struct _ fs, h1, h2, h3, d, h => storable_savableF fs h1.1 h2 h3 d h
theorem storable_savableF : ∀ (fs : Fields), fs.Plain → fs.NoMaps → fs.NamesOk → ∀ d : fs.Den Dbl, fs.Storable d → fs.Savable ops d
  | .nil, _, _, _, _, _ => trivial
  | .named _ _ t rest, h1, h2, h3, d, h =>
    ⟨h3.1, storable_savable t h1.1 h2.1 h3.2.1 d.1 h.1, storable_savableF rest h1.2 h2.2 h3.2.2 d.2 h.2⟩
  | .here (.struct _ fs) rest, h1, h2, h3, d, h =>
    ⟨storable_savableF fs h1.1 h2.1 h3.1 d.1 h.1, storable_savableF rest h1.2 h2.2 h3.2 d.2 h.2⟩
  | .here .str _, hp, _, _, _, _ => hp.elim
  | .here .num _, hp, _, _, _, _ => hp.elim
  | .here .bool _, hp, _, _, _, _ => hp.elim
  | .here .null _, hp, _, _, _, _ => hp.elim
  | .here .stdString _, hp, _, _, _, _ => hp.elim
  | .here (.arr _) _, hp, _, _, _, _ => hp.elim
  | .here (.map _) _, hp, _, _, _, _ => hp.elim
  | .here (.vec _) _, hp, _, _, _, _ => hp.elim
  | .here (.stdMap _) _, hp, _, _, _, _ => hp.elim
end

/-- What can be seen in a parsed document with readable texts and finite numbers. -/
def Decent (v : Value Dbl) : Prop := ∀ path x, walk v path = some x →
  (∀ s, x = .str s → ReadableText s) ∧ (∀ y, x = .num y → Finite y) ∧
  ∀ t o, x = .obj t o → ∀ k, (findMapElement nameLt k t).isSome → ReadableText k

theorem decent_str {s : Bytes} (h : Decent (.str s)) : ReadableText s := (h [] _ rfl).1 s rfl
theorem decent_num {x : Dbl} (h : Decent (.num x)) : Finite x := (h [] _ rfl).2.1 x rfl

theorem decent_arr {l : List (Value Dbl)} (h : Decent (.arr l)) : ∀ x ∈ l, Decent x := by
  intro x hx path y hy
  obtain ⟨i, hi⟩ := List.getElem?_of_mem hx
  exact h (.index i :: path) y (by simp [walk, step, hi, hy])

theorem decent_member {t : Tree Bytes (Value Dbl)} {o : List Bytes} (h : Decent (.obj t o)) {k k' : Bytes} {x : Value Dbl}
    (hf : findMapElement nameLt k t = some (k', x)) : ReadableText k ∧ Decent x :=
  ⟨(h [] _ rfl).2.2 t o rfl k (by rw [hf]; rfl), fun path y hy => h (.member k :: path) y (by simp [walk, step, hf, hy])⟩

variable (dflt : (t : Ty) → t.Den Dbl)

theorem elems_storable {α : Type} {P : α → Prop} {f : Value Dbl → Status × α} (l : List (Value Dbl)) (hf : ∀ v ∈ l, P (f v).2) (data : List α)
    (hd : ∀ x ∈ data, P x) : ∀ x ∈ (desElems f l data).2, P x := by
  induction l generalizing data with
  | nil => exact hd
  | cons v l ih =>
    simp only [desElems]
    split
    · apply ih (fun v hv => hf v (by simp [hv]))
      intro x hx
      rcases List.mem_append.1 hx with hx | hx
      · exact hd x hx
      · rw [List.mem_singleton.1 hx]; exact hf v (by simp)
    · exact hd

mutual
theorem des_storable (hd : ∀ t, Ty.Storable t (dflt t)) : ∀ (t : Ty), t.NoMaps → ∀ (v : Value Dbl) (old : t.Den Dbl), Decent v →
    t.Storable old → t.Storable (deserialize dflt t v old).2
  | .str, _, v, old, hv, ho => by
    cases v with
    | str s => exact decent_str hv
    | _ => exact ho
  | .num, _, v, old, hv, ho => by
    cases v with
    | num s => exact decent_num hv
    | _ => exact ho
  | .bool, _, _, _, _, _ => trivial
  | .null, _, _, _, _, _ => trivial
  | .stdString, _, v, old, hv, ho => by
    cases v with
    | str s =>
      show ReadableText (cText s)
      rw [cText_nul_free (ReadableText.nul_free (decent_str hv))]
      exact decent_str hv
    | _ => exact ho
  | .arr t, hm, v, old, hv, ho => by
    cases v with
    | arr l =>
      exact elems_storable l (fun v h => des_storable hd t hm v _ (decent_arr hv v h) (hd t)) [] (by simp)
    | _ => exact ho
  | .vec t, hm, v, old, hv, ho => by
    cases v with
    | arr l =>
      exact elems_storable l (fun v h => des_storable hd t hm v _ (decent_arr hv v h) (hd t)) [] (by simp)
    | _ => exact ho
  | .map _, hm, _, _, _, _ => hm.elim
  | .stdMap _, hm, _, _, _, _ => hm.elim
  | .struct _ fs, hm, v, old, hv, ho => proto_storable hd fs hm v old hv ho
theorem proto_storable (hd : ∀ t, Ty.Storable t (dflt t)) : ∀ (fs : Fields), fs.NoMaps → ∀ (v : Value Dbl) (old : fs.Den Dbl), Decent v →
    fs.Storable old → fs.Storable (desProto dflt fs v old).2
  | .nil, _, _, _, _, _ => trivial
  | .here t rest, hm, v, old, hv, ho => by
    have h1 := des_storable hd t hm.1 v old.1 hv ho.1
    have h2 := proto_storable hd rest hm.2 v old.2 hv ho.2
    simp only [desProto]
    split
    · exact ⟨h1, ho.2⟩
    · exact ⟨h1, h2⟩
  | .named opt name t rest, hm, v, old, hv, ho => by
    have h1 : t.Storable (desNamed (deserialize dflt t) v name old.1).2 := by
      cases v with
      | obj m o =>
        cases hf : findMapElement nameLt name m with
        | none => simp only [desNamed, hf]; exact ho.1
        | some e =>
          simp only [desNamed, hf]
          exact des_storable hd t hm.1 e.2 old.1 (decent_member hv (k' := e.1) (by rw [hf])).2 ho.1
      | _ => exact ho.1
    have h2 := proto_storable hd rest hm.2 v old.2 hv ho.2
    simp only [desProto]
    split
    · exact ⟨h1, ho.2⟩
    · exact ⟨h1, h2⟩
end

theorem accepts_decent {text : Bytes} {v : Value Dbl} (h : Accepts ops text v) (hb : (0x5C : Byte) ∉ text) (hf : FiniteNums v) :
    Decent v := by
  have hr := accepts_readable ops b64_neg text v h (fun hm => hb (List.takeWhile_subset _ hm))
  intro path x hx
  obtain ⟨h1, h2⟩ := hr path x hx
  refine ⟨h1, fun y hy => hf path y (by rw [hx, hy]), fun t o ho k hk => ?_⟩
  obtain ⟨h3, h4⟩ := h2 t o ho
  exact h4 k ((h3 k).1 hk)

end Verif.Serial
