import Verif.Lemmas.Filed

/-!
# Saving again what came back from a file

What comes back is written as the data was (used by C184).
-/

namespace Verif.Serial

open Verif Verif.Map Verif.Text Verif.Number Verif.Parser Verif.Doc Verif.Write Verif.Spec Verif.B64 Verif.Props

variable {D : Type}

/-- Two lists of the same length with related elements. -/
inductive Pairs {α β : Type} (R : α → β → Prop) : List α → List β → Prop
  | nil : Pairs R [] []
  | cons {x y l k} : R x y → Pairs R l k → Pairs R (x :: l) (y :: k)

theorem Pairs.both {α β : Type} {R : α → β → Prop} {P : α → Prop} {l : List α} {k : List β} (h : Pairs R l k) (hp : ∀ x ∈ l, P x) :
    Pairs (fun x y => R x y ∧ P x) l k := by
  induction h with
  | nil => exact .nil
  | cons h1 _ ih => exact .cons ⟨h1, hp _ (by simp)⟩ (ih fun x hx => hp x (by simp [hx]))

theorem Pairs.partner {α β : Type} {R : α → β → Prop} {l : List α} {k : List β} (h : Pairs R l k) {y : β} (hy : y ∈ k) : ∃ x, R x y := by
  induction h with
  | nil => simp at hy
  | cons h1 _ ih =>
    rcases List.mem_cons.1 hy with rfl | hy
    · exact ⟨_, h1⟩
    · exact ih hy

theorem Pairs.map {α β γ δ : Type} {R : α → β → Prop} {S : γ → δ → Prop} {f : α → γ} {g : β → δ} {l : List α} {k : List β}
    (h : Pairs R l k) (hs : ∀ x y, R x y → S (f x) (g y)) : Pairs S (l.map f) (k.map g) := by
  induction h with
  | nil => exact .nil
  | cons h1 _ ih => exact .cons (hs _ _ h1) ih

theorem arr_alike {N : NumOps D} {il : Nat} {ic : Byte} {a b : List (Value D)} (h : Pairs (WrittenAlike N il ic) a b) :
    WrittenAlike N il ic (.arr a) (.arr b) := by
  intro n ind
  cases n with
  | zero => rfl
  | succ n =>
    simp only [writeValue]
    have : ∀ ind, writeElems (writeValue N il ic n) a ind = writeElems (writeValue N il ic n) b ind := by
      induction h with
      | nil => intro ind; rfl
      | cons hx hl ih =>
        intro ind
        have he : ∀ {a b : List (Value D)}, Pairs (WrittenAlike N il ic) a b → a.isEmpty = b.isEmpty := by
          intro a b h; cases h <;> rfl
        simp only [writeElems, hx n ind, ih, he hl]
    rw [this]

theorem backs_forall {α β : Type} (g : α → Option β) : ∀ (l : List α) (k : List β), backs g l = some k →
    Pairs (fun x y => g x = some y) l k
  | [], k, h => by
    simp only [backs, Option.some.injEq] at h
    subst h; exact .nil
  | x :: l, k, h => by
    simp only [backs, Option.bind_eq_some_iff, Option.map_eq_some_iff] at h
    obtain ⟨y, h1, k', h2, rfl⟩ := h
    exact .cons h1 (backs_forall g l k' h2)

variable (N : NumOps D) (il : Nat) (ic : Byte) (init : D) (dflt : (t : Ty) → t.Den D)

mutual
theorem ser_again (hd : ∀ t, Ty.Fresh t (dflt t)) : ∀ (t : Ty), t.Listed → ∀ (d k : t.Den D), t.Ordered d → t.fileBack d = some k →
    ∃ w w', serialize init t d (createValueFor init t) = .ok (statusOf (t.fails d), w) ∧
      serialize init t k (createValueFor init t) = .ok (.kOk, w') ∧ WrittenAlike N il ic w w'
  | .str, _, _, _, _, h => by
    simp only [Ty.fileBack, Option.some.injEq] at h
    subst h; exact ⟨_, _, rfl, rfl, fun _ _ => rfl⟩
  | .num, _, _, _, _, h => by
    simp only [Ty.fileBack, Option.some.injEq] at h
    subst h; exact ⟨_, _, rfl, rfl, fun _ _ => rfl⟩
  | .bool, _, _, _, _, h => by
    simp only [Ty.fileBack, Option.some.injEq] at h
    subst h; exact ⟨_, _, rfl, rfl, fun _ _ => rfl⟩
  | .null, _, _, _, _, _ => ⟨_, _, rfl, rfl, fun _ _ => rfl⟩
  | .stdString, _, d, _, _, h => by
    simp only [Ty.fileBack, Option.some.injEq] at h
    subst h
    refine ⟨_, _, rfl, rfl, ?_⟩
    rw [cText_nul_free (s := cText d) (cText_clean d)]
    exact fun _ _ => rfl
  | .arr t, hp, d, k, hw, h => by
    have ih := ser_again hd t hp
    have h : backs t.fileBack (d.takeWhile fun x => !t.fails x) = some k := h
    have hall := (backs_forall _ _ _ h).both (P := t.Ordered) fun x hx => hw x (takeWhile_mem hx)
    refine ⟨_, _, serElems_prefix (fun x => serialize init t x (createValueFor init t)) t.fails
      (fun d => resVal (serialize init t d (createValueFor init t))) d [] ?_, serElems_spec _ k [] ?_, ?_⟩
    · intro x hx
      obtain ⟨w, e, -⟩ := ser_back init dflt hd t hp x (hw x hx)
      simp only [e, resVal]
    · intro y hy
      obtain ⟨x, h1, h2⟩ := hall.partner hy
      obtain ⟨w, w', -, e, -⟩ := ih x y h2 h1
      rw [e]; rfl
    · rw [List.nil_append, List.nil_append]
      refine arr_alike (hall.map fun x y h1 => ?_)
      obtain ⟨w, w', e, e', h⟩ := ih _ _ h1.2 h1.1
      simp only [e, e', resVal]
      exact h
  | .map t, hp, d, k, hw, h => by
    simp only [Ty.fileBack, Option.some.injEq] at h
    subst h
    obtain ⟨m', h1, h2, h3⟩ := serEntries_prefix (fun x => serialize init t x (createValueFor init t)) t.fails
      (fun d => resVal (serialize init t d (createValueFor init t))) id [] d .nil
      treeOk_nil (by
        intro e he
        obtain ⟨v, e', -⟩ := ser_back init dflt hd t hp e.2 (hw.2 e he)
        simp only [e', resVal, id, and_self]) hw.1 (by simp [toList])
    exact ⟨_, _, h1, rfl, empty_alike _ _⟩
  | .vec _, _, _, _, _, h => by simp [Ty.fileBack] at h
  | .stdMap t, hp, d, k, hw, h => by
    simp only [Ty.fileBack, Option.some.injEq] at h
    subst h
    obtain ⟨m', h1, h2, h3⟩ := serEntries_cut (fun x => serialize init t x (createValueFor init t)) t.fails
      (fun d => resVal (serialize init t d (createValueFor init t))) [] d .nil
      treeOk_nil [] (by simp [toList]) (by
        intro e he
        obtain ⟨v, e', -⟩ := ser_back init dflt hd t hp e.2 (hw.2 e he)
        simp only [e', resVal]) hw.1 (by simp)
    exact ⟨_, _, h1, rfl, empty_alike _ _⟩
  | .struct _ fs, hp, d, k, hw, h => by
    obtain ⟨a, b, o, h1, h2, -, -, h3, -⟩ := serProto_again hd fs hp.1 hp.2 d k hw h .nil .nil [] treeOk_nil treeOk_nil
      (fun k => .inl ⟨rfl, rfl⟩) (by intro n _; rfl)
    exact ⟨_, _, h1, h2, obj_alike h3 o⟩
theorem serProto_again (hd : ∀ t, Ty.Fresh t (dflt t)) : ∀ (fs : Fields), fs.Listed → fs.names.Nodup → ∀ (d k : fs.Den D), fs.Ordered d →
    fs.fileBack d = some k → ∀ (m m' : Tree Bytes (Value D)) (o : List Bytes), TreeOk m → TreeOk m' → MembersAlike N il ic m m' →
    (∀ n ∈ fs.names, findMapElement nameLt n m = none) →
    ∃ a b o', serProto init fs d (.obj m o) = .ok (.kOk, .obj a o') ∧
      serProto init fs k (.obj m' o) = .ok (.kOk, .obj b o') ∧ TreeOk a ∧ TreeOk b ∧ MembersAlike N il ic a b ∧
      (∀ k, k ∉ fs.names → findMapElement nameLt k a = findMapElement nameLt k m)
  | .nil, _, _, _, _, _, _, m, m', o, hm, hm', h, _ => ⟨m, m', o, rfl, rfl, hm, hm', h, fun _ _ => rfl⟩
  | .named opt name t rest, hp, hnd, d, k, hw, hb, m, m', o, hm, hm', h, hn => by
    simp only [Fields.fileBack, Option.bind_eq_some_iff, Option.map_eq_some_iff] at hb
    obtain ⟨x, hx, y, hy, rfl⟩ := hb
    obtain ⟨w, w', e1, e2, e3⟩ := ser_again hd t hp.1 d.1 x hw.1 hx
    simp only [Fields.names, List.nodup_cons] at hnd
    have hk := hn name (by simp [Fields.names])
    have hk' : findMapElement nameLt name m' = none := by
      rcases h name with ⟨-, h2⟩ | ⟨x, x', h1, -⟩
      · exact h2
      · rw [hk] at h1; cases h1
    obtain ⟨m1, i1, i2, i3, i4⟩ := find_insert hm name w hk
    obtain ⟨m1', j1, j2, j3, j4⟩ := find_insert hm' name w' hk'
    obtain ⟨a, b, o', h1, h2, ha, hb, h3, h4⟩ := serProto_again hd rest hp.2 hnd.2 d.2 y hw.2 hy m1 m1' (o ++ [name]) i2 j2 (by
      intro k
      by_cases e : k = name
      · subst e; exact .inr ⟨w, w', i3, j3, e3⟩
      · rw [i4 k e, j4 k e]; exact h k) (by
      intro n hx'
      rw [i4 n (by rintro rfl; exact hnd.1 hx')]
      exact hn n (by simp [Fields.names, hx']))
    refine ⟨a, b, o', ?_, ?_, ha, hb, h3, ?_⟩
    · simp only [serProto, serNamed, e1, Out.ok_bind, insertAccounted, i1, ne_eq, not_true, if_false]
      exact h1
    · simp only [serProto, serNamed, e2, Out.ok_bind, insertAccounted, j1, ne_eq, not_true, if_false]
      exact h2
    · intro k hk
      simp only [Fields.names, List.mem_cons, not_or] at hk
      rw [h4 k hk.2, i4 k hk.1]
  | .here (.struct id fs) rest, hp, hnd, d, k, hw, hb, m, m', o, hm, hm', h, hn => by
    simp only [Fields.fileBack, Ty.fileBack, Option.bind_eq_some_iff, Option.map_eq_some_iff] at hb
    obtain ⟨x, hx, y, hy, rfl⟩ := hb
    simp only [Fields.names, Ty.names, List.nodup_append] at hnd
    obtain ⟨a, b, o1, a1, a2, ha, hb, a3, a4⟩ := serProto_again hd fs hp.1 hnd.1 d.1 x hw.1 hx m m' o hm hm' h (fun n hx =>
      hn n (by simp [Fields.names, Ty.names, hx]))
    have hdis : ∀ n ∈ rest.names, n ∉ fs.names := fun n h1 h2 => hnd.2.2 n h2 n h1 rfl
    obtain ⟨a', b', o', b1, b2, ha', hb', b3, b4⟩ := serProto_again hd rest hp.2 hnd.2.1 d.2 y hw.2 hy a b o1 ha hb a3 (by
      intro n hx
      rw [a4 n (hdis n hx)]
      exact hn n (by simp [Fields.names, Ty.names, hx]))
    refine ⟨a', b', o', ?_, ?_, ha', hb', b3, ?_⟩
    · simp only [serProto, serialize, a1, Out.ok_bind, ne_eq, not_true, if_false]
      exact b1
    · simp only [serProto, serialize, a2, Out.ok_bind, ne_eq, not_true, if_false]
      exact b2
    · intro k hk
      simp only [Fields.names, Ty.names, List.mem_append, not_or] at hk
      rw [b4 k hk.2, a4 k hk.1]
  | .here .str _, hp, _, _, _, _, _, _, _, _, _, _, _, _ => hp.elim
  | .here .num _, hp, _, _, _, _, _, _, _, _, _, _, _, _ => hp.elim
  | .here .bool _, hp, _, _, _, _, _, _, _, _, _, _, _, _ => hp.elim
  | .here .null _, hp, _, _, _, _, _, _, _, _, _, _, _, _ => hp.elim
  | .here .stdString _, hp, _, _, _, _, _, _, _, _, _, _, _, _ => hp.elim
  | .here (.arr _) _, hp, _, _, _, _, _, _, _, _, _, _, _, _ => hp.elim
  | .here (.map _) _, hp, _, _, _, _, _, _, _, _, _, _, _, _ => hp.elim
  | .here (.vec _) _, hp, _, _, _, _, _, _, _, _, _, _, _, _ => hp.elim
  | .here (.stdMap _) _, hp, _, _, _, _, _, _, _, _, _, _, _, _ => hp.elim
end

end Verif.Serial
