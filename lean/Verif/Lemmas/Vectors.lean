import Verif.Spec.Vectors

/-!
# Serializing data with vectors
-/

namespace Verif.Serial

open Verif Verif.Map Verif.Text Verif.Parser Verif.Write Verif.Spec

variable {D : Type}

/-- The status for failures and successes. -/
def statusOf (failed : Bool) : Status := if failed then .kInvalidValueType else .kOk

/-- A call of `Deserialize` with the described outcome. -/
def Gives {α : Type} (o : Option α) (x : Status × α) : Prop :=
  match o with
  | some d => x = (.kOk, d)
  | none => x.1 = .kInvalidValueType

theorem serElems_prefix {α : Type} (f : α → Out (Status × Value D)) (bad : α → Bool) (r : α → Value D) (ds : List α)
    (acc : List (Value D)) (h : ∀ d ∈ ds, f d = .ok (statusOf (bad d), r d)) :
    serElems f ds acc = .ok (statusOf (ds.any bad), .arr (acc ++ (ds.takeWhile fun x => !bad x).map r)) := by
  induction ds generalizing acc with
  | nil => simp [serElems, statusOf]
  | cons d ds ih =>
    simp only [serElems]
    rw [h d (by simp)]
    simp only [Out.ok_bind, ne_eq]
    by_cases hb : bad d = true
    · simp [statusOf, hb]
    · have hb' : bad d = false := by simpa using hb
      simp only [statusOf, hb', Bool.false_eq_true, if_false, not_true, List.any_cons, Bool.false_or, Bool.not_false,
        List.takeWhile_cons, if_true, List.map_cons]
      rw [ih _ (fun x hx => h x (by simp [hx]))]
      simp [statusOf]

theorem desElems_prefix {α : Type} (g : Value D → Status × α) (r : α → Value D) (b : α → Option α) (ds data : List α)
    (h : ∀ d ∈ ds, Gives (b d) (g (r d))) : Gives ((backs b ds).map (data ++ ·)) (desElems g (ds.map r) data) := by
  induction ds generalizing data with
  | nil => simp [desElems, backs, Gives]
  | cons d ds ih =>
    have h1 := h d (by simp)
    simp only [List.map_cons, desElems, backs]
    cases hb : b d with
    | none =>
      rw [hb] at h1
      simp only [Gives] at h1
      simp [Gives, h1]
    | some y =>
      rw [hb] at h1
      simp only [Gives] at h1
      simp only [h1, if_true, Option.bind_some]
      have := ih (data ++ [y]) (fun x hx => h x (by simp [hx]))
      cases hl : backs b ds with
      | none => rw [hl] at this; simpa [Gives] using this
      | some l => rw [hl] at this; simpa [Gives] using this

theorem serEntries_prefix {α : Type} (f : α → Out (Status × Value D)) (bad : α → Bool) (r : α → Value D)
    (key : Bytes → Bytes) (order : List Bytes)
    (ds : List (Bytes × α)) (m : Tree Bytes (Value D)) (hm : TreeOk m)
    (h : ∀ e ∈ ds, f e.2 = .ok (statusOf (bad e.2), r e.2) ∧ key e.1 = e.1)
    (hs : Sorted nameLt ds) (hlt : ∀ e ∈ toList m, ∀ d ∈ ds, nameLt e.1 d.1 = true) :
    ∃ m', serEntries f key order ds m = .ok (statusOf (ds.any fun e => bad e.2), .obj m' order) ∧ TreeOk m' ∧
      toList m' = toList m ++ (ds.takeWhile fun e => !bad e.2).map fun e => (e.1, r e.2) := by
  induction ds generalizing m with
  | nil => exact ⟨m, rfl, hm, by simp⟩
  | cons e ds ih =>
    obtain ⟨k, d⟩ := e
    obtain ⟨h1, h2⟩ := h (k, d) (by simp)
    simp only at h1 h2
    by_cases hb : bad d = true
    · refine ⟨m, ?_, hm, by simp [hb]⟩
      simp only [serEntries]
      rw [h1]
      simp [statusOf, hb]
    · have hb' : bad d = false := by simpa using hb
      obtain ⟨m1, e1, e2, e3⟩ := insert_last hm k (r d) (fun e he => hlt e he (k, d) (by simp))
      have hs' := List.pairwise_cons.1 hs
      obtain ⟨m', e4, e5, e6⟩ := ih m1 e2 (fun x hx => h x (by simp [hx])) hs'.2 (by
        intro x hx y hy
        rw [e3, List.mem_append, List.mem_singleton] at hx
        rcases hx with hx | rfl
        · exact hlt x hx y (by simp [hy])
        · exact hs'.1 y hy)
      refine ⟨m', ?_, e5, ?_⟩
      · simp only [serEntries]
        rw [h1]
        simp only [statusOf, hb', Bool.false_eq_true, Out.ok_bind, ne_eq, not_true, if_false, h2, e1, List.any_cons,
          Bool.false_or]
        exact e4
      · rw [e6, e3]; simp [hb']

theorem desMap_prefix {α : Type} (g : Value D → α → Status × α) (dflt : α) (r : α → Value D) (b : α → Option α)
    (ds data : List (Bytes × α)) (h : ∀ e ∈ ds, Gives (b e.2) (g (r e.2) dflt))
    (hs : Sorted nameLt ds) (hlt : ∀ x ∈ data, ∀ e ∈ ds, nameLt x.1 e.1 = true) :
    Gives ((backs (fun e => (b e.2).map (e.1, ·)) ds).map (data ++ ·))
      (desMap g dflt (ds.map fun e => (e.1, r e.2)) data) := by
  induction ds generalizing data with
  | nil => simp [desMap, backs, Gives]
  | cons e ds ih =>
    obtain ⟨k, x⟩ := e
    have hlt1 : ∀ e ∈ data, nameLt e.1 k = true := fun e he => hlt e he (k, x) (by simp)
    have h1 := h (k, x) (by simp)
    have hs' := List.pairwise_cons.1 hs
    simp only [List.map_cons, desMap, get_none hlt1, backs]
    cases hb : b x with
    | none =>
      rw [hb] at h1
      simp only [Gives] at h1
      simp [Gives, h1]
    | some y =>
      rw [hb] at h1
      simp only [Gives] at h1
      simp only [h1, ne_eq, not_true, if_false, put_last hlt1, Option.map_some, Option.bind_some]
      have := ih (data ++ [(k, y)]) (fun x hx => h x (by simp [hx])) hs'.2 (by
        intro z hz w hw
        rw [List.mem_append, List.mem_singleton] at hz
        rcases hz with hz | rfl
        · exact hlt z hz w (by simp [hw])
        · exact hs'.1 w hw)
      cases hl : backs (fun e : Bytes × α => (b e.2).map (e.1, ·)) ds with
      | none => rw [hl] at this; simpa [Gives] using this
      | some l => rw [hl] at this; simpa [Gives] using this

theorem desStdMap_prefix {α : Type} (g : Value D → α → Status × α) (dflt : α) (r : α → Value D) (b : α → Option α)
    (ds data : List (Bytes × α)) (h : ∀ e ∈ ds, Gives (b e.2) (g (r e.2) dflt) ∧ (0 : Byte) ∉ e.1)
    (hs : Sorted nameLt ds) (hlt : ∀ x ∈ data, ∀ e ∈ ds, nameLt x.1 e.1 = true) :
    Gives ((backs (fun e => (b e.2).map (e.1, ·)) ds).map (data ++ ·))
      (desStdMap g dflt (ds.map fun e => (e.1, r e.2)) data) := by
  induction ds generalizing data with
  | nil => simp [desStdMap, backs, Gives]
  | cons e ds ih =>
    obtain ⟨k, x⟩ := e
    have hlt1 : ∀ e ∈ data, nameLt e.1 k = true := fun e he => hlt e he (k, x) (by simp)
    obtain ⟨h1, h2⟩ := h (k, x) (by simp)
    have hs' := List.pairwise_cons.1 hs
    simp only [List.map_cons, desStdMap, cText_nul_free h2, get_none hlt1, Option.getD_none, backs]
    cases hb : b x with
    | none =>
      rw [hb] at h1
      simp only [Gives] at h1
      simp [Gives, h1]
    | some y =>
      rw [hb] at h1
      simp only [Gives] at h1
      simp only [h1, ne_eq, not_true, if_false, put_last hlt1, Option.map_some, Option.bind_some]
      have := ih (data ++ [(k, y)]) (fun x hx => h x (by simp [hx])) hs'.2 (by
        intro z hz w hw
        rw [List.mem_append, List.mem_singleton] at hz
        rcases hz with hz | rfl
        · exact hlt z hz w (by simp [hw])
        · exact hs'.1 w hw)
      cases hl : backs (fun e : Bytes × α => (b e.2).map (e.1, ·)) ds with
      | none => rw [hl] at this; simpa [Gives] using this
      | some l => rw [hl] at this; simpa [Gives] using this

theorem cText_mono : ∀ {a b : Bytes}, nameLt a b = true → cText a = cText b ∨ nameLt (cText a) (cText b) = true
  | [], [], h => by simp [nameLt] at h
  | [], y :: b, _ => by
    by_cases hy : y = 0
    · simp [cText, hy]
    · right; simp [cText, hy, nameLt]
  | _ :: _, [], h => by simp [nameLt] at h
  | x :: a, y :: b, h => by
    simp only [nameLt] at h
    by_cases hxy : x = y
    · subst hxy
      rw [if_pos rfl] at h
      by_cases hx : x = 0
      · simp [cText, hx]
      · rcases cText_mono h with h | h
        · left; simp [cText, hx, h]
        · right; simp [cText, hx, nameLt, h]
    · rw [if_neg hxy, decide_eq_true_eq] at h
      have hy : y ≠ 0 := by rintro rfl; simp at h
      right
      by_cases hx : x = 0
      · simp [cText, hx, hy, nameLt]
      · simp [cText, hx, hy, nameLt, hxy, h]

theorem insert_again {m : Tree Bytes (Value D)} (hm : TreeOk m) (k : Bytes) (v : Value D)
    (hk : k ∈ (toList m).map fun x => x.1) : insertMapElement nameLt m k v = some (false, m) := by
  obtain ⟨A, hA⟩ := hm
  obtain ⟨x, hx, rfl⟩ := List.mem_map.1 hk
  have hf := (find_spec nameLt_strict x.1 m hA.sorted x).2 ⟨rfl, hx⟩
  rcases insert_spec nameLt_strict m x.1 v hA.bal hA.sorted with ⟨-, e⟩ | ⟨h, -⟩
  · exact e
  · rw [hf] at h; simp at h

/-- With keys that are cut: the entries whose key has not occurred. -/
theorem serEntries_cut {α : Type} (f : α → Out (Status × Value D)) (bad : α → Bool) (r : α → Value D)
    (order : List Bytes) (ds : List (Bytes × α)) (m : Tree Bytes (Value D)) (hm : TreeOk m) (acc : List (Bytes × α))
    (hacc : toList m = acc.map fun e => (e.1, r e.2))
    (h : ∀ e ∈ ds, f e.2 = .ok (statusOf (bad e.2), r e.2))
    (hs : Sorted nameLt ds)
    (hlt : ∀ e ∈ acc, ∀ d ∈ ds, e.1 = cText d.1 ∨ nameLt e.1 (cText d.1) = true) :
    ∃ m', serEntries f cText order ds m = .ok (statusOf (ds.any fun e => bad e.2), .obj m' order) ∧ TreeOk m' ∧
      toList m' = (((ds.takeWhile fun e => !bad e.2).map fun e => (cText e.1, e.2)).foldl addNew acc).map
        fun e => (e.1, r e.2) := by
  induction ds generalizing m acc with
  | nil => exact ⟨m, rfl, hm, by simpa using hacc⟩
  | cons e ds ih =>
    obtain ⟨k, d⟩ := e
    have h1 := h (k, d) (by simp)
    simp only at h1
    by_cases hb : bad d = true
    · refine ⟨m, ?_, hm, by simpa [hb] using hacc⟩
      simp only [serEntries]
      rw [h1]
      simp [statusOf, hb]
    · have hb' : bad d = false := by simpa using hb
      have hs' := List.pairwise_cons.1 hs
      have hkeys : (toList m).map (fun x => x.1) = acc.map fun x => x.1 := by rw [hacc]; simp
      by_cases hk : cText k ∈ acc.map fun x => x.1
      · have hi := insert_again hm (cText k) (r d) (by rw [hkeys]; exact hk)
        obtain ⟨m', e4, e5, e6⟩ := ih m hm acc hacc (fun x hx => h x (by simp [hx])) hs'.2
          (fun x hx y hy => hlt x hx y (by simp [hy]))
        refine ⟨m', ?_, e5, ?_⟩
        · simp only [serEntries]
          rw [h1]
          simp only [statusOf, hb', Bool.false_eq_true, Out.ok_bind, ne_eq, not_true, if_false, hi, List.any_cons,
            Bool.false_or]
          exact e4
        · rw [e6]
          simp only [hb', Bool.not_false, List.takeWhile_cons, if_true, List.map_cons, List.foldl_cons]
          rw [show addNew acc (cText k, d) = acc by simp only [addNew]; rw [if_pos hk]]
      · have hlast : ∀ e ∈ toList m, nameLt e.1 (cText k) = true := by
          intro e he
          rw [hacc, List.mem_map] at he
          obtain ⟨x, hx, rfl⟩ := he
          rcases hlt x hx (k, d) (by simp) with h | h
          · exact absurd (List.mem_map.2 ⟨x, hx, h⟩) hk
          · exact h
        obtain ⟨m1, e1, e2, e3⟩ := insert_last hm (cText k) (r d) hlast
        obtain ⟨m', e4, e5, e6⟩ := ih m1 e2 (acc ++ [(cText k, d)]) (by rw [e3, hacc]; simp)
          (fun x hx => h x (by simp [hx])) hs'.2 (by
            intro x hx y hy
            rw [List.mem_append, List.mem_singleton] at hx
            rcases hx with hx | rfl
            · exact hlt x hx y (by simp [hy])
            · exact cText_mono (hs'.1 y hy))
        refine ⟨m', ?_, e5, ?_⟩
        · simp only [serEntries]
          rw [h1]
          simp only [statusOf, hb', Bool.false_eq_true, Out.ok_bind, ne_eq, not_true, if_false, e1, List.any_cons,
            Bool.false_or]
          exact e4
        · rw [e6]
          simp only [hb', Bool.not_false, List.takeWhile_cons, if_true, List.map_cons, List.foldl_cons]
          rw [show addNew acc (cText k, d) = acc ++ [(cText k, d)] by simp only [addNew]; rw [if_neg hk]]

theorem foldl_addNew_mem {α : Type} (l acc : List (Bytes × α)) : ∀ e ∈ l.foldl addNew acc, e ∈ acc ∨ e ∈ l := by
  induction l generalizing acc with
  | nil => simp
  | cons x l ih =>
    intro e he
    rw [List.foldl_cons] at he
    rcases ih _ e he with h | h
    · simp only [addNew] at h
      split at h
      · exact .inl h
      · rw [List.mem_append, List.mem_singleton] at h
        rcases h with h | rfl
        · exact .inl h
        · exact .inr (by simp)
    · exact .inr (by simp [h])

theorem cutKeys_mem {α : Type} {l : List (Bytes × α)} {e : Bytes × α} (h : e ∈ cutKeys l) :
    ∃ x ∈ l, cText x.1 = e.1 ∧ x.2 = e.2 := by
  rcases foldl_addNew_mem _ _ e h with h | h
  · simp at h
  · obtain ⟨x, hx, rfl⟩ := List.mem_map.1 h
    exact ⟨x, hx, rfl, rfl⟩

theorem foldl_addNew_length {α : Type} (l acc : List (Bytes × α)) :
    (l.foldl addNew acc).length ≤ acc.length + l.length ∧
      ((l.foldl addNew acc).length = acc.length + l.length → l.foldl addNew acc = acc ++ l) := by
  induction l generalizing acc with
  | nil => simp
  | cons x l ih =>
    simp only [List.foldl_cons, List.length_cons]
    by_cases hx : x.1 ∈ acc.map fun x => x.1
    · have e : addNew acc x = acc := by simp only [addNew]; rw [if_pos hx]
      rw [e]
      have := (ih acc).1
      exact ⟨by omega, fun h => by omega⟩
    · have e : addNew acc x = acc ++ [x] := by simp only [addNew]; rw [if_neg hx]
      rw [e]
      have := ih (acc ++ [x])
      simp only [List.length_append, List.length_cons, List.length_nil] at this
      exact ⟨by omega, fun h => by rw [this.2 (by omega)]; simp⟩

theorem cutKeys_length {α : Type} (l : List (Bytes × α)) :
    (cutKeys l).length ≤ l.length ∧ ((cutKeys l).length = l.length → cutKeys l = l.map fun e => (cText e.1, e.2)) := by
  have := foldl_addNew_length (l.map fun e : Bytes × α => (cText e.1, e.2)) []
  simpa [cutKeys] using this

theorem foldl_addNew_distinct {α : Type} (l acc : List (Bytes × α)) (h : ((acc ++ l).map fun x => x.1).Nodup) :
    l.foldl addNew acc = acc ++ l := by
  induction l generalizing acc with
  | nil => simp
  | cons x l ih =>
    have hx : x.1 ∉ acc.map fun x => x.1 := by
      intro hc
      rw [List.map_append, List.nodup_append] at h
      exact h.2.2 _ hc x.1 (by simp) rfl
    have e : addNew acc x = acc ++ [x] := by simp only [addNew]; rw [if_neg hx]
    rw [List.foldl_cons, e, ih _ (by simpa using h)]
    simp

theorem takeWhile_mem {α : Type} {p : α → Bool} {l : List α} {x : α} (h : x ∈ l.takeWhile p) : x ∈ l :=
  (List.takeWhile_sublist p).subset h

variable (init : D) (dflt : (t : Ty) → t.Den D)

mutual
theorem ser_back (hd : ∀ t, Ty.Fresh t (dflt t)) : ∀ (t : Ty), t.Listed → ∀ (d : t.Den D), t.Ordered d →
    ∃ v, serialize init t d (createValueFor init t) = .ok (statusOf (t.fails d), v) ∧
      ∀ old, t.Fresh old → Gives (t.back d) (deserialize dflt t v old)
  | .str, _, d, _ => ⟨_, rfl, fun _ _ => rfl⟩
  | .num, _, d, _ => ⟨_, rfl, fun _ _ => rfl⟩
  | .bool, _, d, _ => ⟨_, rfl, fun _ _ => rfl⟩
  | .null, _, d, _ => ⟨_, rfl, fun _ _ => rfl⟩
  | .stdString, _, d, hw => by
    refine ⟨_, rfl, fun _ _ => ?_⟩
    simp only [deserialize, Ty.back, Gives]
    rw [cText_nul_free (s := cText d) (cText_clean d)]
  | .arr t, hp, d, hw => by
    have ih := ser_back hd t hp
    refine ⟨_, serElems_prefix (fun x => serialize init t x (createValueFor init t)) t.fails
      (fun d => resVal (serialize init t d (createValueFor init t))) d [] ?_, fun old _ => ?_⟩
    · intro x hx
      obtain ⟨v, e, -⟩ := ih x (hw x hx)
      simp only [e, resVal]
    · simp only [deserialize, List.nil_append, Ty.back]
      have := desElems_prefix (fun x => deserialize dflt t x (dflt t))
        (fun d => resVal (serialize init t d (createValueFor init t))) t.back (d.takeWhile fun x => !t.fails x) [] (by
          intro x hx
          obtain ⟨v, e, e'⟩ := ih x (hw x (takeWhile_mem hx))
          rw [e]; exact e' _ (hd t))
      simpa using this
  | .map t, hp, d, hw => by
    have ih := ser_back hd t hp
    obtain ⟨m', h1, h2, h3⟩ := serEntries_prefix (fun x => serialize init t x (createValueFor init t)) t.fails
      (fun d => resVal (serialize init t d (createValueFor init t))) id [] d .nil
      treeOk_nil (by
        intro e he
        obtain ⟨v, e', -⟩ := ih e.2 (hw.2 e he)
        simp only [e', resVal, id, and_self]) hw.1 (by simp [toList])
    refine ⟨_, h1, fun old ho => ?_⟩
    have ho : old = [] := ho
    subst ho
    simp only [deserialize, h3, toList, List.nil_append, Ty.back]
    have := desMap_prefix (deserialize dflt t) (dflt t) (fun x => resVal (serialize init t x (createValueFor init t)))
      t.back (d.takeWhile fun e => !t.fails e.2) []
      (by
        intro x hx
        obtain ⟨v, e, e'⟩ := ih x.2 (hw.2 x (takeWhile_mem hx))
        rw [e]; exact e' _ (hd t)) (List.Pairwise.sublist (List.takeWhile_sublist _) hw.1) (by simp)
    simpa using this
  | .vec t, _, d, _ => ⟨_, rfl, fun _ _ => rfl⟩
  | .stdMap t, hp, d, hw => by
    have ih := ser_back hd t hp
    obtain ⟨m', h1, h2, h3⟩ := serEntries_cut (fun x => serialize init t x (createValueFor init t)) t.fails
      (fun d => resVal (serialize init t d (createValueFor init t))) [] d .nil
      treeOk_nil [] (by simp [toList]) (by
        intro e he
        obtain ⟨v, e', -⟩ := ih e.2 (hw.2 e he)
        simp only [e', resVal]) hw.1 (by simp)
    refine ⟨_, h1, fun old ho => ?_⟩
    have ho : old = [] := ho
    subst ho
    change toList m' = (cutKeys (d.takeWhile fun e => !t.fails e.2)).map _ at h3
    simp only [deserialize, h3, Ty.back]
    have hsort : Sorted nameLt (cutKeys (d.takeWhile fun e => !t.fails e.2)) := by
      obtain ⟨A, hA⟩ := h2
      have := hA.sorted
      rw [h3] at this
      exact (List.pairwise_map.1 this).imp fun h => h
    have := desStdMap_prefix (deserialize dflt t) (dflt t)
      (fun x => resVal (serialize init t x (createValueFor init t))) t.back (cutKeys (d.takeWhile fun e => !t.fails e.2)) []
      (by
        intro x hx
        obtain ⟨y, hy, e1, e2⟩ := cutKeys_mem hx
        obtain ⟨v, e, e'⟩ := ih x.2 (e2 ▸ hw.2 y (takeWhile_mem hy))
        rw [e]; exact ⟨e' _ (hd t), e1 ▸ cText_clean y.1⟩)
      hsort (by simp)
    simpa using this
  | .struct _ fs, hp, d, hw => by
    obtain ⟨m', o', h1, -, -, h4⟩ := serProto_back hd fs hp.1 hp.2 d hw .nil [] treeOk_nil (by
      intro n _; rfl)
    exact ⟨_, h1, fun old ho => h4 _ _ (fun _ _ => rfl) old ho⟩
theorem serProto_back (hd : ∀ t, Ty.Fresh t (dflt t)) : ∀ (fs : Fields), fs.Listed → fs.names.Nodup → ∀ (d : fs.Den D),
    fs.Ordered d → ∀ (m : Tree Bytes (Value D)) (o : List Bytes), TreeOk m →
    (∀ n ∈ fs.names, findMapElement nameLt n m = none) →
    ∃ m' o', serProto init fs d (.obj m o) = .ok (.kOk, .obj m' o') ∧ TreeOk m' ∧
      (∀ k, k ∉ fs.names → findMapElement nameLt k m' = findMapElement nameLt k m) ∧
      ∀ m'' o'', (∀ n ∈ fs.names, findMapElement nameLt n m'' = findMapElement nameLt n m') →
        ∀ old, fs.Fresh old → Gives (fs.back d) (desProto dflt fs (.obj m'' o'') old)
  | .nil, _, _, d, _, m, o, hm, _ => ⟨m, o, rfl, hm, fun _ _ => rfl, fun _ _ _ _ _ => rfl⟩
  | .named opt name t rest, hp, hnd, d, hw, m, o, hm, hn => by
    obtain ⟨v, e1, e2⟩ := ser_back hd t hp.1 d.1 hw.1
    simp only [Fields.names, List.nodup_cons] at hnd
    obtain ⟨m1, i1, i2, i3, i4⟩ := find_insert hm name v (hn name (by simp [Fields.names]))
    obtain ⟨m', o', h1, h2, h3, h4⟩ := serProto_back hd rest hp.2 hnd.2 d.2 hw.2 m1 (o ++ [name]) i2 (by
      intro n hx
      rw [i4 n (by rintro rfl; exact hnd.1 hx)]
      exact hn n (by simp [Fields.names, hx]))
    refine ⟨m', o', ?_, h2, ?_, ?_⟩
    · simp only [serProto, serNamed, e1, Out.ok_bind, insertAccounted, i1, ne_eq, not_true, if_false]
      exact h1
    · intro k hk
      simp only [Fields.names, List.mem_cons, not_or] at hk
      rw [h3 k hk.2, i4 k hk.1]
    · intro m'' o'' hf old ho
      have hf1 : findMapElement nameLt name m'' = some (name, v) := by
        rw [hf name (by simp [Fields.names]), h3 name hnd.1, i3]
      have e3 := e2 old.1 ho.1
      have h5 := h4 m'' o'' (fun n hx => hf n (by simp [Fields.names, hx])) old.2 ho.2
      simp only [desProto, desNamed, hf1, Fields.back]
      cases hb : t.back d.1 with
      | none => rw [hb] at e3; simp only [Gives] at e3; simp [Gives, e3]
      | some x =>
        rw [hb] at e3
        simp only [Gives] at e3
        cases hr : rest.back d.2 with
        | none => rw [hr] at h5; simp only [Gives] at h5; simp [Gives, e3, h5]
        | some y => rw [hr] at h5; simp only [Gives] at h5; simp [Gives, e3, h5]
  | .here (.struct id fs) rest, hp, hnd, d, hw, m, o, hm, hn => by
    simp only [Fields.names, Ty.names, List.nodup_append] at hnd
    obtain ⟨m1, o1, a1, a2, a3, a4⟩ := serProto_back hd fs hp.1 hnd.1 d.1 hw.1 m o hm (fun n hx =>
      hn n (by simp [Fields.names, Ty.names, hx]))
    have hdis : ∀ n ∈ rest.names, n ∉ fs.names := fun n h1 h2 => hnd.2.2 n h2 n h1 rfl
    obtain ⟨m', o', b1, b2, b3, b4⟩ := serProto_back hd rest hp.2 hnd.2.1 d.2 hw.2 m1 o1 a2 (by
      intro n hx
      rw [a3 n (hdis n hx)]
      exact hn n (by simp [Fields.names, Ty.names, hx]))
    refine ⟨m', o', ?_, b2, ?_, ?_⟩
    · simp only [serProto, serialize, a1, Out.ok_bind, ne_eq, not_true, if_false]
      exact b1
    · intro k hk
      simp only [Fields.names, Ty.names, List.mem_append, not_or] at hk
      rw [b3 k hk.2, a3 k hk.1]
    · intro m'' o'' hf old ho
      have e3 := a4 m'' o'' (by
        intro n hx
        rw [hf n (by simp [Fields.names, Ty.names, hx]), b3 n (fun h => hdis n h hx)]) old.1 ho.1
      have h5 := b4 m'' o'' (fun n hx => hf n (by simp [Fields.names, Ty.names, hx])) old.2 ho.2
      simp only [desProto, deserialize, Fields.back, Ty.back]
      cases hb : fs.back d.1 with
      | none => rw [hb] at e3; simp only [Gives] at e3; simp [Gives, e3]
      | some x =>
        rw [hb] at e3
        simp only [Gives] at e3
        cases hr : rest.back d.2 with
        | none => rw [hr] at h5; simp only [Gives] at h5; simp [Gives, e3, h5]
        | some y => rw [hr] at h5; simp only [Gives] at h5; simp [Gives, e3, h5]
  | .here .str _, hp, _, _, _, _, _, _, _ => hp.elim
  | .here .num _, hp, _, _, _, _, _, _, _ => hp.elim
  | .here .bool _, hp, _, _, _, _, _, _, _ => hp.elim
  | .here .null _, hp, _, _, _, _, _, _, _ => hp.elim
  | .here .stdString _, hp, _, _, _, _, _, _, _ => hp.elim
  | .here (.arr _) _, hp, _, _, _, _, _, _, _ => hp.elim
  | .here (.map _) _, hp, _, _, _, _, _, _, _ => hp.elim
  | .here (.vec _) _, hp, _, _, _, _, _, _, _ => hp.elim
  | .here (.stdMap _) _, hp, _, _, _, _, _, _, _ => hp.elim
end

/-! ## What comes back and vectors -/

theorem backs_length {α β : Type} (g : α → Option β) (l : List α) {l' : List β} (h : backs g l = some l') :
    l'.length = l.length := by
  induction l generalizing l' with
  | nil => simp only [backs, Option.some.injEq] at h; simp [← h]
  | cons x l ih =>
    simp only [backs] at h
    cases hx : g x with
    | none => simp [hx] at h
    | some y =>
      cases hl : backs g l with
      | none => simp [hx, hl] at h
      | some l2 =>
        simp only [hx, hl, Option.bind_some, Option.map_some, Option.some.injEq] at h
        simp [← h, ih hl]

theorem backs_self {α : Type} (g : α → Option α) (l : List α) : backs g l = some l ↔ ∀ x ∈ l, g x = some x := by
  induction l with
  | nil => simp [backs]
  | cons x l ih =>
    simp only [backs, List.mem_cons, forall_eq_or_imp, ← ih]
    cases hx : g x with
    | none => simp
    | some y =>
      cases hl : backs g l with
      | none => simp
      | some l2 => simp

theorem takeWhile_length {α : Type} {p : α → Bool} {l : List α} (h : (l.takeWhile p).length = l.length) :
    l.takeWhile p = l := (List.takeWhile_sublist p).eq_of_length h

theorem takeWhile_all {α : Type} {p : α → Bool} {l : List α} : (∀ x ∈ l.takeWhile p, p x = true) ∧
    ((∀ x ∈ l, p x = true) → l.takeWhile p = l) := by
  induction l with
  | nil => simp
  | cons y l ih =>
    by_cases hy : p y = true
    · simp only [List.takeWhile_cons, hy, if_true, List.mem_cons, forall_eq_or_imp, true_and]
      exact ⟨ih.1, fun h => by rw [ih.2 h]⟩
    · simp [hy]

/-- A list comes back unchanged exactly if no element fails and all come back. -/
theorem backs_takeWhile {α : Type} (g : α → Option α) (bad : α → Bool) (l : List α) :
    backs g (l.takeWhile fun x => !bad x) = some l ↔ ∀ x ∈ l, bad x = false ∧ g x = some x := by
  constructor
  · intro h
    have h1 := takeWhile_length (backs_length g _ h).symm
    have h2 : ∀ x ∈ l, bad x = false := by
      intro x hx
      rw [← h1] at hx
      have := takeWhile_all.1 x hx
      simpa using this
    rw [h1, backs_self] at h
    exact fun x hx => ⟨h2 x hx, h x hx⟩
  · intro h
    have h1 : (l.takeWhile fun x => !bad x) = l := by
      refine takeWhile_all.2 ?_
      intro x hx
      simp [(h x hx).1]
    rw [h1, backs_self]
    exact fun x hx => (h x hx).2

mutual
theorem no_vector_fails : ∀ (t : Ty) (d : t.Den D), ¬ t.HasVector d → t.fails d = false
  | .vec _, _, h => absurd trivial h
  | .arr t, l, h => by
    simp only [Ty.HasVector, not_exists, not_and] at h
    simp only [Ty.fails, List.any_eq_false]
    intro x hx
    simp [no_vector_fails t x (h x hx)]
  | .map t, l, h => by
    simp only [Ty.HasVector, not_exists, not_and] at h
    simp only [Ty.fails, List.any_eq_false]
    intro x hx
    simp [no_vector_fails t x.2 (h x hx)]
  | .stdMap t, l, h => by
    simp only [Ty.HasVector, not_exists, not_and] at h
    simp only [Ty.fails, List.any_eq_false]
    intro x hx
    simp [no_vector_fails t x.2 (h x hx)]
  | .struct _ _, _, _ => rfl
  | .str, _, _ => rfl
  | .num, _, _ => rfl
  | .bool, _, _ => rfl
  | .null, _, _ => rfl
  | .stdString, _, _ => rfl
end

theorem sorted_nodup {α : Type} {l : List (Bytes × α)} (h : Sorted nameLt l) : (l.map fun x => x.1).Nodup := by
  rw [List.Nodup, List.pairwise_map]
  exact h.imp fun {a b} hab e => by
    rw [e, nameLt_strict.irrefl] at hab
    simp at hab

/-- Entries come back unchanged exactly if none fails, all come back, and no key has a NUL. -/
theorem backs_cut {α : Type} (g : α → Option α) (bad : α → Bool) (l : List (Bytes × α)) (hs : Sorted nameLt l) :
    backs (fun e => (g e.2).map (e.1, ·)) (cutKeys (l.takeWhile fun e => !bad e.2)) = some l ↔
      ∀ e ∈ l, bad e.2 = false ∧ g e.2 = some e.2 ∧ (0 : Byte) ∉ e.1 := by
  constructor
  · intro h
    have h1 := backs_length _ _ h
    have h2 := cutKeys_length (l.takeWhile fun e => !bad e.2)
    have h3 := (List.takeWhile_sublist (p := fun e : Bytes × α => !bad e.2) (l := l)).length_le
    have h4 : (l.takeWhile fun e => !bad e.2) = l := takeWhile_length (by omega)
    have h5 : ∀ x ∈ l, bad x.2 = false := by
      intro x hx
      rw [← h4] at hx
      have := takeWhile_all.1 x hx
      simpa using this
    rw [h4] at h h2 h1
    have h6 := h2.2 h1.symm
    rw [h6] at h
    -- compare element by element
    have h7 : ∀ (a b : List (Bytes × α)), backs (fun e => (g e.2).map (e.1, ·)) (a.map fun e => (cText e.1, e.2)) = some b → a = b →
        ∀ e ∈ a, g e.2 = some e.2 ∧ (0 : Byte) ∉ e.1 := by
      intro a
      induction a with
      | nil => simp
      | cons x a iha =>
        intro b hb hab e he
        simp only [List.map_cons, backs] at hb
        cases hx : g x.2 with
        | none => simp [hx] at hb
        | some y =>
          cases hr : backs (fun e => (g e.2).map (e.1, ·)) (a.map fun e => (cText e.1, e.2)) with
          | none => simp [hx, hr] at hb
          | some c =>
            simp only [hx, hr, Option.map_some, Option.bind_some, Option.some.injEq] at hb
            rw [← hab] at hb
            simp only [List.cons.injEq] at hb
            obtain ⟨hb1, hb2⟩ := hb
            rw [List.mem_cons] at he
            rcases he with rfl | he
            · rw [← hb1]
              refine ⟨?_, cText_clean _⟩
              rw [← hb1] at hx
              exact hx
            · exact iha c hr hb2.symm e he
    exact fun e he => ⟨h5 e he, h7 l l h rfl e he⟩
  · intro h
    have h1 : (l.takeWhile fun e => !bad e.2) = l := by
      refine takeWhile_all.2 ?_
      intro x hx
      simp [(h x hx).1]
    have h2 : (l.map fun e => (cText e.1, e.2)) = l := by
      have : (l.map fun e => (cText e.1, e.2)) = l.map id := by
        refine List.map_congr_left fun e he => ?_
        rw [cText_nul_free (h e he).2.2]; rfl
      rw [this, List.map_id]
    have h3 : cutKeys l = l := by
      unfold cutKeys
      rw [h2, foldl_addNew_distinct _ _ (by simpa using sorted_nodup hs)]
      rfl
    rw [h1, h3, backs_self]
    intro e he
    rw [(h e he).2.1]; rfl

theorem cText_self {s : Bytes} : cText s = s ↔ (0 : Byte) ∉ s :=
  ⟨fun h => h ▸ cText_clean s, cText_nul_free⟩

mutual
theorem back_self : ∀ (t : Ty) (d : t.Den D), t.Ordered d → (t.back d = some d ↔ ¬ t.HasVector d ∧ ¬ t.HasNul d)
  | .vec _, _, _ => by simp [Ty.back, Ty.HasVector]
  | .arr t, l, ho => by
    simp only [Ty.back, Ty.HasVector, Ty.HasNul, not_exists, not_and]
    rw [backs_takeWhile]
    constructor
    · intro h
      exact ⟨fun x hx => ((back_self t x (ho x hx)).1 (h x hx).2).1, fun x hx => ((back_self t x (ho x hx)).1 (h x hx).2).2⟩
    · intro h x hx
      exact ⟨no_vector_fails t x (h.1 x hx), (back_self t x (ho x hx)).2 ⟨h.1 x hx, h.2 x hx⟩⟩
  | .map t, l, ho => by
    simp only [Ty.back, Ty.HasVector, Ty.HasNul, not_exists, not_and]
    rw [backs_takeWhile (fun e : Bytes × t.Den D => (t.back e.2).map (e.1, ·)) (fun e => t.fails e.2)]
    constructor
    · intro h
      have key : ∀ x ∈ l, ¬ t.HasVector x.2 ∧ ¬ t.HasNul x.2 := by
        intro x hx
        refine (back_self t x.2 (ho.2 x hx)).1 ?_
        have := (h x hx).2
        cases hb : t.back x.2 with
        | none => simp [hb] at this
        | some y => simp only [hb, Option.map_some, Option.some.injEq] at this; rw [← this]
      exact ⟨fun x hx => (key x hx).1, fun x hx => (key x hx).2⟩
    · intro h x hx
      refine ⟨no_vector_fails t x.2 (h.1 x hx), ?_⟩
      simp only [(back_self t x.2 (ho.2 x hx)).2 ⟨h.1 x hx, h.2 x hx⟩, Option.map_some]
  | .stdMap t, l, ho => by
    simp only [Ty.back, Ty.HasVector, Ty.HasNul, not_exists, not_and, not_or]
    rw [backs_cut t.back t.fails l ho.1]
    constructor
    · intro h
      have key : ∀ x ∈ l, ¬ t.HasVector x.2 ∧ ¬ t.HasNul x.2 := fun x hx => (back_self t x.2 (ho.2 x hx)).1 (h x hx).2.1
      exact ⟨fun x hx => (key x hx).1, fun x hx => ⟨(h x hx).2.2, (key x hx).2⟩⟩
    · intro h x hx
      exact ⟨no_vector_fails t x.2 (h.1 x hx), (back_self t x.2 (ho.2 x hx)).2 ⟨h.1 x hx, (h.2 x hx).2⟩, (h.2 x hx).1⟩
  | .struct _ fs, d, ho => by
    simp only [Ty.back, Ty.HasVector, Ty.HasNul]
    exact backF_self fs d ho
  | .str, _, _ => by simp [Ty.back, Ty.HasVector, Ty.HasNul]
  | .num, _, _ => by simp [Ty.back, Ty.HasVector, Ty.HasNul]
  | .bool, _, _ => by simp [Ty.back, Ty.HasVector, Ty.HasNul]
  | .null, _, _ => by simp [Ty.back, Ty.HasVector, Ty.HasNul]
  | .stdString, s, _ => by
    simp only [Ty.back, Ty.HasVector, Ty.HasNul, Option.some.injEq, not_false_eq_true, true_and]
    exact cText_self
theorem backF_self : ∀ (fs : Fields) (d : fs.Den D), fs.Ordered d → (fs.back d = some d ↔ ¬ fs.HasVector d ∧ ¬ fs.HasNul d)
  | .nil, _, _ => by simp [Fields.back, Fields.HasVector, Fields.HasNul]
  | .here t rest, d, ho => by
    have h1 := back_self t d.1 ho.1
    have h2 := backF_self rest d.2 ho.2
    simp only [Fields.back, Fields.HasVector, Fields.HasNul, not_or]
    rw [show (((¬ t.HasVector d.1 ∧ ¬ rest.HasVector d.2) ∧ ¬ t.HasNul d.1 ∧ ¬ rest.HasNul d.2)) =
      ((¬ t.HasVector d.1 ∧ ¬ t.HasNul d.1) ∧ (¬ rest.HasVector d.2 ∧ ¬ rest.HasNul d.2)) by ac_rfl, ← h1, ← h2]
    obtain ⟨a, b⟩ := d
    cases t.back a <;> cases rest.back b <;> simp
  | .named _ _ t rest, d, ho => by
    have h1 := back_self t d.1 ho.1
    have h2 := backF_self rest d.2 ho.2
    simp only [Fields.back, Fields.HasVector, Fields.HasNul, not_or]
    rw [show (((¬ t.HasVector d.1 ∧ ¬ rest.HasVector d.2) ∧ ¬ t.HasNul d.1 ∧ ¬ rest.HasNul d.2)) =
      ((¬ t.HasVector d.1 ∧ ¬ t.HasNul d.1) ∧ (¬ rest.HasVector d.2 ∧ ¬ rest.HasNul d.2)) by ac_rfl, ← h1, ← h2]
    obtain ⟨a, b⟩ := d
    cases t.back a <;> cases rest.back b <;> simp
end

theorem backs_mem {α β : Type} (g : α → Option β) (l : List α) {l' : List β} (h : backs g l = some l') :
    ∀ y ∈ l', ∃ x ∈ l, g x = some y := by
  induction l generalizing l' with
  | nil => simp only [backs, Option.some.injEq] at h; simp [← h]
  | cons x l ih =>
    simp only [backs] at h
    cases hx : g x with
    | none => simp [hx] at h
    | some z =>
      cases hl : backs g l with
      | none => simp [hx, hl] at h
      | some l2 =>
        simp only [hx, hl, Option.bind_some, Option.map_some, Option.some.injEq] at h
        intro y hy
        rw [← h, List.mem_cons] at hy
        rcases hy with rfl | hy
        · exact ⟨x, by simp, hx⟩
        · obtain ⟨w, hw, e⟩ := ih hl y hy
          exact ⟨w, by simp [hw], e⟩

mutual
/-- What comes back has no vectors and no NULs. -/
theorem back_clean : ∀ (t : Ty) (d d' : t.Den D), t.back d = some d' → ¬ t.HasVector d' ∧ ¬ t.HasNul d'
  | .vec _, _, _, h => by simp [Ty.back] at h
  | .arr t, l, l', h => by
    simp only [Ty.back] at h
    have key : ∀ y ∈ l', ¬ t.HasVector y ∧ ¬ t.HasNul y := by
      intro y hy
      obtain ⟨x, -, e⟩ := backs_mem _ _ h y hy
      exact back_clean t x y e
    simp only [Ty.HasVector, Ty.HasNul, not_exists, not_and]
    exact ⟨fun y hy => (key y hy).1, fun y hy => (key y hy).2⟩
  | .map t, l, l', h => by
    simp only [Ty.back] at h
    have key : ∀ y ∈ l', ¬ t.HasVector y.2 ∧ ¬ t.HasNul y.2 := by
      intro y hy
      obtain ⟨x, -, e⟩ := backs_mem _ _ h y hy
      cases hb : t.back x.2 with
      | none => simp [hb] at e
      | some z =>
        simp only [hb, Option.map_some, Option.some.injEq] at e
        rw [← e]
        exact back_clean t x.2 z hb
    simp only [Ty.HasVector, Ty.HasNul, not_exists, not_and]
    exact ⟨fun y hy => (key y hy).1, fun y hy => (key y hy).2⟩
  | .stdMap t, l, l', h => by
    simp only [Ty.back] at h
    have key : ∀ y ∈ l', (¬ t.HasVector y.2 ∧ ¬ t.HasNul y.2) ∧ (0 : Byte) ∉ y.1 := by
      intro y hy
      obtain ⟨x, hx, e⟩ := backs_mem _ _ h y hy
      obtain ⟨w, -, e1, -⟩ := cutKeys_mem hx
      cases hb : t.back x.2 with
      | none => simp [hb] at e
      | some z =>
        simp only [hb, Option.map_some, Option.some.injEq] at e
        rw [← e]
        exact ⟨back_clean t x.2 z hb, e1 ▸ cText_clean w.1⟩
    simp only [Ty.HasVector, Ty.HasNul, not_exists, not_and, not_or]
    exact ⟨fun y hy => (key y hy).1.1, fun y hy => ⟨(key y hy).2, (key y hy).1.2⟩⟩
  | .struct _ fs, d, d', h => by
    simp only [Ty.back] at h
    simp only [Ty.HasVector, Ty.HasNul]
    exact backF_clean fs d d' h
  | .str, _, _, _ => by simp [Ty.HasVector, Ty.HasNul]
  | .num, _, _, _ => by simp [Ty.HasVector, Ty.HasNul]
  | .bool, _, _, _ => by simp [Ty.HasVector, Ty.HasNul]
  | .null, _, _, _ => by simp [Ty.HasVector, Ty.HasNul]
  | .stdString, s, s', h => by
    simp only [Ty.back, Option.some.injEq] at h
    simp only [Ty.HasVector, Ty.HasNul, not_false_eq_true, true_and]
    rw [← h]
    exact cText_clean s
theorem backF_clean : ∀ (fs : Fields) (d d' : fs.Den D), fs.back d = some d' → ¬ fs.HasVector d' ∧ ¬ fs.HasNul d'
  | .nil, _, _, _ => by simp [Fields.HasVector, Fields.HasNul]
  | .here t rest, d, d', h => by
    simp only [Fields.back] at h
    cases hb : t.back d.1 with
    | none => simp [hb] at h
    | some x =>
      cases hr : rest.back d.2 with
      | none => simp [hb, hr] at h
      | some y =>
        simp only [hb, hr, Option.bind_some, Option.map_some, Option.some.injEq] at h
        rw [← h]
        have h1 := back_clean t d.1 x hb
        have h2 := backF_clean rest d.2 y hr
        simp only [Fields.HasVector, Fields.HasNul, not_or]
        exact ⟨⟨h1.1, h2.1⟩, h1.2, h2.2⟩
  | .named _ _ t rest, d, d', h => by
    simp only [Fields.back] at h
    cases hb : t.back d.1 with
    | none => simp [hb] at h
    | some x =>
      cases hr : rest.back d.2 with
      | none => simp [hb, hr] at h
      | some y =>
        simp only [hb, hr, Option.bind_some, Option.map_some, Option.some.injEq] at h
        rw [← h]
        have h1 := back_clean t d.1 x hb
        have h2 := backF_clean rest d.2 y hr
        simp only [Fields.HasVector, Fields.HasNul, not_or]
        exact ⟨⟨h1.1, h2.1⟩, h1.2, h2.2⟩
end

theorem foldl_addNew_sorted {α : Type} (l acc : List (Bytes × α)) (h1 : Sorted nameLt acc)
    (h2 : ∀ a ∈ acc, ∀ e ∈ l, a.1 = e.1 ∨ nameLt a.1 e.1 = true)
    (h3 : l.Pairwise fun a b => a.1 = b.1 ∨ nameLt a.1 b.1 = true) : Sorted nameLt (l.foldl addNew acc) := by
  induction l generalizing acc with
  | nil => exact h1
  | cons x l ih =>
    have h3' := List.pairwise_cons.1 h3
    rw [List.foldl_cons]
    by_cases hx : x.1 ∈ acc.map fun x => x.1
    · have e : addNew acc x = acc := by simp only [addNew]; rw [if_pos hx]
      rw [e]
      exact ih acc h1 (fun a ha e he => h2 a ha e (by simp [he])) h3'.2
    · have e : addNew acc x = acc ++ [x] := by simp only [addNew]; rw [if_neg hx]
      rw [e]
      refine ih _ ?_ ?_ h3'.2
      · refine List.pairwise_append.2 ⟨h1, by simp, ?_⟩
        intro a ha b hb
        rw [List.mem_singleton] at hb
        subst hb
        rcases h2 a ha b (by simp) with h | h
        · exact absurd (List.mem_map.2 ⟨a, ha, h⟩) hx
        · exact h
      · intro a ha y hy
        rw [List.mem_append, List.mem_singleton] at ha
        rcases ha with ha | rfl
        · exact h2 a ha y (by simp [hy])
        · exact h3'.1 y hy

theorem cutKeys_sorted {α : Type} {l : List (Bytes × α)} (h : Sorted nameLt l) : Sorted nameLt (cutKeys l) :=
  foldl_addNew_sorted _ _ (by simp [Sorted]) (by simp)
    (List.pairwise_map.2 (h.imp fun hab => cText_mono hab))

theorem backs_sorted {α : Type} (g : α → Option α) (l l' : List (Bytes × α)) (hs : Sorted nameLt l)
    (h : backs (fun e => (g e.2).map (e.1, ·)) l = some l') : Sorted nameLt l' := by
  have key : l'.map (fun e => e.1) = l.map fun e => e.1 := by
    clear hs
    induction l generalizing l' with
    | nil => simp only [backs, Option.some.injEq] at h; simp [← h]
    | cons x l ih =>
      simp only [backs] at h
      cases hx : g x.2 with
      | none => simp [hx] at h
      | some z =>
        cases hl : backs (fun e : Bytes × α => (g e.2).map (e.1, ·)) l with
        | none => simp [hx, hl] at h
        | some l2 =>
          simp only [hx, hl, Option.map_some, Option.bind_some, Option.some.injEq] at h
          rw [← h]
          simp [ih l2 hl]
  have h1 : (l.map fun e => e.1).Pairwise fun a b => nameLt a b = true := List.pairwise_map.2 hs
  rw [← key] at h1
  exact List.pairwise_map.1 h1

mutual
/-- What comes back is ordered. -/
theorem back_ordered : ∀ (t : Ty) (d d' : t.Den D), t.Ordered d → t.back d = some d' → t.Ordered d'
  | .vec _, _, _, _, h => by simp [Ty.back] at h
  | .arr t, l, l', ho, h => by
    simp only [Ty.back] at h
    intro y hy
    obtain ⟨x, hx, e⟩ := backs_mem _ _ h y hy
    exact back_ordered t x y (ho x (takeWhile_mem hx)) e
  | .map t, l, l', ho, h => by
    simp only [Ty.back] at h
    refine ⟨backs_sorted t.back _ _ (List.Pairwise.sublist (List.takeWhile_sublist _) ho.1) h, ?_⟩
    intro y hy
    obtain ⟨x, hx, e⟩ := backs_mem _ _ h y hy
    cases hb : t.back x.2 with
    | none => simp [hb] at e
    | some z =>
      simp only [hb, Option.map_some, Option.some.injEq] at e
      rw [← e]
      exact back_ordered t x.2 z (ho.2 x (takeWhile_mem hx)) hb
  | .stdMap t, l, l', ho, h => by
    simp only [Ty.back] at h
    refine ⟨backs_sorted t.back _ _ (cutKeys_sorted (List.Pairwise.sublist (List.takeWhile_sublist _) ho.1)) h, ?_⟩
    intro y hy
    obtain ⟨x, hx, e⟩ := backs_mem _ _ h y hy
    obtain ⟨w, hw, -, e2⟩ := cutKeys_mem hx
    cases hb : t.back x.2 with
    | none => simp [hb] at e
    | some z =>
      simp only [hb, Option.map_some, Option.some.injEq] at e
      rw [← e]
      exact back_ordered t x.2 z (e2 ▸ ho.2 w (takeWhile_mem hw)) hb
  | .struct _ fs, d, d', ho, h => by
    simp only [Ty.back] at h
    exact backF_ordered fs d d' ho h
  | .str, _, _, _, _ => trivial
  | .num, _, _, _, _ => trivial
  | .bool, _, _, _, _ => trivial
  | .null, _, _, _, _ => trivial
  | .stdString, _, _, _, _ => trivial
theorem backF_ordered : ∀ (fs : Fields) (d d' : fs.Den D), fs.Ordered d → fs.back d = some d' → fs.Ordered d'
  | .nil, _, _, _, _ => trivial
  | .here t rest, d, d', ho, h => by
    simp only [Fields.back] at h
    cases hb : t.back d.1 with
    | none => simp [hb] at h
    | some x =>
      cases hr : rest.back d.2 with
      | none => simp [hb, hr] at h
      | some y =>
        simp only [hb, hr, Option.bind_some, Option.map_some, Option.some.injEq] at h
        rw [← h]
        exact ⟨back_ordered t d.1 x ho.1 hb, backF_ordered rest d.2 y ho.2 hr⟩
  | .named _ _ t rest, d, d', ho, h => by
    simp only [Fields.back] at h
    cases hb : t.back d.1 with
    | none => simp [hb] at h
    | some x =>
      cases hr : rest.back d.2 with
      | none => simp [hb, hr] at h
      | some y =>
        simp only [hb, hr, Option.bind_some, Option.map_some, Option.some.injEq] at h
        rw [← h]
        exact ⟨back_ordered t d.1 x ho.1 hb, backF_ordered rest d.2 y ho.2 hr⟩
end

mutual
theorem wf_ordered : ∀ (t : Ty) (d : t.Den D), t.Wf d → t.Ordered d ∧ ¬ t.HasNul d
  | .vec t, l, h => ⟨fun x hx => (wf_ordered t x (h x hx)).1, fun h => h⟩
  | .arr t, l, h => by
    refine ⟨fun x hx => (wf_ordered t x (h x hx)).1, ?_⟩
    simp only [Ty.HasNul, not_exists, not_and]
    exact fun x hx => (wf_ordered t x (h x hx)).2
  | .map t, l, h => by
    refine ⟨⟨h.1, fun x hx => (wf_ordered t x.2 (h.2 x hx)).1⟩, ?_⟩
    simp only [Ty.HasNul, not_exists, not_and]
    exact fun x hx => (wf_ordered t x.2 (h.2 x hx)).2
  | .stdMap t, l, h => by
    refine ⟨⟨h.1, fun x hx => (wf_ordered t x.2 (h.2 x hx).2).1⟩, ?_⟩
    simp only [Ty.HasNul, not_exists, not_and, not_or]
    exact fun x hx => ⟨(h.2 x hx).1, (wf_ordered t x.2 (h.2 x hx).2).2⟩
  | .struct _ fs, d, h => wfF_ordered fs d h
  | .str, _, _ => ⟨trivial, fun h => h⟩
  | .num, _, _ => ⟨trivial, fun h => h⟩
  | .bool, _, _ => ⟨trivial, fun h => h⟩
  | .null, _, _ => ⟨trivial, fun h => h⟩
  | .stdString, _, h => ⟨trivial, h⟩
theorem wfF_ordered : ∀ (fs : Fields) (d : fs.Den D), fs.Wf d → fs.Ordered d ∧ ¬ fs.HasNul d
  | .nil, _, _ => ⟨trivial, fun h => h⟩
  | .here t rest, d, h => by
    have h1 := wf_ordered t d.1 h.1
    have h2 := wfF_ordered rest d.2 h.2
    refine ⟨⟨h1.1, h2.1⟩, ?_⟩
    simp only [Fields.HasNul, not_or]
    exact ⟨h1.2, h2.2⟩
  | .named _ _ t rest, d, h => by
    have h1 := wf_ordered t d.1 h.1
    have h2 := wfF_ordered rest d.2 h.2
    refine ⟨⟨h1.1, h2.1⟩, ?_⟩
    simp only [Fields.HasNul, not_or]
    exact ⟨h1.2, h2.2⟩
end

mutual
/-- The types of C27 are listed and have no vectors. -/
theorem plain_listed : ∀ (t : Ty), t.Plain → t.Listed ∧ ∀ d : t.Den D, ¬ t.HasVector d
  | .vec _, h => h.elim
  | .arr t, h => ⟨(plain_listed t h).1, fun l => by
      simp only [Ty.HasVector, not_exists, not_and]
      exact fun x _ => (plain_listed t h).2 x⟩
  | .map t, h => ⟨(plain_listed t h).1, fun l => by
      simp only [Ty.HasVector, not_exists, not_and]
      exact fun x _ => (plain_listed t h).2 x.2⟩
  | .stdMap t, h => ⟨(plain_listed t h).1, fun l => by
      simp only [Ty.HasVector, not_exists, not_and]
      exact fun x _ => (plain_listed t h).2 x.2⟩
  | .struct _ fs, h => ⟨⟨(plainF_listed fs h.1).1, h.2⟩, fun d => (plainF_listed fs h.1).2 d⟩
  | .str, _ => ⟨trivial, fun _ h => h⟩
  | .num, _ => ⟨trivial, fun _ h => h⟩
  | .bool, _ => ⟨trivial, fun _ h => h⟩
  | .null, _ => ⟨trivial, fun _ h => h⟩
  | .stdString, _ => ⟨trivial, fun _ h => h⟩
theorem plainF_listed : ∀ (fs : Fields), fs.Plain → fs.Listed ∧ ∀ d : fs.Den D, ¬ fs.HasVector d
  | .nil, _ => ⟨trivial, fun _ h => h⟩
  | .named _ _ t rest, h => by
    refine ⟨⟨(plain_listed t h.1).1, (plainF_listed rest h.2).1⟩, fun d => ?_⟩
    simp only [Fields.HasVector, not_or]
    exact ⟨(plain_listed t h.1).2 d.1, (plainF_listed rest h.2).2 d.2⟩
  | .here (.struct _ fs) rest, h => by
    refine ⟨⟨(plainF_listed fs h.1).1, (plainF_listed rest h.2).1⟩, fun d => ?_⟩
    simp only [Fields.HasVector, not_or]
    exact ⟨(plainF_listed fs h.1).2 d.1, (plainF_listed rest h.2).2 d.2⟩
  | .here .str _, h => h.elim
  | .here .num _, h => h.elim
  | .here .bool _, h => h.elim
  | .here .null _, h => h.elim
  | .here .stdString _, h => h.elim
  | .here (.arr _) _, h => h.elim
  | .here (.map _) _, h => h.elim
  | .here (.vec _) _, h => h.elim
  | .here (.stdMap _) _, h => h.elim
end

end Verif.Serial
