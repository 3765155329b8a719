import Verif.Lemmas.Map
import Verif.Spec.FinMap

/-!
# Lemmas about search, insertion and removal in ordered trees
-/

namespace Verif.Map

open Verif.Spec

variable {κ α : Type}

/-- The elements are listed in strictly increasing order of keys. -/
def Sorted (lt : κ → κ → Bool) (l : List (κ × α)) : Prop :=
  l.Pairwise fun a b => lt a.1 b.1 = true

variable {lt : κ → κ → Bool}

theorem StrictTotal.asymm (O : StrictTotal lt) {a b : κ} (h : lt a b = true) : lt b a = false := by
  cases h' : lt b a
  · rfl
  · have := O.trans _ _ _ h h'; simp [O.irrefl] at this

theorem sorted_node {b : Int} {l r : Tree κ α} {k : κ} {v : α}
    (h : Sorted lt (toList (.node b l k v r))) :
    Sorted lt (toList l) ∧ Sorted lt (toList r) ∧ (∀ x ∈ toList l, lt x.1 k = true) ∧
      (∀ x ∈ toList r, lt k x.1 = true) ∧ (∀ x ∈ toList l, ∀ y ∈ toList r, lt x.1 y.1 = true) := by
  simp only [toList, Sorted, List.pairwise_append, List.pairwise_cons] at h ⊢
  exact ⟨h.1, h.2.1.2, fun x hx => h.2.2 x hx (k, v) (by simp), h.2.1.1,
    fun x hx y hy => h.2.2 x hx y (by simp [hy])⟩

theorem find_spec (O : StrictTotal lt) (k : κ) (t : Tree κ α) (hs : Sorted lt (toList t)) (x : κ × α) :
    findMapElement lt k t = some x ↔ x.1 = k ∧ x ∈ toList t := by
  induction t with
  | nil => simp [findMapElement, toList]
  | node b l nk nv r ihl ihr =>
    obtain ⟨hl, hr, h1, h2, h3⟩ := sorted_node hs
    have ihl := ihl hl
    have ihr := ihr hr
    simp only [findMapElement, toList, List.mem_append, List.mem_cons]
    by_cases c1 : lt k nk = true
    · rw [if_pos c1, ihl]
      constructor
      · rintro ⟨e, m⟩; exact ⟨e, Or.inl m⟩
      · rintro ⟨e, m | m | m⟩
        · exact ⟨e, m⟩
        · subst m; simp only at e; subst e; simp [O.irrefl] at c1
        · have a1 := h2 x m
          rw [e] at a1
          have := O.trans _ _ _ a1 c1
          simp [O.irrefl] at this
    · rw [if_neg c1]
      by_cases c2 : lt nk k = true
      · rw [if_pos c2, ihr]
        constructor
        · rintro ⟨e, m⟩; exact ⟨e, Or.inr (Or.inr m)⟩
        · rintro ⟨e, m | m | m⟩
          · have a1 := h1 x m
            rw [e] at a1
            have := O.trans _ _ _ a1 c2
            simp [O.irrefl] at this
          · subst m; simp only at e; subst e; simp [O.irrefl] at c2
          · exact ⟨e, m⟩
      · rw [if_neg c2]
        have e : k = nk := O.total _ _ (by simpa using c1) (by simpa using c2)
        subst e
        simp only [Option.some.injEq]
        constructor
        · rintro rfl; simp
        · rintro ⟨e, m | m | m⟩
          · have := h1 x m; rw [e] at this; simp [O.irrefl] at this
          · exact m.symm
          · have := h2 x m; rw [e] at this; simp [O.irrefl] at this

theorem find_none (O : StrictTotal lt) (k : κ) (t : Tree κ α) (hs : Sorted lt (toList t)) :
    findMapElement lt k t = none ↔ ∀ x ∈ toList t, x.1 ≠ k := by
  rw [← Option.not_isSome_iff_eq_none, Option.isSome_iff_exists]
  constructor
  · intro h x hx e
    exact h ⟨x, (find_spec O k t hs x).2 ⟨e, hx⟩⟩
  · rintro h ⟨x, hx⟩
    have := (find_spec O k t hs x).1 hx
    exact h x this.2 this.1

theorem descend_some (O : StrictTotal lt) (k : κ) (t : Tree κ α) (p q : Path κ α)
    (hs : Sorted lt (toList t)) (h : descend lt k t p = some q) :
    plug q .nil = plug p t ∧ (∀ x ∈ lefts q, x ∈ lefts p ∨ lt x.1 k = true) ∧
      (∀ x ∈ rights q, x ∈ rights p ∨ lt k x.1 = true) := by
  induction t generalizing p with
  | nil => simp only [descend, Option.some.injEq] at h; subst h; simp; grind
  | node b l nk nv r ihl ihr =>
    obtain ⟨hl, hr, h1, h2, h3⟩ := sorted_node hs
    simp only [descend] at h
    split at h
    · rename_i c
      obtain ⟨e1, e2, e3⟩ := ihl _ hl h
      refine ⟨by rw [e1]; rfl, ?_, ?_⟩
      · intro x hx; have := e2 x hx; simpa [lefts] using this
      · intro x hx
        have := e3 x hx
        simp only [rights, List.mem_append, List.mem_cons] at this
        rcases this with ((rfl | m) | m) | m
        · exact Or.inr c
        · exact Or.inr (O.trans _ _ _ c (h2 x m))
        · exact Or.inl m
        · exact Or.inr m
    · split at h
      · rename_i c1 c
        obtain ⟨e1, e2, e3⟩ := ihr _ hr h
        refine ⟨by rw [e1]; rfl, ?_, ?_⟩
        · intro x hx
          have := e2 x hx
          simp only [lefts, List.mem_append, List.mem_cons, List.not_mem_nil, or_false] at this
          rcases this with (m | m | rfl) | m
          · exact Or.inl m
          · exact Or.inr (O.trans _ _ _ (h1 x m) c)
          · exact Or.inr c
          · exact Or.inr m
        · intro x hx; have := e3 x hx; simpa [rights] using this
      · simp at h

theorem descend_none (k : κ) (t : Tree κ α) (p : Path κ α) :
    descend lt k t p = none ↔ ∃ x, findMapElement lt k t = some x := by
  induction t generalizing p with
  | nil => simp [descend, findMapElement]
  | node b l nk nv r ihl ihr =>
    simp only [descend, findMapElement]
    split
    · exact ihl _
    · split
      · exact ihr _
      · simp

/-- Insertion: either the key was there and nothing changes, or the element is added at
its place in the order and the tree is balanced again. -/
theorem insert_spec (O : StrictTotal lt) (t : Tree κ α) (k : κ) (v : α) (hb : Bal t)
    (hs : Sorted lt (toList t)) :
    ((∃ x, findMapElement lt k t = some x) ∧ insertMapElement lt t k v = some (false, t)) ∨
    (findMapElement lt k t = none ∧ ∃ t' a c, insertMapElement lt t k v = some (true, t') ∧ Bal t' ∧
      toList t = a ++ c ∧ toList t' = a ++ (k, v) :: c ∧ (∀ x ∈ a, lt x.1 k = true) ∧
      (∀ x ∈ c, lt k x.1 = true)) := by
  cases hd : descend lt k t [] with
  | none =>
    left
    exact ⟨(descend_none k t []).1 hd, by simp [insertMapElement, hd]⟩
  | some q =>
    right
    have hn : findMapElement lt k t = none := by
      cases hf : findMapElement lt k t with
      | none => rfl
      | some x => rw [(descend_none k t []).2 ⟨x, hf⟩] at hd; simp at hd
    obtain ⟨e1, e2, e3⟩ := descend_some O k t [] q hs hd
    simp only [plug, lefts, rights, List.not_mem_nil, false_or] at e1 e2 e3
    refine ⟨hn, ?_⟩
    cases q with
    | nil =>
      simp only [plug] at e1
      subst e1
      exact ⟨.node 0 .nil k v .nil, [], [], by simp [insertMapElement, hd], by simp [Bal, height],
        rfl, rfl, by simp, by simp⟩
    | cons f p =>
      have hp : PathBal (f :: p) 0 := by
        have := (bal_plug (f :: p) Tree.nil).1 (by rw [e1]; exact hb)
        exact this.2
      obtain ⟨t', i1, i2, i3⟩ := insertSubnode_spec f p k v hp
      refine ⟨t', lefts (f :: p), rights (f :: p), ?_, i2, ?_, i3, e2, e3⟩
      · simp [insertMapElement, hd, i1]
      · rw [← e1, toList_plug]; simp [toList]

theorem sorted_insert {a c : List (κ × α)} {x : κ × α}
    (h : Sorted lt (a ++ c)) (h1 : ∀ y ∈ a, lt y.1 x.1 = true) (h2 : ∀ y ∈ c, lt x.1 y.1 = true) :
    Sorted lt (a ++ x :: c) := by
  simp only [Sorted, List.pairwise_append, List.pairwise_cons, List.mem_cons] at h ⊢
  refine ⟨h.1, ⟨h2, h.2.1⟩, ?_⟩
  rintro y hy z (rfl | hz)
  · exact h1 y hy
  · exact h.2.2 y hy z hz

theorem locate_some (k : κ) (t : Tree κ α) (p : Path κ α)
    {q : Path κ α} {b : Int} {l r : Tree κ α} {nk : κ} {nv : α}
    (h : locate lt k t p = some (q, b, l, nk, nv, r)) :
    plug q (.node b l nk nv r) = plug p t ∧ findMapElement lt k t = some (nk, nv) := by
  induction t generalizing p with
  | nil => simp [locate] at h
  | node b' l' nk' nv' r' ihl ihr =>
    simp only [locate] at h
    simp only [findMapElement]
    split at h
    · rename_i c
      obtain ⟨e1, e2⟩ := ihl _ h
      refine ⟨by rw [e1]; rfl, by simp [c, e2]⟩
    · rename_i c1
      split at h
      · rename_i c2
        obtain ⟨e1, e2⟩ := ihr _ h
        refine ⟨by rw [e1]; rfl, by simp [c1, c2, e2]⟩
      · rename_i c2
        simp only [Option.some.injEq, Prod.mk.injEq] at h
        obtain ⟨rfl, rfl, rfl, rfl, rfl, rfl⟩ := h
        exact ⟨rfl, by simp [c1, c2]⟩

theorem locate_none (k : κ) (t : Tree κ α) (p : Path κ α) :
    locate lt k t p = none ↔ findMapElement lt k t = none := by
  induction t generalizing p with
  | nil => simp [locate, findMapElement]
  | node b l nk nv r ihl ihr =>
    simp only [locate, findMapElement]
    split
    · exact ihl _
    · split
      · exact ihr _
      · simp

theorem firstElement_node (b : Int) (l : Tree κ α) (k : κ) (v : α) (r : Tree κ α) (p : Path κ α) :
    ∃ q tb tk tv tr, firstElement (.node b l k v r) p = some (q, tk, tv, tr) ∧
      plug q (.node tb .nil tk tv tr) = plug p (.node b l k v r) ∧ lefts q = lefts p ∧ q ≠ [] ∨
      (p = [] ∧ l = .nil) := by
  induction l generalizing b k v r p with
  | nil =>
    cases p with
    | nil => exact ⟨[], 0, k, v, r, Or.inr ⟨rfl, rfl⟩⟩
    | cons f p => exact ⟨f :: p, b, k, v, r, Or.inl ⟨rfl, rfl, rfl, by simp⟩⟩
  | node lb ll lk lv lr ihl _ =>
    obtain ⟨q, tb, tk, tv, tr, h⟩ := ihl lb lk lv lr (⟨.L, b, k, v, r⟩ :: p)
    rcases h with ⟨h1, h2, h3, h4⟩ | ⟨h, _⟩
    · exact ⟨q, tb, tk, tv, tr, Or.inl ⟨h1, by rw [h2]; rfl, by rw [h3]; simp [lefts], h4⟩⟩
    · simp at h

theorem toList_takePlace [DecidableEq κ] (old k : κ) (v : α) (t : Tree κ α) (O : StrictTotal lt)
    (hs : Sorted lt (toList t)) :
    toList (takePlace old k v t) = (toList t).map fun x => if x.1 = old then (k, v) else x := by
  induction t with
  | nil => simp [takePlace, toList]
  | node b l nk nv r ihl ihr =>
    obtain ⟨hl, hr, h1, h2, h3⟩ := sorted_node hs
    simp only [takePlace]
    split
    · rename_i e
      subst e
      have ml : (toList l).map (fun x => if x.1 = nk then (k, v) else x) = toList l := by
        conv => rhs; rw [← List.map_id (toList l)]
        apply List.map_congr_left
        intro x hx
        have := h1 x hx
        have hne : x.1 ≠ nk := by intro e; rw [e] at this; simp [O.irrefl] at this
        simp [hne]
      have mr : (toList r).map (fun x => if x.1 = nk then (k, v) else x) = toList r := by
        conv => rhs; rw [← List.map_id (toList r)]
        apply List.map_congr_left
        intro x hx
        have := h2 x hx
        have hne : x.1 ≠ nk := by intro e; rw [e] at this; simp [O.irrefl] at this
        simp [hne]
      simp [toList, ml, mr]
    · rename_i e
      simp [toList, ihl hl, ihr hr, e]

theorem height_takePlace [DecidableEq κ] (old k : κ) (v : α) (t : Tree κ α) :
    height (takePlace old k v t) = height t := by
  induction t with
  | nil => rfl
  | node b l nk nv r ihl ihr =>
    simp only [takePlace]
    split <;> simp [height, ihl, ihr]

theorem bal_takePlace [DecidableEq κ] (old k : κ) (v : α) (t : Tree κ α) (hb : Bal t) :
    Bal (takePlace old k v t) := by
  induction t with
  | nil => exact hb
  | node b l nk nv r ihl ihr =>
    simp only [takePlace]
    split
    · exact hb
    · simp only [Bal, height_takePlace] at hb ⊢
      exact ⟨ihl hb.1, ihr hb.2.1, hb.2.2⟩

/-- Removal of the element at a given position. -/
theorem removeAt_spec [DecidableEq κ] (O : StrictTotal lt) (p : Path κ α) (b : Int) (l : Tree κ α)
    (k : κ) (v : α) (r : Tree κ α) (hb : Bal (plug p (.node b l k v r)))
    (hs : Sorted lt (toList (plug p (.node b l k v r)))) :
    ∃ t', removeAt p b l k v r = some t' ∧ Bal t' ∧
      toList t' = lefts p ++ toList l ++ toList r ++ rights p := by
  have hb' := (bal_plug _ _).1 hb
  obtain ⟨⟨hbl, hbr, he, _, _⟩, hpb⟩ := hb'
  simp only [height] at hpb
  cases l with
  | nil =>
    simp only [removeAt, removeBranchNode]
    simp only [height] at he hpb
    obtain ⟨t', e1, e2, e3⟩ := removeClimb_spec p r hbr (by
      rw [show height r + 1 = 1 + max 0 (height r) by omega]; exact hpb)
    exact ⟨t', e1, e2, by rw [e3]; simp [toList]⟩
  | node lb ll lk lv lr =>
    cases r with
    | nil =>
      simp only [removeAt, removeBranchNode]
      obtain ⟨t', e1, e2, e3⟩ := removeClimb_spec p (.node lb ll lk lv lr) hbl (by
        rw [show height (Tree.node lb ll lk lv lr) + 1 =
          1 + max (height (Tree.node lb ll lk lv lr)) (height (Tree.nil : Tree κ α)) by
            simp only [height]; omega]
        exact hpb)
      exact ⟨t', e1, e2, by rw [e3]; simp [toList]⟩
    | node rb rl rk rv rr =>
      generalize hL : Tree.node lb ll lk lv lr = L at *
      have hrem : removeAt p b L k v (.node rb rl rk rv rr) =
          ((firstElement (.node rb rl rk rv rr) (⟨.R, b, k, v, L⟩ :: p)).bind fun (pt, tk, tv, tr) =>
            (removeBranchNode pt tr).map (takePlace k tk tv)) := by
        subst hL; rfl
      rw [hrem]
      obtain ⟨q, tb, tk, tv, tr, h⟩ := firstElement_node rb rl rk rv rr (⟨.R, b, k, v, L⟩ :: p)
      rcases h with ⟨f1, f2, f3, _⟩ | ⟨h, _⟩
      · rw [f1]
        simp only [Option.bind_some, removeBranchNode]
        have hb2 : Bal (plug q (.node tb .nil tk tv tr)) := by rw [f2]; exact hb
        have hb3 := (bal_plug _ _).1 hb2
        simp only [Bal, height] at hb3
        obtain ⟨t', e1, e2, e3⟩ := removeClimb_spec q tr hb3.1.2.1 (by
          rw [show height tr + 1 = 1 + max 0 (height tr) by omega]; exact hb3.2)
        refine ⟨takePlace k tk tv t', by simp [e1], bal_takePlace _ _ _ _ e2, ?_⟩
        -- listing of the whole tree before
        have hl1 : lefts q ++ (tk, tv) :: (toList tr ++ rights q) =
            lefts p ++ toList L ++ (k, v) :: (toList (.node rb rl rk rv rr) ++ rights p) := by
          have := congrArg toList f2
          simp only [toList_plug, toList] at this
          simpa [plug, plug1, toList_plug, toList, lefts, rights, List.append_assoc] using this
        have hlq : lefts q = lefts p ++ toList L ++ [(k, v)] := by rw [f3]; simp [lefts]
        rw [hlq] at hl1
        have hrest : (tk, tv) :: (toList tr ++ rights q) = toList (.node rb rl rk rv rr) ++ rights p := by
          simpa using hl1
        -- sortedness
        have hs1 : Sorted lt (lefts p ++ toList L ++ (k, v) :: ((tk, tv) :: (toList tr ++ rights q))) := by
          have := hs
          rw [toList_plug] at this
          rw [hrest]
          simpa [toList] using this
        have ht' : toList t' = lefts p ++ toList L ++ (k, v) :: (toList tr ++ rights q) := by
          rw [e3, hlq]; simp
        have hs2 : Sorted lt (toList t') := by
          rw [ht']
          simp only [Sorted, List.pairwise_append, List.pairwise_cons, List.mem_cons] at hs1 ⊢
          grind
        rw [toList_takePlace k tk tv t' O hs2, ht']
        have hne1 : ∀ x ∈ lefts p ++ toList L, x.1 ≠ k := by
          intro x hx e
          simp only [Sorted] at hs1
          have := (List.pairwise_append.1 hs1).2.2 x hx (k, v) (by simp)
          rw [e] at this; simp [O.irrefl] at this
        have hne2 : ∀ x ∈ toList tr ++ rights q, x.1 ≠ k := by
          intro x hx e
          simp only [Sorted] at hs1
          have h2 := (List.pairwise_append.1 hs1).2.1
          have := (List.pairwise_cons.1 h2).1 x (by simp; right; simpa using hx)
          rw [e] at this; simp [O.irrefl] at this
        have m1 : (lefts p ++ toList L).map (fun x => if x.1 = k then (tk, tv) else x)
            = lefts p ++ toList L := by
          conv => rhs; rw [← List.map_id (lefts p ++ toList L)]
          exact List.map_congr_left fun x hx => by simp [hne1 x hx]
        have m2 : (toList tr ++ rights q).map (fun x => if x.1 = k then (tk, tv) else x)
            = toList tr ++ rights q := by
          conv => rhs; rw [← List.map_id (toList tr ++ rights q)]
          exact List.map_congr_left fun x hx => by simp [hne2 x hx]
        rw [List.map_append, List.map_cons, m1, m2]
        simp only [if_true, hrest]
        simp
      · simp at h

/-- Removal by key. -/
theorem remove_spec [DecidableEq κ] (O : StrictTotal lt) (t : Tree κ α) (k : κ) (hb : Bal t)
    (hs : Sorted lt (toList t)) :
    (findMapElement lt k t = none ∧ removeMapElement lt t k = some t) ∨
    ∃ t' a c v, findMapElement lt k t = some (k, v) ∧ removeMapElement lt t k = some t' ∧ Bal t' ∧
      toList t = a ++ (k, v) :: c ∧ toList t' = a ++ c := by
  cases hl : locate lt k t [] with
  | none => exact Or.inl ⟨(locate_none k t []).1 hl, by simp [removeMapElement, hl]⟩
  | some z =>
    obtain ⟨p, b, l, nk, nv, r⟩ := z
    obtain ⟨e1, e2⟩ := locate_some k t [] hl
    simp only [plug] at e1
    subst e1
    have hk : nk = k := ((find_spec O k _ hs _).1 e2).1
    subst hk
    obtain ⟨t', r1, r2, r3⟩ := removeAt_spec O p b l nk nv r hb hs
    refine Or.inr ⟨t', lefts p ++ toList l, toList r ++ rights p, nv, e2, ?_, r2, ?_, ?_⟩
    · simp [removeMapElement, hl, r1]
    · simp [toList_plug, toList]
    · rw [r3]; simp

end Verif.Map
