import Verif.Lemmas.MapInv
import Verif.Lemmas.MapIter

/-!
# Maps under a change of keys

If keys are compared through a function `f`, a map with the keys `k` behaves like the map with the keys `f k` whose
elements carry the original key.
-/

namespace Verif.Map

variable {κ κ' α : Type}

/-- The tree with the keys replaced by their images; the original keys become part of the payload. -/
def Tree.img (f : κ → κ') : Tree κ α → Tree κ' (κ × α)
  | .nil => .nil
  | .node b l k v r => .node b (l.img f) (f k) (k, v) (r.img f)

/-- The same for a frame. -/
def Frame.img (f : κ → κ') (x : Frame κ α) : Frame κ' (κ × α) :=
  ⟨x.dir, x.balance, f x.key, (x.key, x.val), x.sibling.img f⟩

theorem img_plug1 (f : κ → κ') (x : Frame κ α) (t : Tree κ α) : (plug1 x t).img f = plug1 (x.img f) (t.img f) := by
  obtain ⟨d, b, k, v, s⟩ := x
  cases d <;> rfl

theorem img_plug (f : κ → κ') (p : Path κ α) (t : Tree κ α) :
    (plug p t).img f = plug (p.map (Frame.img f)) (t.img f) := by
  induction p generalizing t with
  | nil => rfl
  | cons x p ih => simp [plug, ih, img_plug1]

theorem img_rotateLeft (f : κ → κ') (t : Tree κ α) : rotateLeft (t.img f) = (rotateLeft t).map (Tree.img f) := by
  rcases t with _ | ⟨_, _, _, _, _ | ⟨_, _, _, _, _⟩⟩ <;> rfl

theorem img_rotateRight (f : κ → κ') (t : Tree κ α) : rotateRight (t.img f) = (rotateRight t).map (Tree.img f) := by
  rcases t with _ | ⟨_, _ | ⟨_, _, _, _, _⟩, _, _, _⟩ <;> rfl

theorem img_zigZagLeft (f : κ → κ') (t : Tree κ α) : zigZagLeft (t.img f) = (zigZagLeft t).map (Tree.img f) := by
  rcases t with _ | ⟨_, _, _, _, _ | ⟨_, _ | ⟨_, _, _, _, _⟩, _, _, _⟩⟩ <;> rfl

theorem img_zigZagRight (f : κ → κ') (t : Tree κ α) : zigZagRight (t.img f) = (zigZagRight t).map (Tree.img f) := by
  rcases t with _ | ⟨_, _ | ⟨_, _, _, _, _ | ⟨_, _, _, _, _⟩⟩, _, _, _⟩ <;> rfl

theorem img_insertClimb (f : κ → κ') (p : Path κ α) (d : Dir) (t : Tree κ α) :
    insertClimb d (p.map (Frame.img f)) (t.img f) = (insertClimb d p t).map (Tree.img f) := by
  induction p generalizing d t with
  | nil => rfl
  | cons x p ih =>
    obtain ⟨xd, b, k, v, s⟩ := x
    have e : ∀ (b' : Int), plug1 { Frame.img f ⟨xd, b, k, v, s⟩ with balance := b' } (t.img f) =
        (plug1 ⟨xd, b', k, v, s⟩ t).img f := by
      intro b'; cases xd <;> rfl
    have ro : ∀ (o : Option (Tree κ α)), (o.map (Tree.img f)).map (plug (p.map (Frame.img f))) =
        (o.map (plug p)).map (Tree.img f) := by
      intro o; cases o <;> simp [img_plug]
    have key : ∀ (d' : Dir) (b' : Int) (o : Option (Tree κ α)) (n : Tree κ α),
        (if b' = 0 then some (plug (p.map (Frame.img f)) (n.img f))
          else if b'.natAbs = 2 then (o.map (Tree.img f)).map (plug (p.map (Frame.img f)))
          else insertClimb d' (p.map (Frame.img f)) (n.img f)) =
        (if b' = 0 then some (plug p n) else if b'.natAbs = 2 then o.map (plug p) else insertClimb d' p n).map
          (Tree.img f) := by
      intro d' b' o n
      by_cases h1 : b' = 0
      · simp [h1, img_plug]
      · rw [if_neg h1, if_neg h1]
        by_cases h2 : b'.natAbs = 2
        · rw [if_pos h2, if_pos h2, ro]
        · rw [if_neg h2, if_neg h2, ih]
    simp only [List.map_cons, insertClimb, e]
    cases xd <;> cases d <;> simp only [Frame.img, img_rotateLeft, img_rotateRight, img_zigZagLeft, img_zigZagRight] <;>
      exact key _ _ _ _

theorem img_insertSubnode (f : κ → κ') (x : Frame κ α) (p : Path κ α) (k : κ) (v : α) :
    insertSubnode (x.img f) (p.map (Frame.img f)) (f k) (k, v) = (insertSubnode x p k v).map (Tree.img f) := by
  obtain ⟨xd, b, nk, nv, s⟩ := x
  have e : ∀ (b' : Int), plug1 { Frame.img f ⟨xd, b, nk, nv, s⟩ with balance := b' } (.node 0 .nil (f k) (k, v) .nil) =
      (plug1 ⟨xd, b', nk, nv, s⟩ (.node 0 .nil k v .nil)).img f := by
    intro b'; cases xd <;> rfl
  have key : ∀ (d' : Dir) (b' : Int) (n : Tree κ α),
      (if b' ≠ 0 then insertClimb d' (p.map (Frame.img f)) (n.img f) else some (plug (p.map (Frame.img f)) (n.img f))) =
      (if b' ≠ 0 then insertClimb d' p n else some (plug p n)).map (Tree.img f) := by
    intro d' b' n
    by_cases h : b' ≠ 0
    · rw [if_pos h, if_pos h, img_insertClimb]
    · rw [if_neg h, if_neg h]; simp [img_plug]
  simp only [insertSubnode, e]
  cases xd <;> simp only [Frame.img] <;> exact key _ _ _

variable {lt : κ → κ → Bool} {lt' : κ' → κ' → Bool} {f : κ → κ'}

theorem img_descend (h : ∀ a b, lt a b = lt' (f a) (f b)) (k : κ) (t : Tree κ α) (p : Path κ α) :
    descend lt' (f k) (t.img f) (p.map (Frame.img f)) = (descend lt k t p).map (List.map (Frame.img f)) := by
  induction t generalizing p with
  | nil => rfl
  | node b l nk nv r il ir =>
    simp only [Tree.img, descend, ← h]
    split
    · exact il (⟨.L, b, nk, nv, r⟩ :: p)
    · split
      · exact ir (⟨.R, b, nk, nv, l⟩ :: p)
      · rfl

theorem img_insert (h : ∀ a b, lt a b = lt' (f a) (f b)) (k : κ) (v : α) (t : Tree κ α) :
    insertMapElement lt' (t.img f) (f k) (k, v) = (insertMapElement lt t k v).map fun x => (x.1, x.2.img f) := by
  have e := img_descend h k t []
  simp only [List.map_nil] at e
  unfold insertMapElement
  rw [e]
  rcases descend lt k t [] with _ | ⟨_ | ⟨x, p⟩⟩
  · rfl
  · rfl
  · simp [img_insertSubnode, Function.comp_def]

theorem img_find (h : ∀ a b, lt a b = lt' (f a) (f b)) (k : κ) (t : Tree κ α) :
    findMapElement lt' (f k) (t.img f) = (findMapElement lt k t).map fun x => (f x.1, x) := by
  induction t with
  | nil => rfl
  | node b l nk nv r il ir =>
    simp only [Tree.img, findMapElement, ← h]
    split
    · exact il
    · split
      · exact ir
      · rfl

theorem img_toList (f : κ → κ') (t : Tree κ α) : toList (t.img f) = (toList t).map fun x => (f x.1, x) := by
  induction t with
  | nil => rfl
  | node b l nk nv r il ir => simp [Tree.img, toList, il, ir]

theorem img_rightBalance (f : κ → κ') (t : Tree κ α) : rightBalance (t.img f) = rightBalance t := by
  rcases t with _ | ⟨_, _, _, _, _ | ⟨_, _, _, _, _⟩⟩ <;> rfl

theorem img_leftBalance (f : κ → κ') (t : Tree κ α) : leftBalance (t.img f) = leftBalance t := by
  rcases t with _ | ⟨_, _ | ⟨_, _, _, _, _⟩, _, _, _⟩ <;> rfl

theorem img_removeClimb (f : κ → κ') (p : Path κ α) (t : Tree κ α) :
    removeClimb (p.map (Frame.img f)) (t.img f) = (removeClimb p t).map (Tree.img f) := by
  induction p generalizing t with
  | nil => rfl
  | cons x p ih =>
    obtain ⟨xd, b, k, v, s⟩ := x
    have e : ∀ (b' : Int), plug1 { Frame.img f ⟨xd, b, k, v, s⟩ with balance := b' } (t.img f) =
        (plug1 ⟨xd, b', k, v, s⟩ t).img f := by
      intro b'; cases xd <;> rfl
    have key : ∀ (b' : Int) (n : Tree κ α),
        (if b'.natAbs = 1 then some (plug (p.map (Frame.img f)) (n.img f))
          else if b' ≠ 0 then
            if b' > 0 then
              (rightBalance (n.img f)).bind fun rb =>
                if rb ≥ 0 then
                  (rotateLeft (n.img f)).bind fun n =>
                    if rb = 0 then some (plug (p.map (Frame.img f)) n) else removeClimb (p.map (Frame.img f)) n
                else (zigZagLeft (n.img f)).bind fun n => removeClimb (p.map (Frame.img f)) n
            else
              (leftBalance (n.img f)).bind fun lb =>
                if lb ≤ 0 then
                  (rotateRight (n.img f)).bind fun n =>
                    if lb = 0 then some (plug (p.map (Frame.img f)) n) else removeClimb (p.map (Frame.img f)) n
                else (zigZagRight (n.img f)).bind fun n => removeClimb (p.map (Frame.img f)) n
          else removeClimb (p.map (Frame.img f)) (n.img f)) =
        (if b'.natAbs = 1 then some (plug p n)
          else if b' ≠ 0 then
            if b' > 0 then
              (rightBalance n).bind fun rb =>
                if rb ≥ 0 then
                  (rotateLeft n).bind fun n => if rb = 0 then some (plug p n) else removeClimb p n
                else (zigZagLeft n).bind fun n => removeClimb p n
            else
              (leftBalance n).bind fun lb =>
                if lb ≤ 0 then
                  (rotateRight n).bind fun n => if lb = 0 then some (plug p n) else removeClimb p n
                else (zigZagRight n).bind fun n => removeClimb p n
          else removeClimb p n).map (Tree.img f) := by
      intro b' n
      rw [img_rightBalance, img_leftBalance, img_rotateLeft, img_rotateRight, img_zigZagLeft, img_zigZagRight]
      by_cases h1 : b'.natAbs = 1
      · simp [h1, img_plug]
      · rw [if_neg h1, if_neg h1]
        by_cases h2 : b' ≠ 0
        · rw [if_pos h2, if_pos h2]
          by_cases h3 : b' > 0
          · rw [if_pos h3, if_pos h3]
            cases rightBalance n with
            | none => rfl
            | some rb =>
              simp only [Option.bind_some]
              by_cases h4 : rb ≥ 0
              · rw [if_pos h4, if_pos h4]
                cases rotateLeft n with
                | none => rfl
                | some m =>
                  simp only [Option.bind_some, Option.map_some]
                  split
                  · simp [img_plug]
                  · exact ih m
              · rw [if_neg h4, if_neg h4]
                cases zigZagLeft n with
                | none => rfl
                | some m => exact ih m
          · rw [if_neg h3, if_neg h3]
            cases leftBalance n with
            | none => rfl
            | some rb =>
              simp only [Option.bind_some]
              by_cases h4 : rb ≤ 0
              · rw [if_pos h4, if_pos h4]
                cases rotateRight n with
                | none => rfl
                | some m =>
                  simp only [Option.bind_some, Option.map_some]
                  split
                  · simp [img_plug]
                  · exact ih m
              · rw [if_neg h4, if_neg h4]
                cases zigZagRight n with
                | none => rfl
                | some m => exact ih m
        · rw [if_neg h2, if_neg h2]
          exact ih n
    simp only [List.map_cons, removeClimb, e]
    cases xd <;> exact key _ _

/-- Rebalancing after a removal keeps the elements. -/
theorem toList_removeClimb (p : Path κ α) (t t' : Tree κ α) (h : removeClimb p t = some t') :
    toList t' = toList (plug p t) := by
  induction p generalizing t with
  | nil => cases h; rfl
  | cons x p ih =>
    obtain ⟨xd, b, k, v, s⟩ := x
    have e : ∀ (b' : Int), toList (plug p (plug1 ⟨xd, b', k, v, s⟩ t)) = toList (plug (⟨xd, b, k, v, s⟩ :: p) t) := by
      intro b'; cases xd <;> simp [plug, toList_plug, plug1, toList]
    have step : ∀ {n m : Tree κ α}, toList m = toList n → toList (plug p m) = toList (plug p n) := by
      intro n m hh; rw [toList_plug, toList_plug, hh]
    suffices key : ∀ (b' : Int) (n : Tree κ α), (if b'.natAbs = 1 then some (plug p n)
          else if b' ≠ 0 then
            if b' > 0 then
              (rightBalance n).bind fun rb =>
                if rb ≥ 0 then
                  (rotateLeft n).bind fun n => if rb = 0 then some (plug p n) else removeClimb p n
                else (zigZagLeft n).bind fun n => removeClimb p n
            else
              (leftBalance n).bind fun lb =>
                if lb ≤ 0 then
                  (rotateRight n).bind fun n => if lb = 0 then some (plug p n) else removeClimb p n
                else (zigZagRight n).bind fun n => removeClimb p n
          else removeClimb p n) = some t' → toList t' = toList (plug p n) by
      cases xd
      · rw [← e (b + 1)]; exact key _ _ h
      · rw [← e (b - 1)]; exact key _ _ h
    clear h
    intro b' n h
    by_cases h1 : b'.natAbs = 1
    · rw [if_pos h1] at h; cases h; rfl
    · rw [if_neg h1] at h
      by_cases h2 : b' ≠ 0
      · rw [if_pos h2] at h
        by_cases h3 : b' > 0
        · rw [if_pos h3] at h
          cases hr : rightBalance n with
          | none => rw [hr] at h; cases h
          | some rb =>
            rw [hr] at h
            simp only [Option.bind_some] at h
            by_cases h4 : rb ≥ 0
            · rw [if_pos h4] at h
              cases hm : rotateLeft n with
              | none => rw [hm] at h; cases h
              | some m =>
                rw [hm] at h
                simp only [Option.bind_some] at h
                split at h
                · cases h; exact step (toList_rotateLeft hm)
                · rw [ih m h]; exact step (toList_rotateLeft hm)
            · rw [if_neg h4] at h
              cases hm : zigZagLeft n with
              | none => rw [hm] at h; cases h
              | some m =>
                rw [hm] at h
                rw [ih m h]; exact step (toList_zigZagLeft hm)
        · rw [if_neg h3] at h
          cases hr : leftBalance n with
          | none => rw [hr] at h; cases h
          | some rb =>
            rw [hr] at h
            simp only [Option.bind_some] at h
            by_cases h4 : rb ≤ 0
            · rw [if_pos h4] at h
              cases hm : rotateRight n with
              | none => rw [hm] at h; cases h
              | some m =>
                rw [hm] at h
                simp only [Option.bind_some] at h
                split at h
                · cases h; exact step (toList_rotateRight hm)
                · rw [ih m h]; exact step (toList_rotateRight hm)
            · rw [if_neg h4] at h
              cases hm : zigZagRight n with
              | none => rw [hm] at h; cases h
              | some m =>
                rw [hm] at h
                rw [ih m h]; exact step (toList_zigZagRight hm)
      · rw [if_neg h2] at h
        exact ih n h

theorem img_takePlace [DecidableEq κ] [DecidableEq κ'] (f : κ → κ') (old k : κ) (v : α) (t : Tree κ α)
    (h : ∀ x ∈ toList t, f x.1 = f old → x.1 = old) :
    takePlace (f old) (f k) (k, v) (t.img f) = (takePlace old k v t).img f := by
  induction t with
  | nil => rfl
  | node b l nk nv r il ir =>
    have hl := il fun x hx => h x (by simp [toList, hx])
    have hr := ir fun x hx => h x (by simp [toList, hx])
    have hn := h (nk, nv) (by simp [toList])
    simp only [Tree.img, takePlace, hl, hr]
    by_cases e : nk = old
    · subst e; simp [Tree.img]
    · rw [if_neg e, if_neg (fun e' => e (hn e'))]; rfl

theorem img_firstElement (f : κ → κ') (t : Tree κ α) (p : Path κ α) :
    firstElement (t.img f) (p.map (Frame.img f)) =
      (firstElement t p).map fun x => (x.1.map (Frame.img f), f x.2.1, (x.2.1, x.2.2.1), x.2.2.2.img f) := by
  induction t generalizing p with
  | nil => rfl
  | node b l nk nv r il _ =>
    cases l with
    | nil => rfl
    | node lb ll lk lv lr => exact il (⟨.L, b, nk, nv, r⟩ :: p)

theorem firstElement_mem (t : Tree κ α) (p : Path κ α) {q k v r} (h : firstElement t p = some (q, k, v, r)) :
    toList (plug q (.node 0 .nil k v r)) = toList (plug p t) := by
  induction t generalizing p with
  | nil => cases h
  | node b l nk nv r' il _ =>
    cases l with
    | nil => cases h; simp [toList_plug, toList]
    | node lb ll lk lv lr =>
      rw [il (⟨.L, b, nk, nv, r'⟩ :: p) h]
      simp [plug, plug1]

theorem img_locate (h : ∀ a b, lt a b = lt' (f a) (f b)) (k : κ) (t : Tree κ α) (p : Path κ α) :
    locate lt' (f k) (t.img f) (p.map (Frame.img f)) = (locate lt k t p).map fun x =>
      (x.1.map (Frame.img f), x.2.1, x.2.2.1.img f, f x.2.2.2.1, (x.2.2.2.1, x.2.2.2.2.1), x.2.2.2.2.2.img f) := by
  induction t generalizing p with
  | nil => rfl
  | node b l nk nv r il ir =>
    simp only [Tree.img, locate, ← h]
    split
    · exact il (⟨.L, b, nk, nv, r⟩ :: p)
    · split
      · exact ir (⟨.R, b, nk, nv, l⟩ :: p)
      · rfl

theorem locate_toList (k : κ) (t : Tree κ α) (p : Path κ α) {q b l nk nv r}
    (h : locate lt k t p = some (q, b, l, nk, nv, r)) : toList (plug q (.node b l nk nv r)) = toList (plug p t) := by
  induction t generalizing p with
  | nil => cases h
  | node tb tl tk tv tr il ir =>
    simp only [locate] at h
    split at h
    · rw [il _ h]; simp [plug, plug1]
    · split at h
      · rw [ir _ h]; simp [plug, plug1]
      · cases h; rfl

/-- Removal, if different keys in the map have different images. -/
theorem img_remove [DecidableEq κ] [DecidableEq κ'] (h : ∀ a b, lt a b = lt' (f a) (f b)) (k : κ) (t : Tree κ α)
    (inj : ∀ x ∈ toList t, ∀ y ∈ toList t, f x.1 = f y.1 → x.1 = y.1) :
    removeMapElement lt' (t.img f) (f k) = (removeMapElement lt t k).map (Tree.img f) := by
  have e := img_locate h k t []
  simp only [List.map_nil] at e
  unfold removeMapElement
  rw [e]
  cases hl : locate lt k t [] with
  | none => rfl
  | some x =>
    obtain ⟨q, b, l, nk, nv, r⟩ := x
    have hm := locate_toList k t [] hl
    simp only [plug] at hm
    simp only [Option.map_some]
    cases l with
    | nil => exact img_removeClimb f q r
    | node lb ll lk lv lr =>
      cases r with
      | nil => exact img_removeClimb f q _
      | node rb rl rk rv rr =>
        simp only [removeAt, Tree.img]
        have ef := img_firstElement f (.node rb rl rk rv rr) (⟨.R, b, nk, nv, .node lb ll lk lv lr⟩ :: q)
        simp only [Tree.img, List.map_cons, Frame.img] at ef
        rw [ef]
        cases hf : firstElement (.node rb rl rk rv rr) (⟨.R, b, nk, nv, .node lb ll lk lv lr⟩ :: q) with
        | none => rfl
        | some y =>
          obtain ⟨pt, tk, tv, tr⟩ := y
          have h1 := firstElement_mem _ _ hf
          simp only [Option.map_some, Option.bind_some, removeBranchNode, img_removeClimb]
          cases hc : removeClimb pt tr with
          | none => rfl
          | some u =>
            simp only [Option.map_some, Option.some.injEq]
            apply img_takePlace
            intro x hx
            have h2 := toList_removeClimb pt tr u hc
            apply inj x ?_ (nk, nv) ?_
            · rw [← hm]
              have h3 : x ∈ toList (plug pt (.node 0 .nil tk tv tr)) := by
                rw [h2, toList_plug] at hx
                rw [toList_plug]
                simp only [List.mem_append, toList, List.mem_cons] at hx ⊢
                rcases hx with (hx | hx) | hx <;> simp [hx]
              rw [h1] at h3
              simpa [plug, plug1] using h3
            · rw [← hm, toList_plug]
              simp [toList]

end Verif.Map
