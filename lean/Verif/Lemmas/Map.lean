import Verif.Model.Map

/-!
# Lemmas about the map model: order of elements, balance
-/

namespace Verif.Map

variable {κ α : Type}

/-- In-order listing of the elements. -/
def toList : Tree κ α → List (κ × α)
  | .nil => []
  | .node _ l k v r => toList l ++ (k, v) :: toList r

/-- Height of a tree: number of nodes on the longest search path. -/
def height : Tree κ α → Nat
  | .nil => 0
  | .node _ l _ _ r => 1 + max (height l) (height r)

/-- The AVL invariant: the stored balance is the height difference and is -1, 0 or 1. -/
def Bal : Tree κ α → Prop
  | .nil => True
  | .node b l _ _ r => Bal l ∧ Bal r ∧ b = (height r : Int) - height l ∧ -1 ≤ b ∧ b ≤ 1

/-- Elements before the hole of a path. -/
def lefts : Path κ α → List (κ × α)
  | [] => []
  | f :: p => lefts p ++ (match f.dir with
      | .L => []
      | .R => toList f.sibling ++ [(f.key, f.val)])

/-- Elements after the hole of a path. -/
def rights : Path κ α → List (κ × α)
  | [] => []
  | f :: p => (match f.dir with
      | .L => (f.key, f.val) :: toList f.sibling
      | .R => []) ++ rights p

/-- A path around a hole of height `h` is balanced. -/
def PathBal : Path κ α → Nat → Prop
  | [], _ => True
  | f :: p, h =>
      Bal f.sibling ∧
      (match f.dir with
        | .L => f.balance = (height f.sibling : Int) - h
        | .R => f.balance = (h : Int) - height f.sibling) ∧
      -1 ≤ f.balance ∧ f.balance ≤ 1 ∧ PathBal p (1 + max h (height f.sibling))

theorem toList_plug (p : Path κ α) (t : Tree κ α) :
    toList (plug p t) = lefts p ++ toList t ++ rights p := by
  induction p generalizing t with
  | nil => simp [plug, lefts, rights]
  | cons f p ih =>
    obtain ⟨d, b, k, v, s⟩ := f
    cases d <;> simp [plug, lefts, rights, ih, plug1, toList]

theorem bal_plug (p : Path κ α) (t : Tree κ α) :
    Bal (plug p t) ↔ Bal t ∧ PathBal p (height t) := by
  induction p generalizing t with
  | nil => simp [plug, PathBal]
  | cons f p ih =>
    obtain ⟨d, b, k, v, s⟩ := f
    cases d <;> simp only [plug, PathBal, ih, plug1, Bal, height]
    · constructor <;> grind
    · constructor <;> grind

theorem toList_rotateLeft {t t' : Tree κ α} (h : rotateLeft t = some t') : toList t' = toList t := by
  unfold rotateLeft at h
  split at h <;> simp_all
  subst h; simp [toList]

theorem toList_rotateRight {t t' : Tree κ α} (h : rotateRight t = some t') : toList t' = toList t := by
  unfold rotateRight at h
  split at h <;> simp_all
  subst h; simp [toList]

theorem toList_zigZagLeft {t t' : Tree κ α} (h : zigZagLeft t = some t') : toList t' = toList t := by
  unfold zigZagLeft at h
  split at h <;> simp_all
  subst h; simp [toList]

theorem toList_zigZagRight {t t' : Tree κ α} (h : zigZagRight t = some t') :
    toList t' = toList t := by
  unfold zigZagRight at h
  split at h <;> simp_all
  subst h; simp [toList]

theorem height_pos {b : Int} {l r : Tree κ α} {k : κ} {v : α} : 0 < height (.node b l k v r) := by
  simp [height]; omega

/-- The insertion loop succeeds and restores the invariant. -/
theorem insertClimb_spec (p : Path κ α) (d1 : Dir) (tb : Int) (tl : Tree κ α) (tk : κ) (tv : α)
    (tr : Tree κ α) (h : Nat) (ht : Bal (.node tb tl tk tv tr))
    (hh : height (.node tb tl tk tv tr) = h + 1)
    (hd : match d1 with | .L => tb = -1 | .R => tb = 1) (hp : PathBal p h) :
    ∃ t', insertClimb d1 p (.node tb tl tk tv tr) = some t' ∧ Bal t' ∧
      toList t' = lefts p ++ toList (.node tb tl tk tv tr) ++ rights p := by
  induction p generalizing d1 tb tl tk tv tr h with
  | nil => exact ⟨_, rfl, ht, by simp [lefts, rights]⟩
  | cons f p ih =>
    obtain ⟨d, b, k, v, s⟩ := f
    cases d with
    | L =>
      simp only [PathBal] at hp
      obtain ⟨hs, hb, hb1, hb2, hp⟩ := hp
      simp only [insertClimb, plug1]
      by_cases h0 : b - 1 = 0
      · simp only [h0, if_true]
        refine ⟨_, rfl, ?_, by simp [toList_plug, lefts, rights, toList]⟩
        rw [bal_plug]
        refine ⟨⟨ht, hs, by omega, by omega, by omega⟩, ?_⟩
        have : height (Tree.node 0 (.node tb tl tk tv tr) k v s) = 1 + max h (height s) := by
          simp only [height] at hh ⊢; omega
        rw [this]; exact hp
      · simp only [h0, if_false]
        by_cases h2 : (b - 1).natAbs = 2
        · simp only [h2, if_true]
          cases d1 with
          | L =>
            simp only at hd
            subst hd
            refine ⟨_, rfl, ?_, by simp [toList_plug, lefts, rights, toList]⟩
            rw [bal_plug]
            simp only [Bal] at ht ⊢
            simp only [height] at hh ⊢
            have e : 1 + max (height tl) (1 + max (height tr) (height s)) = 1 + max h (height s) := by
              omega
            refine ⟨⟨ht.1, ⟨ht.2.1, hs, by omega, by omega, by omega⟩, by omega, by omega, by omega⟩, ?_⟩
            rw [e]; exact hp
          | R =>
            simp only at hd
            subst hd
            cases tr with
            | nil => simp only [Bal, height] at ht; omega
            | node ub ul uk uv ur =>
              refine ⟨_, rfl, ?_, by simp [toList_plug, lefts, rights, toList]⟩
              rw [bal_plug]
              simp only [Bal] at ht ⊢
              simp only [height] at ht hh ⊢
              have e : 1 + max (1 + max (height tl) (height ul)) (1 + max (height ur) (height s))
                  = 1 + max h (height s) := by
                omega
              refine ⟨⟨⟨ht.1, ht.2.1.1, by omega, by omega, by omega⟩,
                ⟨ht.2.1.2.1, hs, by omega, by omega, by omega⟩, by omega, by omega, by omega⟩, ?_⟩
              rw [e]; exact hp
        · simp only [h2, if_false]
          have hb0 : b = 0 := by omega
          subst hb0
          obtain ⟨t', e1, e2, e3⟩ := ih .L (-1) (.node tb tl tk tv tr) k v s (1 + max h (height s))
            ⟨ht, hs, by omega, by omega, by omega⟩ (by simp only [height] at hh ⊢; omega) rfl hp
          exact ⟨t', e1, e2, by rw [e3]; simp [lefts, rights, toList]⟩
    | R =>
      simp only [PathBal] at hp
      obtain ⟨hs, hb, hb1, hb2, hp⟩ := hp
      simp only [insertClimb, plug1]
      by_cases h0 : b + 1 = 0
      · simp only [h0, if_true]
        refine ⟨_, rfl, ?_, by simp [toList_plug, lefts, rights, toList]⟩
        rw [bal_plug]
        refine ⟨⟨hs, ht, by omega, by omega, by omega⟩, ?_⟩
        have : height (Tree.node 0 s k v (.node tb tl tk tv tr)) = 1 + max h (height s) := by
          simp only [height] at hh ⊢; omega
        rw [this]; exact hp
      · simp only [h0, if_false]
        by_cases h2 : (b + 1).natAbs = 2
        · simp only [h2, if_true]
          cases d1 with
          | R =>
            simp only at hd
            subst hd
            refine ⟨_, rfl, ?_, by simp [toList_plug, lefts, rights, toList]⟩
            rw [bal_plug]
            simp only [Bal] at ht ⊢
            simp only [height] at hh ⊢
            have e : 1 + max (1 + max (height s) (height tl)) (height tr) = 1 + max h (height s) := by
              omega
            refine ⟨⟨⟨hs, ht.1, by omega, by omega, by omega⟩, ht.2.1, by omega, by omega, by omega⟩, ?_⟩
            rw [e]; exact hp
          | L =>
            simp only at hd
            subst hd
            cases tl with
            | nil => simp only [Bal, height] at ht; omega
            | node ub ul uk uv ur =>
              refine ⟨_, rfl, ?_, by simp [toList_plug, lefts, rights, toList]⟩
              rw [bal_plug]
              simp only [Bal] at ht ⊢
              simp only [height] at ht hh ⊢
              have e : 1 + max (1 + max (height s) (height ul)) (1 + max (height ur) (height tr))
                  = 1 + max h (height s) := by
                omega
              refine ⟨⟨⟨hs, ht.1.1, by omega, by omega, by omega⟩,
                ⟨ht.1.2.1, ht.2.1, by omega, by omega, by omega⟩, by omega, by omega, by omega⟩, ?_⟩
              rw [e]; exact hp
        · simp only [h2, if_false]
          have hb0 : b = 0 := by omega
          subst hb0
          obtain ⟨t', e1, e2, e3⟩ := ih .R 1 s k v (.node tb tl tk tv tr) (1 + max h (height s))
            ⟨hs, ht, by omega, by omega, by omega⟩ (by simp only [height] at hh ⊢; omega) rfl hp
          exact ⟨t', e1, e2, by rw [e3]; simp [lefts, rights, toList]⟩

/-- Attaching a new leaf below a balanced position. -/
theorem insertSubnode_spec (f : Frame κ α) (p : Path κ α) (k : κ) (v : α)
    (hp : PathBal (f :: p) 0) :
    ∃ t', insertSubnode f p k v = some t' ∧ Bal t' ∧
      toList t' = lefts (f :: p) ++ (k, v) :: rights (f :: p) := by
  obtain ⟨d, b, nk, nv, s⟩ := f
  cases d with
  | L =>
    simp only [PathBal] at hp
    obtain ⟨hs, hb, hb1, hb2, hp⟩ := hp
    simp only [insertSubnode, plug1]
    by_cases h0 : b - 1 = 0
    · simp only [h0, ne_eq, not_true, if_false]
      refine ⟨_, rfl, ?_, by simp [toList_plug, lefts, rights, toList]⟩
      rw [bal_plug]
      simp only [Bal, height]
      refine ⟨⟨by simp, hs, by simp; omega, by omega, by omega⟩, ?_⟩
      have : 1 + max (1 + max 0 0) (height s) = 1 + max 0 (height s) := by omega
      rw [this]; exact hp
    · simp only [h0, ne_eq, not_false_iff, if_true]
      have hb0 : b = 0 := by omega
      subst hb0
      obtain ⟨t', e1, e2, e3⟩ := insertClimb_spec p .L (-1) (.node 0 .nil k v .nil) nk nv s
        (1 + max 0 (height s))
        (by simp only [Bal, height]; refine ⟨by simp, hs, by simp; omega, by omega, by omega⟩)
        (by simp only [height]; omega) rfl hp
      exact ⟨t', e1, e2, by rw [e3]; simp [lefts, rights, toList]⟩
  | R =>
    simp only [PathBal] at hp
    obtain ⟨hs, hb, hb1, hb2, hp⟩ := hp
    simp only [insertSubnode, plug1]
    by_cases h0 : b + 1 = 0
    · simp only [h0, ne_eq, not_true, if_false]
      refine ⟨_, rfl, ?_, by simp [toList_plug, lefts, rights, toList]⟩
      rw [bal_plug]
      simp only [Bal, height]
      refine ⟨⟨hs, by simp, by simp; omega, by omega, by omega⟩, ?_⟩
      have : 1 + max (height s) (1 + max 0 0) = 1 + max 0 (height s) := by omega
      rw [this]; exact hp
    · simp only [h0, ne_eq, not_false_iff, if_true]
      have hb0 : b = 0 := by omega
      subst hb0
      obtain ⟨t', e1, e2, e3⟩ := insertClimb_spec p .R 1 s nk nv (.node 0 .nil k v .nil)
        (1 + max 0 (height s))
        (by simp only [Bal, height]; refine ⟨hs, by simp, by simp; omega, by omega, by omega⟩)
        (by simp only [height]; omega) rfl hp
      exact ⟨t', e1, e2, by rw [e3]; simp [lefts, rights, toList]⟩

/-- The removal loop succeeds and restores the invariant. -/
theorem removeClimb_spec (p : Path κ α) (t : Tree κ α) (ht : Bal t)
    (hp : PathBal p (height t + 1)) :
    ∃ t', removeClimb p t = some t' ∧ Bal t' ∧ toList t' = lefts p ++ toList t ++ rights p := by
  induction p generalizing t with
  | nil => exact ⟨_, rfl, ht, by simp [lefts, rights]⟩
  | cons f p ih =>
    obtain ⟨d, b, k, v, s⟩ := f
    simp only [PathBal] at hp
    obtain ⟨hs, hb, hb1, hb2, hp⟩ := hp
    cases d with
    | L =>
      simp only at hb
      simp only [removeClimb, plug1]
      by_cases h1 : (b + 1).natAbs = 1
      · simp only [h1, if_true]
        refine ⟨_, rfl, ?_, by simp [toList_plug, lefts, rights, toList]⟩
        rw [bal_plug]
        simp only [Bal, height]
        refine ⟨⟨ht, hs, by omega, by omega, by omega⟩, ?_⟩
        have : 1 + max (height t) (height s) = 1 + max (height t + 1) (height s) := by omega
        rw [this]; exact hp
      · simp only [h1, if_false]
        by_cases h0 : b + 1 = 0
        · have : b = -1 := by omega
          subst this
          simp only [ne_eq, h0, not_true, if_false]
          obtain ⟨t', e1, e2, e3⟩ := ih (.node (-1 + 1) t k v s)
            ⟨ht, hs, by omega, by omega, by omega⟩ (by
              have e : height (Tree.node (-1 + 1) t k v s) + 1 = 1 + max (height t + 1) (height s) := by
                simp only [height]; omega
              rw [e]; exact hp)
          exact ⟨t', e1, e2, by rw [e3]; simp [lefts, rights, toList]⟩
        · have hb1' : b = 1 := by omega
          subst hb1'
          simp only [ne_eq, h0, not_false_iff, if_true, show (1 : Int) + 1 > 0 by omega]
          cases s with
          | nil => simp only [height] at hb; omega
          | node rb rl rk rv rr =>
            simp only [rightBalance, Option.bind_some]
            simp only [Bal] at hs
            simp only [height] at hb hp
            by_cases hrb : rb ≥ 0
            · simp only [hrb, if_true, rotateLeft, Option.bind_some]
              by_cases hrb0 : rb = 0
              · subst hrb0
                simp only [if_true]
                refine ⟨_, rfl, ?_, by simp [toList_plug, lefts, rights, toList]⟩
                rw [bal_plug]
                simp only [Bal, height]
                refine ⟨⟨⟨ht, hs.1, by omega, by omega, by omega⟩, hs.2.1, by omega, by omega, by omega⟩, ?_⟩
                have e : 1 + max (1 + max (height t) (height rl)) (height rr)
                    = 1 + max (height t + 1) (1 + max (height rl) (height rr)) := by omega
                rw [e]; exact hp
              · simp only [hrb0, if_false]
                obtain ⟨t', e1, e2, e3⟩ := ih (.node (rb - 1) (.node (-(rb - 1)) t k v rl) rk rv rr)
                  (by simp only [Bal, height]
                      exact ⟨⟨ht, hs.1, by omega, by omega, by omega⟩, hs.2.1, by omega, by omega, by omega⟩)
                  (by
                    have e : height (Tree.node (rb - 1) (.node (-(rb - 1)) t k v rl) rk rv rr) + 1
                        = 1 + max (height t + 1) (1 + max (height rl) (height rr)) := by
                      simp only [height]; omega
                    rw [e]; exact hp)
                exact ⟨t', e1, e2, by rw [e3]; simp [lefts, rights, toList]⟩
            · simp only [hrb, if_false]
              cases rl with
              | nil => simp only [height] at hs; omega
              | node ub ul uk uv ur =>
                simp only [zigZagLeft, Option.bind_some]
                simp only [Bal, height] at hs
                simp only [height] at hb hp
                obtain ⟨t', e1, e2, e3⟩ := ih
                  (.node 0 (.node (-(max ub 0)) t k v ul) uk uv (.node (-(min ub 0)) ur rk rv rr))
                  (by simp only [Bal, height]
                      exact ⟨⟨ht, hs.1.1, by omega, by omega, by omega⟩,
                        ⟨hs.1.2.1, hs.2.1, by omega, by omega, by omega⟩, by omega, by omega, by omega⟩)
                  (by
                    have e : height (Tree.node 0 (.node (-(max ub 0)) t k v ul) uk uv
                          (.node (-(min ub 0)) ur rk rv rr)) + 1
                        = 1 + max (height t + 1) (1 + max (1 + max (height ul) (height ur)) (height rr)) := by
                      simp only [height]; omega
                    rw [e]; exact hp)
                exact ⟨t', e1, e2, by rw [e3]; simp [lefts, rights, toList]⟩
    | R =>
      simp only at hb
      simp only [removeClimb, plug1]
      by_cases h1 : (b - 1).natAbs = 1
      · simp only [h1, if_true]
        refine ⟨_, rfl, ?_, by simp [toList_plug, lefts, rights, toList]⟩
        rw [bal_plug]
        simp only [Bal, height]
        refine ⟨⟨hs, ht, by omega, by omega, by omega⟩, ?_⟩
        have : 1 + max (height s) (height t) = 1 + max (height t + 1) (height s) := by omega
        rw [this]; exact hp
      · simp only [h1, if_false]
        by_cases h0 : b - 1 = 0
        · have : b = 1 := by omega
          subst this
          simp only [ne_eq, h0, not_true, if_false]
          obtain ⟨t', e1, e2, e3⟩ := ih (.node (1 - 1) s k v t)
            ⟨hs, ht, by omega, by omega, by omega⟩ (by
              have e : height (Tree.node (1 - 1) s k v t) + 1 = 1 + max (height t + 1) (height s) := by
                simp only [height]; omega
              rw [e]; exact hp)
          exact ⟨t', e1, e2, by rw [e3]; simp [lefts, rights, toList]⟩
        · have hb1' : b = -1 := by omega
          subst hb1'
          simp only [ne_eq, h0, not_false_iff, if_true, show ¬ ((-1 : Int) - 1 > 0) by omega, if_false]
          cases s with
          | nil => simp only [height] at hb; omega
          | node lb ll lk lv lr =>
            simp only [leftBalance, Option.bind_some]
            simp only [Bal] at hs
            simp only [height] at hb hp
            by_cases hlb : lb ≤ 0
            · simp only [hlb, if_true, rotateRight, Option.bind_some]
              by_cases hlb0 : lb = 0
              · subst hlb0
                simp only [if_true]
                refine ⟨_, rfl, ?_, by simp [toList_plug, lefts, rights, toList]⟩
                rw [bal_plug]
                simp only [Bal, height]
                refine ⟨⟨hs.1, ⟨hs.2.1, ht, by omega, by omega, by omega⟩, by omega, by omega, by omega⟩, ?_⟩
                have e : 1 + max (height ll) (1 + max (height lr) (height t))
                    = 1 + max (height t + 1) (1 + max (height ll) (height lr)) := by omega
                rw [e]; exact hp
              · simp only [hlb0, if_false]
                obtain ⟨t', e1, e2, e3⟩ := ih (.node (lb + 1) ll lk lv (.node (-(lb + 1)) lr k v t))
                  (by simp only [Bal, height]
                      exact ⟨hs.1, ⟨hs.2.1, ht, by omega, by omega, by omega⟩, by omega, by omega, by omega⟩)
                  (by
                    have e : height (Tree.node (lb + 1) ll lk lv (.node (-(lb + 1)) lr k v t)) + 1
                        = 1 + max (height t + 1) (1 + max (height ll) (height lr)) := by
                      simp only [height]; omega
                    rw [e]; exact hp)
                exact ⟨t', e1, e2, by rw [e3]; simp [lefts, rights, toList]⟩
            · simp only [hlb, if_false]
              cases lr with
              | nil => simp only [height] at hs; omega
              | node ub ul uk uv ur =>
                simp only [zigZagRight, Option.bind_some]
                simp only [Bal, height] at hs
                simp only [height] at hb hp
                obtain ⟨t', e1, e2, e3⟩ := ih
                  (.node 0 (.node (-(max ub 0)) ll lk lv ul) uk uv (.node (-(min ub 0)) ur k v t))
                  (by simp only [Bal, height]
                      exact ⟨⟨hs.1, hs.2.1.1, by omega, by omega, by omega⟩,
                        ⟨hs.2.1.2.1, ht, by omega, by omega, by omega⟩, by omega, by omega, by omega⟩)
                  (by
                    have e : height (Tree.node 0 (.node (-(max ub 0)) ll lk lv ul) uk uv
                          (.node (-(min ub 0)) ur k v t)) + 1
                        = 1 + max (height t + 1) (1 + max (height ll) (1 + max (height ul) (height ur))) := by
                      simp only [height]; omega
                    rw [e]; exact hp)
                exact ⟨t', e1, e2, by rw [e3]; simp [lefts, rights, toList]⟩

end Verif.Map
