import Verif.Model.MapCost
import Verif.Lemmas.MapIter

/-!
# The counted functions of the map: same results, and their numbers of steps
-/

namespace Verif.MapCost

open Verif.Map

variable {κ α : Type}

/-! ### Same results -/

theorem firstPos_fst (t : Tree κ α) (p : Path κ α) : (firstPos t p).1 = Map.firstPos t p := by
  induction t generalizing p with
  | nil => rfl
  | node b l k v r ihl _ =>
    cases l with
    | nil => rfl
    | node lb ll lk lv lr => simp only [firstPos, Map.firstPos]; exact ihl _

theorem lastPos_fst (t : Tree κ α) (p : Path κ α) : (lastPos t p).1 = Map.lastPos t p := by
  induction t generalizing p with
  | nil => rfl
  | node b l k v r _ ihr =>
    cases r with
    | nil => rfl
    | node lb ll lk lv lr => simp only [lastPos, Map.lastPos]; exact ihr _

theorem climbNext_fst (p : Path κ α) (t : Tree κ α) : (climbNext p t).1 = Map.climbNext p t := by
  induction p generalizing t with
  | nil => rfl
  | cons f p ih => obtain ⟨d, b, k, v, s⟩ := f; cases d <;> simp [climbNext, Map.climbNext, ih]

theorem climbPrev_fst (p : Path κ α) (t : Tree κ α) : (climbPrev p t).1 = Map.climbPrev p t := by
  induction p generalizing t with
  | nil => rfl
  | cons f p ih => obtain ⟨d, b, k, v, s⟩ := f; cases d <;> simp [climbPrev, Map.climbPrev, ih]

theorem nextPos_fst (z : Pos κ α) : (nextPos z).1 = Map.nextPos z := by
  obtain ⟨p, b, l, k, v, r⟩ := z
  cases r <;> simp [nextPos, Map.nextPos, firstPos_fst, climbNext_fst]

theorem prevPos_fst (z : Pos κ α) : (prevPos z).1 = Map.prevPos z := by
  obtain ⟨p, b, l, k, v, r⟩ := z
  cases l <;> simp [prevPos, Map.prevPos, lastPos_fst, climbPrev_fst]

theorem descend_fst (lt : κ → κ → Bool) (k : κ) (t : Tree κ α) (p : Path κ α) :
    (descend lt k t p).1 = Map.descend lt k t p := by
  induction t generalizing p with
  | nil => rfl
  | node b l nk nv r ihl ihr =>
    simp only [descend, Map.descend]
    split
    · exact ihl _
    · split
      · exact ihr _
      · rfl

theorem insertClimb_fst (d : Dir) (p : Path κ α) (t : Tree κ α) :
    (insertClimb d p t).1 = Map.insertClimb d p t := by
  induction p generalizing t d with
  | nil => rfl
  | cons f p ih =>
    obtain ⟨d', b, k, v, s⟩ := f
    cases d' <;> cases d <;> simp only [insertClimb, Map.insertClimb]
    all_goals
      split
      · rfl
      · split
        · rfl
        · exact ih _ _

theorem insertSubnode_fst (f : Frame κ α) (p : Path κ α) (k : κ) (v : α) :
    (insertSubnode f p k v).1 = Map.insertSubnode f p k v := by
  obtain ⟨d', b, fk, fv, s⟩ := f
  cases d' <;> simp only [insertSubnode, Map.insertSubnode]
  all_goals
    split
    · exact insertClimb_fst _ _ _
    · rfl

theorem insertMapElement_fst (lt : κ → κ → Bool) (t : Tree κ α) (k : κ) (v : α) :
    (insertMapElement lt t k v).1 = Map.insertMapElement lt t k v := by
  simp only [insertMapElement, Map.insertMapElement, ← descend_fst]
  rcases h : descend lt k t [] with ⟨_ | _ | ⟨f, p⟩, n⟩
  · rfl
  · rfl
  · simp [insertSubnode_fst]

theorem removeClimb_fst (p : Path κ α) (t : Tree κ α) : (removeClimb p t).1 = Map.removeClimb p t := by
  induction p generalizing t with
  | nil => rfl
  | cons f p ih =>
    have key : ∀ (b : Int) (node : Tree κ α), (if b.natAbs = 1 then (some (plug p node), 1)
      else if b ≠ 0 then
        if b > 0 then
          match rightBalance node with
          | none => (none, 1)
          | some rb =>
              if rb ≥ 0 then
                match rotateLeft node with
                | none => (none, 1)
                | some n =>
                    if rb = 0 then (some (plug p n), 2)
                    else ((removeClimb p n).1, (removeClimb p n).2 + 2)
              else
                match zigZagLeft node with
                | none => (none, 1)
                | some n => ((removeClimb p n).1, (removeClimb p n).2 + 2)
        else
          match leftBalance node with
          | none => (none, 1)
          | some lb =>
              if lb ≤ 0 then
                match rotateRight node with
                | none => (none, 1)
                | some n =>
                    if lb = 0 then (some (plug p n), 2)
                    else ((removeClimb p n).1, (removeClimb p n).2 + 2)
              else
                match zigZagRight node with
                | none => (none, 1)
                | some n => ((removeClimb p n).1, (removeClimb p n).2 + 2)
      else ((removeClimb p node).1, (removeClimb p node).2 + 1) : Option (Tree κ α) × Nat).1
      = if b.natAbs = 1 then some (plug p node)
      else if b ≠ 0 then
        if b > 0 then
          (rightBalance node).bind fun rb =>
            if rb ≥ 0 then
              (rotateLeft node).bind fun n =>
                if rb = 0 then some (plug p n) else Map.removeClimb p n
            else (zigZagLeft node).bind fun n => Map.removeClimb p n
        else
          (leftBalance node).bind fun lb =>
            if lb ≤ 0 then
              (rotateRight node).bind fun n =>
                if lb = 0 then some (plug p n) else Map.removeClimb p n
            else (zigZagRight node).bind fun n => Map.removeClimb p n
      else Map.removeClimb p node := by
      intro b node
      split
      · rfl
      · split
        · split
          · cases rightBalance node with
            | none => rfl
            | some rb =>
              simp only [Option.bind_some]
              split
              · cases rotateLeft node with
                | none => rfl
                | some n =>
                  simp only [Option.bind_some]
                  split
                  · rfl
                  · exact ih _
              · cases zigZagLeft node with
                | none => rfl
                | some n => simp only [Option.bind_some]; exact ih _
          · cases leftBalance node with
            | none => rfl
            | some rb =>
              simp only [Option.bind_some]
              split
              · cases rotateRight node with
                | none => rfl
                | some n =>
                  simp only [Option.bind_some]
                  split
                  · rfl
                  · exact ih _
              · cases zigZagRight node with
                | none => rfl
                | some n => simp only [Option.bind_some]; exact ih _
        · exact ih _
    exact key _ _

theorem firstElement_fst (t : Tree κ α) (p : Path κ α) : (firstElement t p).1 = Map.firstElement t p := by
  induction t generalizing p with
  | nil => rfl
  | node b l k v r ihl _ =>
    cases l with
    | nil => rfl
    | node lb ll lk lv lr => simp only [firstElement, Map.firstElement]; exact ihl _

theorem removeAt_fst [DecidableEq κ] (p : Path κ α) (b : Int) (l : Tree κ α) (k : κ) (v : α) (r : Tree κ α) :
    (removeAt p b l k v r).1 = Map.removeAt p b l k v r := by
  cases l with
  | nil => simp [removeAt, Map.removeAt, removeBranchNode, removeClimb_fst]
  | node lb ll lk lv lr =>
    cases r with
    | nil => simp [removeAt, Map.removeAt, removeBranchNode, removeClimb_fst]
    | node rb rl rk rv rr =>
      simp only [removeAt, Map.removeAt, removeBranchNode, ← firstElement_fst]
      rcases firstElement (.node rb rl rk rv rr) (⟨.R, b, k, v, .node lb ll lk lv lr⟩ :: p) with
        ⟨_ | ⟨pt, tk, tv, tr⟩, n⟩
      · rfl
      · simp [removeClimb_fst]

theorem locate_fst (lt : κ → κ → Bool) (k : κ) (t : Tree κ α) (p : Path κ α) :
    (locate lt k t p).1 = Map.locate lt k t p := by
  induction t generalizing p with
  | nil => rfl
  | node b l nk nv r ihl ihr =>
    simp only [locate, Map.locate]
    split
    · exact ihl _
    · split
      · exact ihr _
      · rfl

theorem removeMapElement_fst [DecidableEq κ] (lt : κ → κ → Bool) (t : Tree κ α) (k : κ) :
    (removeMapElement lt t k).1 = Map.removeMapElement lt t k := by
  simp only [removeMapElement, Map.removeMapElement, ← locate_fst]
  rcases locate lt k t [] with ⟨_ | ⟨p, b, l, nk, nv, r⟩, n⟩
  · rfl
  · simp [removeAt_fst]

/-! ### Steps of an iteration -/

/-- Steps still to be taken when the subtree below a path has been visited. -/
def restNext : Path κ α → Nat
  | [] => 1
  | f :: p => match f.dir with
      | .L => 1 + 2 * size f.sibling + restNext p
      | .R => 1 + restNext p

/-- The same for the other direction. -/
def restPrev : Path κ α → Nat
  | [] => 1
  | f :: p => match f.dir with
      | .R => 1 + 2 * size f.sibling + restPrev p
      | .L => 1 + restPrev p

/-- Steps still to be taken from an element on. -/
def toGo : Option (Pos κ α) → Nat
  | none => 0
  | some z => 2 * size z.right + restNext z.path

def toGoBack : Option (Pos κ α) → Nat
  | none => 0
  | some z => 2 * size z.left + restPrev z.path

theorem firstPos_steps (t : Tree κ α) (p : Path κ α) (h : t ≠ .nil) :
    (firstPos t p).2 + toGo (firstPos t p).1 + 1 = 2 * size t + restNext p := by
  induction t generalizing p with
  | nil => exact absurd rfl h
  | node b l k v r ihl _ =>
    cases l with
    | nil => simp [firstPos, toGo, size]; omega
    | node lb ll lk lv lr =>
      have := ihl (⟨.L, b, k, v, r⟩ :: p) (by simp)
      simp only [firstPos, size, restNext] at this ⊢
      omega

theorem lastPos_steps (t : Tree κ α) (p : Path κ α) (h : t ≠ .nil) :
    (lastPos t p).2 + toGoBack (lastPos t p).1 + 1 = 2 * size t + restPrev p := by
  induction t generalizing p with
  | nil => exact absurd rfl h
  | node b l k v r _ ihr =>
    cases r with
    | nil => simp [lastPos, toGoBack, size]; omega
    | node lb ll lk lv lr =>
      have := ihr (⟨.R, b, k, v, l⟩ :: p) (by simp)
      simp only [lastPos, size, restPrev] at this ⊢
      omega

theorem climbNext_steps (p : Path κ α) (t : Tree κ α) :
    (climbNext p t).2 + toGo (climbNext p t).1 = restNext p := by
  induction p generalizing t with
  | nil => rfl
  | cons f p ih =>
    obtain ⟨d, b, k, v, s⟩ := f
    cases d
    · simp [climbNext, toGo, restNext]; omega
    · have := ih (plug1 ⟨.R, b, k, v, s⟩ t)
      simp only [climbNext, restNext] at this ⊢
      omega

theorem climbPrev_steps (p : Path κ α) (t : Tree κ α) :
    (climbPrev p t).2 + toGoBack (climbPrev p t).1 = restPrev p := by
  induction p generalizing t with
  | nil => rfl
  | cons f p ih =>
    obtain ⟨d, b, k, v, s⟩ := f
    cases d
    · have := ih (plug1 ⟨.L, b, k, v, s⟩ t)
      simp only [climbPrev, restPrev] at this ⊢
      omega
    · simp [climbPrev, toGoBack, restPrev]; omega

theorem nextPos_steps (z : Pos κ α) : (nextPos z).2 + toGo (nextPos z).1 = toGo (some z) := by
  obtain ⟨p, b, l, k, v, r⟩ := z
  cases r with
  | nil => simpa [nextPos, toGo, size] using climbNext_steps p (.node b l k v .nil)
  | node rb rl rk rv rr =>
    have := firstPos_steps (.node rb rl rk rv rr) (⟨.R, b, k, v, l⟩ :: p) (by simp)
    simp only [nextPos, restNext] at this ⊢
    simp only [show toGo (some ⟨p, b, l, k, v, .node rb rl rk rv rr⟩)
      = 2 * size (Tree.node rb rl rk rv rr) + restNext p from rfl]
    omega

theorem prevPos_steps (z : Pos κ α) : (prevPos z).2 + toGoBack (prevPos z).1 = toGoBack (some z) := by
  obtain ⟨p, b, l, k, v, r⟩ := z
  cases l with
  | nil => simpa [prevPos, toGoBack, size] using climbPrev_steps p (.node b .nil k v r)
  | node rb rl rk rv rr =>
    have := lastPos_steps (.node rb rl rk rv rr) (⟨.L, b, k, v, r⟩ :: p) (by simp)
    simp only [prevPos, restPrev] at this ⊢
    simp only [show toGoBack (some ⟨p, b, .node rb rl rk rv rr, k, v, r⟩)
      = 2 * size (Tree.node rb rl rk rv rr) + restPrev p from rfl]
    omega

theorem iterate_next (n : Nat) (z : Option (Pos κ α)) (h : (fromPos z).length ≤ n) :
    iterate nextPos n z = .ok (fromPos z, toGo z) := by
  induction n generalizing z with
  | zero => cases z <;> simp_all [iterate, fromPos, toGo]
  | succ n ih =>
    cases z with
    | none => simp [iterate, fromPos, toGo]
    | some z =>
      have hl : (fromPos (nextPos z).1).length ≤ n := by
        rw [nextPos_fst, fromPos_nextPos]; simpa [fromPos] using h
      rw [iterate, ih _ hl]
      simp only [Out.bind, nextPos_steps]
      rw [nextPos_fst, fromPos_nextPos]; simp [fromPos]

theorem iterate_prev (n : Nat) (z : Option (Pos κ α)) (h : (uptoPos z).length ≤ n) :
    iterate prevPos n z = .ok (uptoPos z, toGoBack z) := by
  induction n generalizing z with
  | zero => cases z <;> simp_all [iterate, uptoPos, toGoBack]
  | succ n ih =>
    cases z with
    | none => simp [iterate, uptoPos, toGoBack]
    | some z =>
      have hl : (uptoPos (prevPos z).1).length ≤ n := by
        rw [prevPos_fst, uptoPos_prevPos]; simpa [uptoPos] using h
      rw [iterate, ih _ hl]
      simp only [Out.bind, prevPos_steps]
      rw [prevPos_fst, uptoPos_prevPos]; simp [uptoPos]

theorem forward_run (t : Tree κ α) : forward t = .ok (toList t, 2 * size t) := by
  unfold forward
  rw [iterate_next _ _ (by rw [firstPos_fst, fromPos_first, size_eq]; omega)]
  simp only [Out.bind]
  rw [show fromPos (firstPos t []).1 = toList t by rw [firstPos_fst, fromPos_first]]
  cases t with
  | nil => rfl
  | node b l k v r =>
    have := firstPos_steps (.node b l k v r) [] (by simp)
    rw [show (firstPos (.node b l k v r) []).2 + toGo (firstPos (.node b l k v r) []).1
      = 2 * size (.node b l k v r) by simp only [restNext] at this; omega]

theorem backward_run (t : Tree κ α) : backward t = .ok ((toList t).reverse, 2 * size t) := by
  unfold backward
  rw [iterate_prev _ _ (by rw [lastPos_fst, uptoPos_last, size_eq]; simp)]
  simp only [Out.bind]
  rw [show uptoPos (lastPos t []).1 = (toList t).reverse by rw [lastPos_fst, uptoPos_last]]
  cases t with
  | nil => rfl
  | node b l k v r =>
    have := lastPos_steps (.node b l k v r) [] (by simp)
    rw [show (lastPos (.node b l k v r) []).2 + toGoBack (lastPos (.node b l k v r) []).1
      = 2 * size (.node b l k v r) by simp only [restPrev] at this; omega]

theorem indexLoop_run (n i : Nat) (z : Option (Pos κ α)) (h : (fromPos z).length ≤ n) :
    ∃ s, indexLoop n i z = .ok ((fromPos z)[i]?, s) ∧ s ≤ toGo z := by
  induction n generalizing z i with
  | zero => cases z <;> simp_all [indexLoop, fromPos, toGo]
  | succ n ih =>
    cases z with
    | none => exact ⟨0, by simp [indexLoop, fromPos], by simp⟩
    | some z =>
      have hl : (fromPos (nextPos z).1).length ≤ n := by
        rw [nextPos_fst, fromPos_nextPos]; simpa [fromPos] using h
      cases i with
      | zero => exact ⟨0, by simp [indexLoop, fromPos], by simp⟩
      | succ i =>
        obtain ⟨s, e, hs⟩ := ih i _ hl
        refine ⟨(nextPos z).2 + s, ?_, ?_⟩
        · simp only [indexLoop, Nat.succ_ne_zero, if_false, Nat.add_sub_cancel, e, Out.bind]
          rw [nextPos_fst, fromPos_nextPos]; simp [fromPos]
        · have := nextPos_steps z; omega

theorem index_run (t : Tree κ α) (i : Nat) : ∃ s, index t i = .ok ((toList t)[i]?, s) ∧ s ≤ 2 * size t := by
  obtain ⟨s, e, hs⟩ := indexLoop_run (size t) i (firstPos t []).1
    (by rw [firstPos_fst, fromPos_first, size_eq]; omega)
  refine ⟨(firstPos t []).2 + s, ?_, ?_⟩
  · simp only [index, e, Out.bind]
    rw [firstPos_fst, fromPos_first]
  · cases t with
    | nil => simp [firstPos, toGo, size] at hs ⊢; exact hs
    | node b l k v r =>
      have := firstPos_steps (.node b l k v r) [] (by simp)
      simp only [restNext] at this
      omega

/-! ### Steps of one call -/

theorem firstPos_height (t : Tree κ α) (p : Path κ α) : (firstPos t p).2 ≤ height t := by
  induction t generalizing p with
  | nil => simp [firstPos]
  | node b l k v r ihl _ =>
    cases l with
    | nil => simp only [firstPos, height]; omega
    | node lb ll lk lv lr =>
      have := ihl (⟨.L, b, k, v, r⟩ :: p)
      simp only [firstPos]
      rw [height]
      omega

theorem lastPos_height (t : Tree κ α) (p : Path κ α) : (lastPos t p).2 ≤ height t := by
  induction t generalizing p with
  | nil => simp [lastPos]
  | node b l k v r _ ihr =>
    cases r with
    | nil => simp only [lastPos, height]; omega
    | node lb ll lk lv lr =>
      have := ihr (⟨.R, b, k, v, l⟩ :: p)
      simp only [lastPos]
      rw [height]
      omega

theorem climbNext_length (p : Path κ α) (t : Tree κ α) : (climbNext p t).2 ≤ p.length + 1 := by
  induction p generalizing t with
  | nil => simp [climbNext]
  | cons f p ih =>
    obtain ⟨d, b, k, v, s⟩ := f
    cases d
    · simp [climbNext]
    · have := ih (plug1 ⟨.R, b, k, v, s⟩ t)
      simp only [climbNext, List.length_cons]; omega

theorem climbPrev_length (p : Path κ α) (t : Tree κ α) : (climbPrev p t).2 ≤ p.length + 1 := by
  induction p generalizing t with
  | nil => simp [climbPrev]
  | cons f p ih =>
    obtain ⟨d, b, k, v, s⟩ := f
    cases d
    · have := ih (plug1 ⟨.L, b, k, v, s⟩ t)
      simp only [climbPrev, List.length_cons]; omega
    · simp [climbPrev]

theorem path_height (p : Path κ α) (t : Tree κ α) : p.length + height t ≤ height (plug p t) := by
  induction p generalizing t with
  | nil => simp [plug]
  | cons f p ih =>
    have := ih (plug1 f t)
    have h1 : 1 + height t ≤ height (plug1 f t) := by
      obtain ⟨d, b, k, v, s⟩ := f
      cases d <;> simp only [plug1, height] <;> omega
    simp only [plug, List.length_cons]
    omega

theorem nextPos_height (z : Pos κ α) :
    (nextPos z).2 ≤ height (plug z.path (.node z.balance z.left z.key z.val z.right)) := by
  obtain ⟨p, b, l, k, v, r⟩ := z
  have h := path_height p (.node b l k v r)
  cases r with
  | nil =>
    have := climbNext_length p (.node b l k v .nil)
    simp only [nextPos, height] at *
    omega
  | node rb rl rk rv rr =>
    have := firstPos_height (.node rb rl rk rv rr) (⟨.R, b, k, v, l⟩ :: p)
    simp only [nextPos]
    rw [height] at h
    omega

theorem prevPos_height (z : Pos κ α) :
    (prevPos z).2 ≤ height (plug z.path (.node z.balance z.left z.key z.val z.right)) := by
  obtain ⟨p, b, l, k, v, r⟩ := z
  have h := path_height p (.node b l k v r)
  cases l with
  | nil =>
    have := climbPrev_length p (.node b .nil k v r)
    simp only [prevPos, height] at *
    omega
  | node rb rl rk rv rr =>
    have := lastPos_height (.node rb rl rk rv rr) (⟨.L, b, k, v, r⟩ :: p)
    simp only [prevPos]
    rw [height] at h
    omega

theorem descend_height (lt : κ → κ → Bool) (k : κ) (t : Tree κ α) (p : Path κ α) :
    (descend lt k t p).2 ≤ height t ∧
      ∀ q, (descend lt k t p).1 = some q → q.length ≤ p.length + (descend lt k t p).2 := by
  induction t generalizing p with
  | nil => simp [descend]
  | node b l nk nv r ihl ihr =>
    simp only [descend, height]
    split
    · obtain ⟨h1, h2⟩ := ihl (⟨.L, b, nk, nv, r⟩ :: p)
      exact ⟨by dsimp only; omega, fun q hq => by have := h2 q hq; simp only [List.length_cons] at this; omega⟩
    · split
      · obtain ⟨h1, h2⟩ := ihr (⟨.R, b, nk, nv, l⟩ :: p)
        exact ⟨by dsimp only; omega, fun q hq => by have := h2 q hq; simp only [List.length_cons] at this; omega⟩
      · exact ⟨by dsimp only; omega, by simp⟩

theorem insertClimb_length (d : Dir) (p : Path κ α) (t : Tree κ α) : (insertClimb d p t).2 ≤ p.length + 1 := by
  induction p generalizing t d with
  | nil => simp [insertClimb]
  | cons f p ih =>
    obtain ⟨d', b, k, v, s⟩ := f
    cases d' <;> simp only [insertClimb, List.length_cons]
    all_goals
      split
      · simp
      · split
        · simp
        · refine Nat.succ_le_succ (ih _ _)

theorem insert_height (lt : κ → κ → Bool) (t : Tree κ α) (k : κ) (v : α) :
    (insertMapElement lt t k v).2 ≤ 2 * height t := by
  obtain ⟨h1, h2⟩ := descend_height lt k t []
  simp only [insertMapElement]
  rcases h : descend lt k t [] with ⟨_ | _ | ⟨f, p⟩, n⟩
  · simp only [h] at h1; simp only; omega
  · simp only [h] at h1; simp only; omega
  · simp only [h] at h1 h2
    have h3 := h2 _ rfl
    simp only [List.length_cons, List.length_nil] at h3
    have h4 : (insertSubnode f p k v).2 ≤ p.length + 1 := by
      obtain ⟨d', b, fk, fv, s⟩ := f
      cases d' <;> simp only [insertSubnode]
      all_goals
        split
        · exact insertClimb_length _ _ _
        · simp
    simp only
    omega

theorem removeClimb_length (p : Path κ α) (t : Tree κ α) : (removeClimb p t).2 ≤ 2 * p.length := by
  induction p generalizing t with
  | nil => simp [removeClimb]
  | cons f p ih =>
    have step : ∀ (n : Tree κ α) (x : Nat), x ≤ 2 → (removeClimb p n).2 + x ≤ 2 * (p.length + 1) := by
      intro n x hx
      have := ih n
      omega
    obtain ⟨d', b, k, v, s⟩ := f
    cases d' <;> simp only [removeClimb, List.length_cons]
    all_goals
      repeat' split
      all_goals first
        | exact step _ _ (by omega)
        | (simp only; omega)

theorem firstElement_height (t : Tree κ α) (p : Path κ α) :
    (firstElement t p).2 ≤ height t ∧
      ∀ x, (firstElement t p).1 = some x → x.1.length + 1 = p.length + (firstElement t p).2 := by
  induction t generalizing p with
  | nil => simp [firstElement]
  | node b l k v r ihl _ =>
    cases l with
    | nil => simp only [firstElement, height]; exact ⟨by omega, by rintro x ⟨⟩; rfl⟩
    | node lb ll lk lv lr =>
      obtain ⟨h1, h2⟩ := ihl (⟨.L, b, k, v, r⟩ :: p)
      simp only [firstElement]
      rw [height]
      exact ⟨by omega, fun x hx => by have := h2 x hx; simp only [List.length_cons] at this; omega⟩

theorem locate_height (lt : κ → κ → Bool) (k : κ) (t : Tree κ α) (p : Path κ α) :
    (locate lt k t p).2 ≤ height t ∧ ∀ q b l nk nv r, (locate lt k t p).1 = some (q, b, l, nk, nv, r) →
      q.length + 1 = p.length + (locate lt k t p).2 ∧
        (locate lt k t p).2 + max (height l) (height r) ≤ height t := by
  induction t generalizing p with
  | nil => simp [locate]
  | node b l nk nv r ihl ihr =>
    simp only [locate, height]
    split
    · obtain ⟨h1, h2⟩ := ihl (⟨.L, b, nk, nv, r⟩ :: p)
      refine ⟨by dsimp only; omega, fun q b l nk nv r hq => ?_⟩
      have := h2 _ _ _ _ _ _ hq
      simp only [List.length_cons] at this
      omega
    · split
      · obtain ⟨h1, h2⟩ := ihr (⟨.R, b, nk, nv, l⟩ :: p)
        refine ⟨by dsimp only; omega, fun q b l nk nv r hq => ?_⟩
        have := h2 _ _ _ _ _ _ hq
        simp only [List.length_cons] at this
        omega
      · refine ⟨by dsimp only; omega, ?_⟩
        rintro q b' l' nk' nv' r' ⟨⟩
        exact ⟨rfl, Nat.le_refl _⟩

theorem remove_height [DecidableEq κ] (lt : κ → κ → Bool) (t : Tree κ α) (k : κ) :
    (removeMapElement lt t k).2 ≤ 3 * height t := by
  obtain ⟨h1, h2⟩ := locate_height lt k t []
  simp only [removeMapElement]
  rcases h : locate lt k t [] with ⟨_ | ⟨p, b, l, nk, nv, r⟩, n⟩
  · simp only [h] at h1; simp only; omega
  · simp only [h] at h1 h2
    obtain ⟨h3, h4⟩ := h2 _ _ _ _ _ _ rfl
    simp only [List.length_nil] at h3
    simp only
    cases l with
    | nil =>
      have := removeClimb_length p r
      simp only [removeAt]; omega
    | node lb ll lk lv lr =>
      cases r with
      | nil =>
        have := removeClimb_length p (.node lb ll lk lv lr)
        simp only [removeAt]; omega
      | node rb rl rk rv rr =>
        obtain ⟨h5, h6⟩ := firstElement_height (.node rb rl rk rv rr) (⟨.R, b, nk, nv, .node lb ll lk lv lr⟩ :: p)
        simp only [removeAt]
        rcases h' : firstElement (.node rb rl rk rv rr) (⟨.R, b, nk, nv, .node lb ll lk lv lr⟩ :: p) with
          ⟨_ | ⟨pt, tk, tv, tr⟩, m⟩
        · simp only [h'] at h5; simp only; omega
        · simp only [h'] at h5 h6
          have h7 := h6 _ rfl
          simp only [List.length_cons] at h7
          have := removeClimb_length pt tr
          simp only
          omega

/-! ### Emptying -/

theorem emptySubtree_spec (t : Tree κ α) :
    (emptySubtree t).order.Perm (toList t) ∧ (emptySubtree t).calls = size t ∧
      (emptySubtree t).depth = height t := by
  induction t with
  | nil => simp [emptySubtree, toList, size, height]
  | node b l k v r ihl ihr =>
    obtain ⟨a1, a2, a3⟩ := ihl
    obtain ⟨b1, b2, b3⟩ := ihr
    refine ⟨?_, by simp only [emptySubtree, size]; omega, by simp only [emptySubtree, height]; omega⟩
    simp only [emptySubtree, toList, List.append_assoc]
    refine a1.append ?_
    exact (List.perm_append_comm).trans (List.Perm.cons _ b1)

end Verif.MapCost
