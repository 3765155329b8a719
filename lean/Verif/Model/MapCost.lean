import Verif.Model.Map

/-!
# The functions of `Terathon::Map` with their numbers of steps

Every function of `Verif.Map` that contains a loop, with the number of steps it takes. A step is one round of one of
the loops (a round looks at one node and at its direct neighbours), one rotation, or one call of a recursive function.
What happens between two steps takes a bounded time. The results are those of `Verif.Map`, which is proved in
`Verif.Lemmas.MapCost`.
-/

namespace Verif.MapCost

open Verif.Map

variable {κ α : Type}

/-- `GetFirstMapElement`, TSMap.cpp:33-48: one round for each node down to the leftmost. For an empty map the
function of the map (TSMap.h:133-136) does not call it. -/
def firstPos : Tree κ α → Path κ α → Option (Pos κ α) × Nat
  | .nil, _ => (none, 0)
  | .node b .nil k v r, p => (some ⟨p, b, .nil, k, v, r⟩, 1)
  | .node b (.node lb ll lk lv lr) k v r, p =>
      let (z, n) := firstPos (.node lb ll lk lv lr) (⟨.L, b, k, v, r⟩ :: p)
      (z, n + 1)

/-- `GetLastMapElement`, TSMap.cpp:50-65. -/
def lastPos : Tree κ α → Path κ α → Option (Pos κ α) × Nat
  | .nil, _ => (none, 0)
  | .node b l k v .nil, p => (some ⟨p, b, l, k, v, .nil⟩, 1)
  | .node b l k v (.node rb rl rk rv rr), p =>
      let (z, n) := lastPos (.node rb rl rk rv rr) (⟨.R, b, k, v, l⟩ :: p)
      (z, n + 1)

/-- The upward loop of `GetNextMapElement`, TSMap.cpp:102-116. The round that finds no `super` counts too. -/
def climbNext : Path κ α → Tree κ α → Option (Pos κ α) × Nat
  | [], _ => (none, 1)
  | f :: p, t =>
      match f.dir with
      | .L => (some ⟨p, f.balance, t, f.key, f.val, f.sibling⟩, 1)
      | .R =>
          let (z, n) := climbNext p (plug1 f t)
          (z, n + 1)

/-- The upward loop of `GetPreviousMapElement`, TSMap.cpp:75-89. -/
def climbPrev : Path κ α → Tree κ α → Option (Pos κ α) × Nat
  | [], _ => (none, 1)
  | f :: p, t =>
      match f.dir with
      | .R => (some ⟨p, f.balance, f.sibling, f.key, f.val, t⟩, 1)
      | .L =>
          let (z, n) := climbPrev p (plug1 f t)
          (z, n + 1)

/-- `GetNextMapElement`, TSMap.cpp:94-119. -/
def nextPos (z : Pos κ α) : Option (Pos κ α) × Nat :=
  match z.right with
  | .node .. => firstPos z.right (⟨.R, z.balance, z.key, z.val, z.left⟩ :: z.path)
  | .nil => climbNext z.path (.node z.balance z.left z.key z.val z.right)

/-- `GetPreviousMapElement`, TSMap.cpp:67-92. -/
def prevPos (z : Pos κ α) : Option (Pos κ α) × Nat :=
  match z.left with
  | .node .. => lastPos z.left (⟨.L, z.balance, z.key, z.val, z.right⟩ :: z.path)
  | .nil => climbPrev z.path (.node z.balance z.left z.key z.val z.right)

/-- The elements visited from position `z` on, and the steps of the calls of `step`. -/
def iterate (step : Pos κ α → Option (Pos κ α) × Nat) :
    Nat → Option (Pos κ α) → Out (List (κ × α) × Nat)
  | _, none => .ok ([], 0)
  | 0, some _ => .fuel
  | n + 1, some z =>
      (iterate step n (step z).1).bind fun x => .ok ((z.key, z.val) :: x.1, (step z).2 + x.2)

/-- A loop over all elements, from `begin` to `end` (TSMap.h:270-300). -/
def forward (t : Tree κ α) : Out (List (κ × α) × Nat) :=
  (iterate nextPos (size t) (firstPos t []).1).bind fun x => .ok (x.1, (firstPos t []).2 + x.2)

/-- A loop over all elements, from `GetLastMapElement` with `GetPreviousMapElement`. -/
def backward (t : Tree κ α) : Out (List (κ × α) × Nat) :=
  (iterate prevPos (size t) (lastPos t []).1).bind fun x => .ok (x.1, (lastPos t []).2 + x.2)

/-- The loop of `MapBase::operator[]`, TSMap.cpp:161-177. -/
def indexLoop : Nat → Nat → Option (Pos κ α) → Out (Option (κ × α) × Nat)
  | _, _, none => .ok (none, 0)
  | 0, _, some _ => .fuel
  | n + 1, i, some z =>
      if i = 0 then .ok (some (z.key, z.val), 0)
      else (indexLoop n (i - 1) (nextPos z).1).bind fun x => .ok (x.1, (nextPos z).2 + x.2)

/-- `MapBase::operator[](index)`, TSMap.cpp:161-177. -/
def index (t : Tree κ α) (i : Nat) : Out (Option (κ × α) × Nat) :=
  (indexLoop (size t) i (firstPos t []).1).bind fun x => .ok (x.1, (firstPos t []).2 + x.2)

/-- The search loop of `InsertMapElement`, TSMap.h:594-623: one round for each node compared with. -/
def descend (lt : κ → κ → Bool) (k : κ) : Tree κ α → Path κ α → Option (Path κ α) × Nat
  | .nil, p => (some p, 0)
  | .node b l nk nv r, p =>
      if lt k nk then
        let (q, n) := descend lt k l (⟨.L, b, nk, nv, r⟩ :: p)
        (q, n + 1)
      else if lt nk k then
        let (q, n) := descend lt k r (⟨.R, b, nk, nv, l⟩ :: p)
        (q, n + 1)
      else (none, 1)

/-- The climbing loop of `InsertLeftSubnode` and `InsertRightSubnode`, TSMap.cpp:413-472 and 492-551: one step for
each round and one for the rotation. -/
def insertClimb (dir1 : Dir) : Path κ α → Tree κ α → Option (Tree κ α) × Nat
  | [], t => (some t, 1)
  | f :: p, t =>
      let b : Int := match f.dir with
        | .L => f.balance - 1
        | .R => f.balance + 1
      let super := plug1 { f with balance := b } t
      if b = 0 then (some (plug p super), 1)
      else if b.natAbs = 2 then
        let rotated := match f.dir, dir1 with
          | .L, .L => rotateRight super
          | .L, .R => zigZagRight super
          | .R, .R => rotateLeft super
          | .R, .L => zigZagLeft super
        (rotated.map (plug p), 2)
      else
        let (t', n) := insertClimb f.dir p super
        (t', n + 1)

/-- `InsertLeftSubnode` and `InsertRightSubnode`, TSMap.cpp:396-473 and 475-552. -/
def insertSubnode (f : Frame κ α) (p : Path κ α) (k : κ) (v : α) : Option (Tree κ α) × Nat :=
  let b : Int := match f.dir with
    | .L => f.balance - 1
    | .R => f.balance + 1
  let node := plug1 { f with balance := b } (.node 0 .nil k v .nil)
  if b ≠ 0 then insertClimb f.dir p node else (some (plug p node), 0)

/-- `Map<type>::InsertMapElement(element)`, TSMap.h:587-631. -/
def insertMapElement (lt : κ → κ → Bool) (t : Tree κ α) (k : κ) (v : α) :
    Option (Bool × Tree κ α) × Nat :=
  let (q, n) := descend lt k t []
  match q with
  | none => (some (false, t), n)
  | some [] => (some (true, .node 0 .nil k v .nil), n)
  | some (f :: p) =>
      let (t', m) := insertSubnode f p k v
      (t'.map fun t' => (true, t'), n + m)

/-- The loop of `RemoveBranchNode`, TSMap.cpp:622-674: one step for each round and one for each rotation. With an
empty path the loop is not entered (TSMap.cpp:607, 676-679), or has been left (TSMap.cpp:668-671). -/
def removeClimb : Path κ α → Tree κ α → Option (Tree κ α) × Nat
  | [], t => (some t, 0)
  | f :: p, t =>
      let b : Int := match f.dir with
        | .L => f.balance + 1
        | .R => f.balance - 1
      let node := plug1 { f with balance := b } t
      if b.natAbs = 1 then (some (plug p node), 1)
      else if b ≠ 0 then
        if b > 0 then
          match rightBalance node with
          | none => (none, 1)
          | some rb =>
              if rb ≥ 0 then
                match rotateLeft node with
                | none => (none, 1)
                | some n =>
                    if rb = 0 then (some (plug p n), 2)
                    else
                      let (t', s) := removeClimb p n
                      (t', s + 2)
              else
                match zigZagLeft node with
                | none => (none, 1)
                | some n =>
                    let (t', s) := removeClimb p n
                    (t', s + 2)
        else
          match leftBalance node with
          | none => (none, 1)
          | some lb =>
              if lb ≤ 0 then
                match rotateRight node with
                | none => (none, 1)
                | some n =>
                    if lb = 0 then (some (plug p n), 2)
                    else
                      let (t', s) := removeClimb p n
                      (t', s + 2)
              else
                match zigZagRight node with
                | none => (none, 1)
                | some n =>
                    let (t', s) := removeClimb p n
                    (t', s + 2)
      else
        let (t', s) := removeClimb p node
        (t', s + 1)

/-- `right->GetFirstMapElement()`, TSMap.cpp:33-48, as called by `RemoveMapElement` (TSMap.cpp:690). -/
def firstElement : Tree κ α → Path κ α → Option (Path κ α × κ × α × Tree κ α) × Nat
  | .nil, _ => (none, 0)
  | .node _ .nil k v r, p => (some (p, k, v, r), 1)
  | .node b (.node lb ll lk lv lr) k v r, p =>
      let (z, n) := firstElement (.node lb ll lk lv lr) (⟨.L, b, k, v, r⟩ :: p)
      (z, n + 1)

/-- `RemoveMapElement(element)`, TSMap.cpp:683-736. Taking the place of the element (`takePlace`) is a fixed number
of assignments (TSMap.cpp:693-724). -/
def removeAt [DecidableEq κ] (p : Path κ α) (b : Int) (l : Tree κ α) (key : κ) (val : α)
    (r : Tree κ α) : Option (Tree κ α) × Nat :=
  match l, r with
  | .node .., .node .. =>
      match firstElement r (⟨.R, b, key, val, l⟩ :: p) with
      | (none, n) => (none, n)
      | (some (pt, tk, tv, tr), n) =>
          let (t', m) := removeClimb pt tr
          (t'.map (takePlace key tk tv), n + m)
  | .node .., .nil => removeClimb p l
  | .nil, _ => removeClimb p r

/-- The loop of `FindMapElement`, TSMap.h:756-771, with the position of what it finds. -/
def locate (lt : κ → κ → Bool) (k : κ) :
    Tree κ α → Path κ α → Option (Path κ α × Int × Tree κ α × κ × α × Tree κ α) × Nat
  | .nil, _ => (none, 0)
  | .node b l nk nv r, p =>
      if lt k nk then
        let (z, n) := locate lt k l (⟨.L, b, nk, nv, r⟩ :: p)
        (z, n + 1)
      else if lt nk k then
        let (z, n) := locate lt k r (⟨.R, b, nk, nv, l⟩ :: p)
        (z, n + 1)
      else (some (p, b, l, nk, nv, r), 1)

/-- `RemoveMapElement(FindMapElement(k))`. -/
def removeMapElement [DecidableEq κ] (lt : κ → κ → Bool) (t : Tree κ α) (k : κ) :
    Option (Tree κ α) × Nat :=
  match locate lt k t [] with
  | (none, n) => (some t, n)
  | (some (p, b, l, nk, nv, r), n) =>
      let (t', m) := removeAt p b l nk nv r
      (t', n + m)

/-- The outcome of `RemoveSubtree` or `DeleteSubtree`: the elements in the order in which they are removed or
deleted, the number of calls, and the largest number of calls that are active at the same time. -/
structure Emptied (κ α : Type) where
  order : List (κ × α)
  calls : Nat
  depth : Nat
  deriving DecidableEq, Repr

/-- `RemoveSubtree` and `DeleteSubtree`, TSMap.cpp:121-153, with the test for the null pointer before the call: the
left subtree, the right subtree, then the node itself. -/
def emptySubtree : Tree κ α → Emptied κ α
  | .nil => ⟨[], 0, 0⟩
  | .node _ l k v r =>
      let x := emptySubtree l
      let y := emptySubtree r
      ⟨x.order ++ y.order ++ [(k, v)], x.calls + y.calls + 1, max x.depth y.depth + 1⟩

end Verif.MapCost
