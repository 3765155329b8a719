import Verif.Base

/-!
# Model of `Terathon::Map` (Code/Terathon/TSMap.h, TSMap.cpp)

The C++ map is an intrusive AVL tree whose nodes carry `superNode`,
`leftSubnode`, `rightSubnode` and `balance` (height of the right subtree minus
height of the left one). Here a tree is a value of `Tree κ α`; an element is the
pair of its key and its payload.

Simplifications:
* the code climbs from a node to the root through `superNode` pointers; the model
  uses an explicit path (list of frames, innermost first), so `superNode` is the
  head of the path. The loops perform the same updates in the same order.
* `owningMap` is not represented: inserting an element that already belongs to
  another map first removes it there (TSMap.cpp:396-402), which concerns the other
  map only. Inserting an element already contained in this map is not modelled.
* dereferencing a null pointer in a rotation is `none`.
-/

namespace Verif.Map

/-- Nodes of the map: `balance`, `leftSubnode`, key, payload, `rightSubnode`
(TSMap.h `MapElementBase`). `nil` is the null pointer. -/
inductive Tree (κ α : Type) where
  | nil
  | node (balance : Int) (left : Tree κ α) (key : κ) (val : α) (right : Tree κ α)
  deriving Repr, DecidableEq

/-- Which subnode of its `superNode` a node is. -/
inductive Dir where
  | L
  | R
  deriving DecidableEq, Repr

/-- One ancestor of a position in the tree: the ancestor's fields except the
subnode on the side `dir`, where the position is. -/
structure Frame (κ α : Type) where
  dir : Dir
  balance : Int
  key : κ
  val : α
  sibling : Tree κ α

/-- The chain of ancestors of a position, nearest (`superNode`) first. -/
abbrev Path (κ α : Type) := List (Frame κ α)

variable {κ α : Type}

/-- Store `t` as the subnode of an ancestor on its side `dir`. -/
def plug1 (f : Frame κ α) (t : Tree κ α) : Tree κ α :=
  match f.dir with
  | .L => .node f.balance t f.key f.val f.sibling
  | .R => .node f.balance f.sibling f.key f.val t

/-- The whole tree seen from `rootElement`, given a position and its ancestors. -/
def plug : Path κ α → Tree κ α → Tree κ α
  | [], t => t
  | f :: p, t => plug p (plug1 f t)

/-- `MapBase::RotateLeft`, TSMap.cpp:192-230. `none`: `right` is null. -/
def rotateLeft : Tree κ α → Option (Tree κ α)
  | .node _ l k v (.node rb rl rk rv rr) =>
      some (.node (rb - 1) (.node (-(rb - 1)) l k v rl) rk rv rr)
  | _ => none

/-- `MapBase::RotateRight`, TSMap.cpp:232-270. `none`: `left` is null. -/
def rotateRight : Tree κ α → Option (Tree κ α)
  | .node _ (.node lb ll lk lv lr) k v r =>
      some (.node (lb + 1) ll lk lv (.node (-(lb + 1)) lr k v r))
  | _ => none

/-- `MapBase::ZigZagLeft`, TSMap.cpp:272-325. `none`: `right` or `top` is null. -/
def zigZagLeft : Tree κ α → Option (Tree κ α)
  | .node _ l k v (.node _ (.node tb tl tk tv tr) rk rv rr) =>
      some (.node 0 (.node (-(max tb 0)) l k v tl) tk tv (.node (-(min tb 0)) tr rk rv rr))
  | _ => none

/-- `MapBase::ZigZagRight`, TSMap.cpp:327-380. `none`: `left` or `top` is null. -/
def zigZagRight : Tree κ α → Option (Tree κ α)
  | .node _ (.node _ ll lk lv (.node tb tl tk tv tr)) k v r =>
      some (.node 0 (.node (-(max tb 0)) ll lk lv tl) tk tv (.node (-(min tb 0)) tr k v r))
  | _ => none

/-- The climbing loop shared by `InsertLeftSubnode` (TSMap.cpp:413-472) and
`InsertRightSubnode` (TSMap.cpp:492-551). `dir1` is the side on which the current
node `t` grew; the head of the path is `super`. -/
def insertClimb (dir1 : Dir) : Path κ α → Tree κ α → Option (Tree κ α)
  | [], t => some t
  | f :: p, t =>
      let b : Int := match f.dir with
        | .L => f.balance - 1
        | .R => f.balance + 1
      let super := plug1 { f with balance := b } t
      if b = 0 then some (plug p super)
      else if b.natAbs = 2 then
        let rotated := match f.dir, dir1 with
          | .L, .L => rotateRight super
          | .L, .R => zigZagRight super
          | .R, .R => rotateLeft super
          | .R, .L => zigZagLeft super
        rotated.map (plug p)
      else insertClimb f.dir p super

/-- `InsertLeftSubnode` (TSMap.cpp:396-473) for `dir = L` and `InsertRightSubnode`
(TSMap.cpp:475-552) for `dir = R`: `f :: p` is the position below `node` where the
new element goes. -/
def insertSubnode (f : Frame κ α) (p : Path κ α) (k : κ) (v : α) : Option (Tree κ α) :=
  let b : Int := match f.dir with
    | .L => f.balance - 1
    | .R => f.balance + 1
  let node := plug1 { f with balance := b } (.node 0 .nil k v .nil)
  if b ≠ 0 then insertClimb f.dir p node else some (plug p node)

/-- The search loop of `InsertMapElement` (TSMap.h:594-623): the ancestors of the
null position where key `k` belongs, or `none` if the key is present. -/
def descend (lt : κ → κ → Bool) (k : κ) : Tree κ α → Path κ α → Option (Path κ α)
  | .nil, p => some p
  | .node b l nk nv r, p =>
      if lt k nk then descend lt k l (⟨.L, b, nk, nv, r⟩ :: p)
      else if lt nk k then descend lt k r (⟨.R, b, nk, nv, l⟩ :: p)
      else none

/-- `Map<type>::InsertMapElement(element)`, TSMap.h:587-631. Returns the result of
the call and the new tree; outer `none` is a null dereference. -/
def insertMapElement (lt : κ → κ → Bool) (t : Tree κ α) (k : κ) (v : α) :
    Option (Bool × Tree κ α) :=
  match descend lt k t [] with
  | none => some (false, t)
  | some [] => some (true, .node 0 .nil k v .nil)
  | some (f :: p) => (insertSubnode f p k v).map fun t' => (true, t')

/-- `Map<type>::FindMapElement(key)`, TSMap.h:753-775: the element found. -/
def findMapElement (lt : κ → κ → Bool) (k : κ) : Tree κ α → Option (κ × α)
  | .nil => none
  | .node _ l nk nv r =>
      if lt k nk then findMapElement lt k l
      else if lt nk k then findMapElement lt k r
      else some (nk, nv)

/-- `node->rightSubnode->balance` (TSMap.cpp:637); `none`: null dereference. -/
def rightBalance : Tree κ α → Option Int
  | .node _ _ _ _ (.node rb _ _ _ _) => some rb
  | _ => none

/-- `node->leftSubnode->balance` (TSMap.cpp:653); `none`: null dereference. -/
def leftBalance : Tree κ α → Option Int
  | .node _ (.node lb _ _ _ _) _ _ _ => some lb
  | _ => none

/-- The loop of `RemoveBranchNode`, TSMap.cpp:622-674; `t` is the subtree just
stored below `super` (head of the path), one level lower than before. -/
def removeClimb : Path κ α → Tree κ α → Option (Tree κ α)
  | [], t => some t
  | f :: p, t =>
      let b : Int := match f.dir with
        | .L => f.balance + 1
        | .R => f.balance - 1
      let node := plug1 { f with balance := b } t
      if b.natAbs = 1 then some (plug p node)
      else if b ≠ 0 then
        if b > 0 then
          (rightBalance node).bind fun rb =>
            if rb ≥ 0 then
              (rotateLeft node).bind fun n =>
                if rb = 0 then some (plug p n) else removeClimb p n
            else (zigZagLeft node).bind fun n => removeClimb p n
        else
          (leftBalance node).bind fun lb =>
            if lb ≤ 0 then
              (rotateRight node).bind fun n =>
                if lb = 0 then some (plug p n) else removeClimb p n
            else (zigZagRight node).bind fun n => removeClimb p n
      else removeClimb p node

/-- `RemoveBranchNode(node, subnode)`, TSMap.cpp:599-681: `p` are the ancestors of
`node`, `subnode` takes its place. -/
def removeBranchNode (p : Path κ α) (subnode : Tree κ α) : Option (Tree κ α) :=
  removeClimb p subnode

/-- `right->GetFirstMapElement()` (TSMap.cpp:33-48) on the subtree at path `p`:
path and fields of its leftmost node. -/
def firstElement : Tree κ α → Path κ α → Option (Path κ α × κ × α × Tree κ α)
  | .nil, _ => none
  | .node _ .nil k v r, p => some (p, k, v, r)
  | .node b (.node lb ll lk lv lr) k v r, p =>
      firstElement (.node lb ll lk lv lr) (⟨.L, b, k, v, r⟩ :: p)

/-- TSMap.cpp:697-724: `top` takes over the links and the balance of `element`,
wherever `element` is after rebalancing. The node is identified by its key (keys of
a map are distinct). -/
def takePlace [DecidableEq κ] (old : κ) (k : κ) (v : α) : Tree κ α → Tree κ α
  | .nil => .nil
  | .node b l nk nv r =>
      if nk = old then .node b l k v r
      else .node b (takePlace old k v l) nk nv (takePlace old k v r)

/-- `RemoveMapElement(element)`, TSMap.cpp:683-736, for the element at path `p` with
subnodes `l`, `r` and key `key`. -/
def removeAt [DecidableEq κ] (p : Path κ α) (b : Int) (l : Tree κ α) (key : κ) (val : α)
    (r : Tree κ α) : Option (Tree κ α) :=
  match l, r with
  | .node .., .node .. =>
      (firstElement r (⟨.R, b, key, val, l⟩ :: p)).bind fun (pt, tk, tv, tr) =>
        (removeBranchNode pt tr).map (takePlace key tk tv)
  | .node .., .nil => removeBranchNode p l
  | .nil, _ => removeBranchNode p r

/-- Position of the element with key `k`, as an element pointer obtained from
`FindMapElement`. -/
def locate (lt : κ → κ → Bool) (k : κ) :
    Tree κ α → Path κ α → Option (Path κ α × Int × Tree κ α × κ × α × Tree κ α)
  | .nil, _ => none
  | .node b l nk nv r, p =>
      if lt k nk then locate lt k l (⟨.L, b, nk, nv, r⟩ :: p)
      else if lt nk k then locate lt k r (⟨.R, b, nk, nv, l⟩ :: p)
      else some (p, b, l, nk, nv, r)

/-- Removing the element with key `k` (found by `FindMapElement`) with
`RemoveMapElement`. Unchanged if the key is absent. -/
def removeMapElement [DecidableEq κ] (lt : κ → κ → Bool) (t : Tree κ α) (k : κ) :
    Option (Tree κ α) :=
  match locate lt k t [] with
  | none => some t
  | some (p, b, l, nk, nv, r) => removeAt p b l nk nv r

/-- `ReplaceMapElement(element, replacement)`, TSMap.cpp:554-597, for the element at
path `p`; the result is the tree seen from `rootElement`. When the element is the root
the code does not update `rootElement`, which keeps pointing to the replaced element;
that element's links have been set to null (lines 592-594), so the map then consists of
the old element alone. -/
def replaceAt (p : Path κ α) (b : Int) (l : Tree κ α) (oldKey : κ) (oldVal : α) (r : Tree κ α)
    (k : κ) (v : α) : Tree κ α :=
  match p with
  | [] => .node b .nil oldKey oldVal .nil
  | f :: p' => plug (f :: p') (.node b l k v r)

/-- `Map<type>::InsertReplaceMapElement(element)`, TSMap.h:633-683: the replaced element
(if any) and the new tree. -/
def insertReplaceMapElement (lt : κ → κ → Bool) (t : Tree κ α) (k : κ) (v : α) :
    Option (Option (κ × α) × Tree κ α) :=
  match locate lt k t [] with
  | some (p, b, l, nk, nv, r) => some (some (nk, nv), replaceAt p b l nk nv r k v)
  | none => (insertMapElement lt t k v).map fun (_, t') => (none, t')

/-! ### Iteration -/

/-- An element pointer: the node's subtree together with its ancestors. -/
structure Pos (κ α : Type) where
  path : Path κ α
  balance : Int
  left : Tree κ α
  key : κ
  val : α
  right : Tree κ α

/-- `GetFirstMapElement`, TSMap.cpp:33-48, on the subtree `t` at path `p`. -/
def firstPos : Tree κ α → Path κ α → Option (Pos κ α)
  | .nil, _ => none
  | .node b .nil k v r, p => some ⟨p, b, .nil, k, v, r⟩
  | .node b (.node lb ll lk lv lr) k v r, p =>
      firstPos (.node lb ll lk lv lr) (⟨.L, b, k, v, r⟩ :: p)

/-- `GetLastMapElement`, TSMap.cpp:50-65. -/
def lastPos : Tree κ α → Path κ α → Option (Pos κ α)
  | .nil, _ => none
  | .node b l k v .nil, p => some ⟨p, b, l, k, v, .nil⟩
  | .node b l k v (.node rb rl rk rv rr), p =>
      lastPos (.node rb rl rk rv rr) (⟨.R, b, k, v, l⟩ :: p)

/-- The upward loop of `GetNextMapElement`, TSMap.cpp:102-116, from a node with subtree
`t`. -/
def climbNext : Path κ α → Tree κ α → Option (Pos κ α)
  | [], _ => none
  | f :: p, t =>
      match f.dir with
      | .L => some ⟨p, f.balance, t, f.key, f.val, f.sibling⟩
      | .R => climbNext p (plug1 f t)

/-- The upward loop of `GetPreviousMapElement`, TSMap.cpp:75-89. -/
def climbPrev : Path κ α → Tree κ α → Option (Pos κ α)
  | [], _ => none
  | f :: p, t =>
      match f.dir with
      | .R => some ⟨p, f.balance, f.sibling, f.key, f.val, t⟩
      | .L => climbPrev p (plug1 f t)

/-- `GetNextMapElement`, TSMap.cpp:94-119. -/
def nextPos (z : Pos κ α) : Option (Pos κ α) :=
  match z.right with
  | .node .. => firstPos z.right (⟨.R, z.balance, z.key, z.val, z.left⟩ :: z.path)
  | .nil => climbNext z.path (.node z.balance z.left z.key z.val z.right)

/-- `GetPreviousMapElement`, TSMap.cpp:67-92. -/
def prevPos (z : Pos κ α) : Option (Pos κ α) :=
  match z.left with
  | .node .. => lastPos z.left (⟨.L, z.balance, z.key, z.val, z.right⟩ :: z.path)
  | .nil => climbPrev z.path (.node z.balance z.left z.key z.val z.right)

/-- The elements visited from position `z` on by repeated `GetNextMapElement`;
`Out.fuel` if more than `n` steps are needed. -/
def iterate (step : Pos κ α → Option (Pos κ α)) :
    Nat → Option (Pos κ α) → Out (List (κ × α))
  | _, none => .ok []
  | 0, some _ => .fuel
  | n + 1, some z => (iterate step n (step z)).bind fun l => .ok ((z.key, z.val) :: l)

/-- Number of nodes of the tree. -/
def size : Tree κ α → Nat
  | .nil => 0
  | .node _ l _ _ r => size l + 1 + size r

/-- A range-for loop over the map (`begin`/`operator++`, TSMap.h), visiting elements
through `GetFirstMapElement` and `GetNextMapElement`. -/
def forward (t : Tree κ α) : Out (List (κ × α)) := iterate nextPos (size t) (firstPos t [])

/-- Iteration from `GetLastMapElement` through `GetPreviousMapElement`. -/
def backward (t : Tree κ α) : Out (List (κ × α)) := iterate prevPos (size t) (lastPos t [])

/-- The loop of `MapBase::operator[]`, TSMap.cpp:161-177: `i` elements still to skip. -/
def indexLoop : Nat → Nat → Option (Pos κ α) → Out (Option (κ × α))
  | _, _, none => .ok none
  | 0, _, some _ => .fuel
  | n + 1, i, some z =>
      if i = 0 then .ok (some (z.key, z.val)) else indexLoop n (i - 1) (nextPos z)

/-- `MapBase::operator[](index)`, TSMap.cpp:161-177 (non-negative index). -/
def index (t : Tree κ α) (i : Nat) : Out (Option (κ × α)) :=
  indexLoop (size t) i (firstPos t [])

/-- The loop of `MapBase::GetMapElementCount`, TSMap.cpp:179-190. -/
def countLoop : Nat → Nat → Option (Pos κ α) → Out Nat
  | _, c, none => .ok c
  | 0, _, some _ => .fuel
  | n + 1, c, some z => countLoop n (c + 1) (nextPos z)

/-- `MapBase::GetMapElementCount`, TSMap.cpp:179-190. -/
def count (t : Tree κ α) : Out Nat := countLoop (size t) 0 (firstPos t [])

end Verif.Map
