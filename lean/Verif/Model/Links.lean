import Verif.Base

/-!
# Model of `Terathon::Map` with its pointers (Code/Terathon/TSMap.h, TSMap.cpp)

`Verif.Model.Map` describes the map as a tree. Here the elements are objects in a store, linked by
`superNode`, `leftSubnode` and `rightSubnode` and marked with `owningMap`, as in the code; several maps
share the store. Every assignment of the code is one update of the store, in the order of the code.

Simplifications:
* an address is a number, the null pointer is `none`; a map is a number as well;
* an object is either present in the store or not; using an address without an object, or following a
  null pointer, is `Out.ub`;
* the key of an element is a field of the object (`GetKey` of the derived class) and does not change;
* a balance is an `Int` (it stays between -2 and 2);
* loops and recursions carry fuel and end in `Out.fuel` when it runs out.
-/

namespace Verif.Links

/-- The address of an element object. -/
abbrev Addr := Nat

/-- A `MapBase` object. -/
abbrev MapId := Nat

/-- `MapElementBase`, TSMap.h:40-71, with the key of the derived class. -/
structure Node (κ : Type) where
  super : Option Addr
  left : Option Addr
  right : Option Addr
  owner : Option MapId
  balance : Int
  key : κ
  deriving DecidableEq, Repr

/-- The store: the element objects and the `rootElement` field of every map (TSMap.h:105). -/
structure Store (κ : Type) where
  node : Addr → Option (Node κ)
  root : MapId → Option Addr

variable {κ : Type}

/-- Reading an object. -/
def Store.get (h : Store κ) (a : Addr) : Out (Node κ) :=
  match h.node a with
  | some n => .ok n
  | none => .ub

/-- Writing fields of an object. -/
def Store.mod (h : Store κ) (a : Addr) (f : Node κ → Node κ) : Out (Store κ) :=
  match h.node a with
  | some n => .ok { h with node := fun x => if x = a then some (f n) else h.node x }
  | none => .ub

/-- Assigning `rootElement` of a map. -/
def Store.setRoot (h : Store κ) (m : MapId) (a : Option Addr) : Store κ :=
  { h with root := fun x => if x = m then a else h.root x }

/-- Following a pointer. -/
def deref : Option Addr → Out Addr
  | some a => .ok a
  | none => .ub

/-- `if (subnode) { subnode->superNode = node; }`, e.g. TSMap.cpp:218-221. -/
def setSuper (p : Option Addr) (node : Option Addr) (h : Store κ) : Out (Store κ) :=
  match p with
  | some a => h.mod a fun n => { n with super := node }
  | none => .ok h

/-- `MapElementBase()`, TSMap.h:64-71, of a new object with key `k` at address `a`. -/
def create (a : Addr) (k : κ) (h : Store κ) : Store κ :=
  { h with node := fun x => if x = a then some ⟨none, none, none, none, 0, k⟩ else h.node x }

/-- `GetFirstMapElement` of an element, TSMap.cpp:33-48. -/
def firstElement : Nat → Addr → Store κ → Out Addr
  | 0, _, _ => .fuel
  | n + 1, a, h => do
      let e ← h.get a
      match e.left with
      | none => return a
      | some l => firstElement n l h

/-- `GetLastMapElement` of an element, TSMap.cpp:50-65. -/
def lastElement : Nat → Addr → Store κ → Out Addr
  | 0, _, _ => .fuel
  | n + 1, a, h => do
      let e ← h.get a
      match e.right with
      | none => return a
      | some r => lastElement n r h

/-- The loop of `GetPreviousMapElement`, TSMap.cpp:75-89. -/
def climbPrev : Nat → Addr → Store κ → Out (Option Addr)
  | 0, _, _ => .fuel
  | n + 1, a, h => do
      let e ← h.get a
      match e.super with
      | none => return none
      | some s =>
          let se ← h.get s
          if se.right = some a then return some s else climbPrev n s h

/-- `GetPreviousMapElement`, TSMap.cpp:67-92. -/
def previousElement (n : Nat) (a : Addr) (h : Store κ) : Out (Option Addr) := do
  let e ← h.get a
  match e.left with
  | some l => some <$> lastElement n l h
  | none => climbPrev n a h

/-- The loop of `GetNextMapElement`, TSMap.cpp:102-116. -/
def climbNext : Nat → Addr → Store κ → Out (Option Addr)
  | 0, _, _ => .fuel
  | n + 1, a, h => do
      let e ← h.get a
      match e.super with
      | none => return none
      | some s =>
          let se ← h.get s
          if se.left = some a then return some s else climbNext n s h

/-- `GetNextMapElement`, TSMap.cpp:94-119. -/
def nextElement (n : Nat) (a : Addr) (h : Store κ) : Out (Option Addr) := do
  let e ← h.get a
  match e.right with
  | some r => some <$> firstElement n r h
  | none => climbNext n a h

/-- `MapBase::GetFirstMapElement`, TSMap.h:133-136. -/
def mapFirst (n : Nat) (m : MapId) (h : Store κ) : Out (Option Addr) :=
  match h.root m with
  | some r => some <$> firstElement n r h
  | none => .ok none

/-- `MapBase::GetLastMapElement`, TSMap.h:138-141. -/
def mapLast (n : Nat) (m : MapId) (h : Store κ) : Out (Option Addr) :=
  match h.root m with
  | some r => some <$> lastElement n r h
  | none => .ok none

/-- `MapBase::Member`, TSMap.h:143-146. -/
def member (m : MapId) (a : Addr) (h : Store κ) : Out Bool := do
  let e ← h.get a
  return decide (e.owner = some m)

/-- `if (super->leftSubnode == node) … else …`, e.g. TSMap.cpp:200-207. -/
def replaceSubnode (super node : Addr) (new : Option Addr) (h : Store κ) : Out (Store κ) := do
  let s ← h.get super
  if s.left = some node then h.mod super fun n => { n with left := new }
  else h.mod super fun n => { n with right := new }

/-- The common beginning of the four rotations: `top` takes the place of `node` below its `superNode` or
as the root, TSMap.cpp:196-215, 236-255, 277-296, 332-351. -/
def takeTop (m : MapId) (node top : Addr) (h : Store κ) : Out (Store κ) :=
  if h.root m ≠ some node then do
    let e ← h.get node
    let super ← deref e.super
    let h ← replaceSubnode super node (some top) h
    h.mod top fun n => { n with super := some super }
  else (h.setRoot m (some top)).mod top fun n => { n with super := none }

/-- `MapBase::RotateLeft`, TSMap.cpp:192-230. -/
def rotateLeft (m : MapId) (node : Addr) (h : Store κ) : Out (Addr × Store κ) := do
  let e ← h.get node
  let right ← deref e.right
  let h ← takeTop m node right h
  let r ← h.get right
  let subnode := r.left
  let h ← setSuper subnode (some node) h
  let h ← h.mod node fun n => { n with right := subnode }
  let h ← h.mod right fun n => { n with left := some node }
  let h ← h.mod node fun n => { n with super := some right }
  let h ← h.mod right fun n => { n with balance := n.balance - 1 }
  let r ← h.get right
  let h ← h.mod node fun n => { n with balance := -r.balance }
  return (right, h)

/-- `MapBase::RotateRight`, TSMap.cpp:232-270. -/
def rotateRight (m : MapId) (node : Addr) (h : Store κ) : Out (Addr × Store κ) := do
  let e ← h.get node
  let left ← deref e.left
  let h ← takeTop m node left h
  let l ← h.get left
  let subnode := l.right
  let h ← setSuper subnode (some node) h
  let h ← h.mod node fun n => { n with left := subnode }
  let h ← h.mod left fun n => { n with right := some node }
  let h ← h.mod node fun n => { n with super := some left }
  let h ← h.mod left fun n => { n with balance := n.balance + 1 }
  let l ← h.get left
  let h ← h.mod node fun n => { n with balance := -l.balance }
  return (left, h)

/-- `MapBase::ZigZagLeft`, TSMap.cpp:272-325. -/
def zigZagLeft (m : MapId) (node : Addr) (h : Store κ) : Out (Addr × Store κ) := do
  let e ← h.get node
  let right ← deref e.right
  let r ← h.get right
  let top ← deref r.left
  let h ← takeTop m node top h
  let t ← h.get top
  let subLeft := t.left
  let h ← setSuper subLeft (some node) h
  let h ← h.mod node fun n => { n with right := subLeft }
  let t ← h.get top
  let subRight := t.right
  let h ← setSuper subRight (some right) h
  let h ← h.mod right fun n => { n with left := subRight }
  let h ← h.mod top fun n => { n with left := some node }
  let h ← h.mod top fun n => { n with right := some right }
  let h ← h.mod node fun n => { n with super := some top }
  let h ← h.mod right fun n => { n with super := some top }
  let t ← h.get top
  let b := t.balance
  let h ← h.mod node fun n => { n with balance := -(max b 0) }
  let h ← h.mod right fun n => { n with balance := -(min b 0) }
  let h ← h.mod top fun n => { n with balance := 0 }
  return (top, h)

/-- `MapBase::ZigZagRight`, TSMap.cpp:327-380. -/
def zigZagRight (m : MapId) (node : Addr) (h : Store κ) : Out (Addr × Store κ) := do
  let e ← h.get node
  let left ← deref e.left
  let l ← h.get left
  let top ← deref l.right
  let h ← takeTop m node top h
  let t ← h.get top
  let subLeft := t.left
  let h ← setSuper subLeft (some left) h
  let h ← h.mod left fun n => { n with right := subLeft }
  let t ← h.get top
  let subRight := t.right
  let h ← setSuper subRight (some node) h
  let h ← h.mod node fun n => { n with left := subRight }
  let h ← h.mod top fun n => { n with left := some left }
  let h ← h.mod top fun n => { n with right := some node }
  let h ← h.mod node fun n => { n with super := some top }
  let h ← h.mod left fun n => { n with super := some top }
  let t ← h.get top
  let b := t.balance
  let h ← h.mod node fun n => { n with balance := -(min b 0) }
  let h ← h.mod left fun n => { n with balance := -(max b 0) }
  let h ← h.mod top fun n => { n with balance := 0 }
  return (top, h)

/-- The loop of `InsertLeftSubnode` (TSMap.cpp:414-471) and `InsertRightSubnode` (TSMap.cpp:493-550). -/
def insertLoop (m : MapId) : Nat → Int → Addr → Store κ → Out (Store κ)
  | 0, _, _, _ => .fuel
  | n + 1, dir1, node, h => do
      let e ← h.get node
      match e.super with
      | none => return h
      | some super =>
          let s ← h.get super
          let dir2 : Int := if s.left = some node then -1 else 1
          let b : Int := s.balance + dir2
          let h ← h.mod super fun n => { n with balance := b }
          if b = 0 then return h
          else if b.natAbs = 2 then
            if dir2 = -1 then
              if dir1 = -1 then Prod.snd <$> rotateRight m super h else Prod.snd <$> zigZagRight m super h
            else if dir1 = 1 then Prod.snd <$> rotateLeft m super h
            else Prod.snd <$> zigZagLeft m super h
          else insertLoop m n dir2 super h

/-- The loop of `RemoveBranchNode`, TSMap.cpp:622-675. -/
def removeLoop (m : MapId) : Nat → Int → Addr → Store κ → Out (Store κ)
  | 0, _, _, _ => .fuel
  | n + 1, db, super, h => do
      let h ← h.mod super fun s => { s with balance := s.balance + db }
      let s ← h.get super
      let b := s.balance
      if b.natAbs = 1 then return h
      let node := super
      let next := s.super
      let (stop, node, h) ← (if b ≠ 0 then
          if b > 0 then do
            let e ← h.get node
            let right ← deref e.right
            let r ← h.get right
            let rb := r.balance
            if rb ≥ 0 then do
              let (node, h) ← rotateLeft m node h
              return (decide (rb = 0), node, h)
            else do
              let (node, h) ← zigZagLeft m node h
              return (false, node, h)
          else do
            let e ← h.get node
            let left ← deref e.left
            let l ← h.get left
            let lb := l.balance
            if lb ≤ 0 then do
              let (node, h) ← rotateRight m node h
              return (decide (lb = 0), node, h)
            else do
              let (node, h) ← zigZagRight m node h
              return (false, node, h)
        else return (false, node, h) : Out (Bool × Addr × Store κ))
      if stop then return h
      match next with
      | none => return h
      | some super =>
          let s ← h.get super
          removeLoop m n (if s.left = some node then 1 else -1) super h

/-- `MapBase::RemoveBranchNode`, TSMap.cpp:599-681. -/
def removeBranchNode (n : Nat) (m : MapId) (node : Addr) (subnode : Option Addr) (h : Store κ) :
    Out (Store κ) := do
  let e ← h.get node
  let h ← setSuper subnode e.super h
  match e.super with
  | some super =>
      let s ← h.get super
      let db : Int := if s.left = some node then 1 else -1
      let h ← replaceSubnode super node subnode h
      removeLoop m n db super h
  | none => return h.setRoot m subnode

/-- The four assignments at the end of `RemoveMapElement` (TSMap.cpp:732-735), `ReplaceMapElement`
(593-596) and `RemoveSubtree` (133-136). -/
def unlink (a : Addr) (h : Store κ) : Out (Store κ) :=
  h.mod a fun n => { n with super := none, left := none, right := none, owner := none }

/-- `top` takes over the links and the balance of `element`, TSMap.cpp:693-725. -/
def takePlace (m : MapId) (element top : Addr) (h : Store κ) : Out (Store κ) := do
  let e ← h.get element
  let super := e.super
  let h ← h.mod top fun n => { n with super := super }
  let h ← (match super with
    | some s => replaceSubnode s element (some top) h
    | none => .ok (h.setRoot m (some top)))
  let e ← h.get element
  let left := e.left
  let h ← h.mod top fun n => { n with left := left }
  let h ← setSuper left (some top) h
  let e ← h.get element
  let right := e.right
  let h ← h.mod top fun n => { n with right := right }
  let h ← setSuper right (some top) h
  let e ← h.get element
  h.mod top fun n => { n with balance := e.balance }

/-- `MapBase::RemoveMapElement`, TSMap.cpp:683-736. -/
def removeMapElement (n : Nat) (m : MapId) (element : Addr) (h : Store κ) : Out (Store κ) := do
  let e ← h.get element
  match e.left, e.right with
  | some _, some right =>
      let top ← firstElement n right h
      let t ← h.get top
      let h ← removeBranchNode n m top t.right h
      let h ← takePlace m element top h
      unlink element h
  | some left, none => do
      let h ← removeBranchNode n m element (some left) h
      unlink element h
  | none, right => do
      let h ← removeBranchNode n m element right h
      unlink element h

/-- `MapElementBase::Detach`, TSMap.cpp:25-31; also the beginning of `SetRootElement` (384-388),
`InsertLeftSubnode` (398-402), `InsertRightSubnode` (477-481) and `ReplaceMapElement` (556-560). -/
def detach (n : Nat) (a : Addr) (h : Store κ) : Out (Store κ) := do
  let e ← h.get a
  match e.owner with
  | some m => removeMapElement n m a h
  | none => return h

/-- `MapBase::SetRootElement`, TSMap.cpp:382-394. -/
def setRootElement (n : Nat) (m : MapId) (node : Addr) (h : Store κ) : Out (Store κ) := do
  let h ← detach n node h
  let h ← h.mod node fun n => { n with owner := some m }
  let h ← h.mod node fun n => { n with balance := 0 }
  return h.setRoot m (some node)

/-- `MapBase::InsertLeftSubnode`, TSMap.cpp:396-473. -/
def insertLeftSubnode (n : Nat) (m : MapId) (node subnode : Addr) (h : Store κ) : Out (Store κ) := do
  let h ← detach n subnode h
  let h ← h.mod node fun n => { n with left := some subnode }
  let h ← h.mod subnode fun n => { n with super := some node }
  let h ← h.mod subnode fun n => { n with owner := some m }
  let h ← h.mod subnode fun n => { n with balance := 0 }
  let e ← h.get node
  let b := e.balance - 1
  let h ← h.mod node fun n => { n with balance := b }
  if b ≠ 0 then insertLoop m n (-1) node h else return h

/-- `MapBase::InsertRightSubnode`, TSMap.cpp:475-552. -/
def insertRightSubnode (n : Nat) (m : MapId) (node subnode : Addr) (h : Store κ) : Out (Store κ) := do
  let h ← detach n subnode h
  let h ← h.mod node fun n => { n with right := some subnode }
  let h ← h.mod subnode fun n => { n with super := some node }
  let h ← h.mod subnode fun n => { n with owner := some m }
  let h ← h.mod subnode fun n => { n with balance := 0 }
  let e ← h.get node
  let b := e.balance + 1
  let h ← h.mod node fun n => { n with balance := b }
  if b ≠ 0 then insertLoop m n 1 node h else return h

/-- `MapReservation`, TSMap.h:33-37. -/
structure Reservation where
  super : Option Addr
  direction : Int
  deriving DecidableEq, Repr

/-- The loop of `ReserveMapElement`, TSMap.h:712-743; `none` if the key is present. -/
def reserveLoop (lt : κ → κ → Bool) (key : κ) : Nat → Addr → Store κ → Out (Option Reservation)
  | 0, _, _ => .fuel
  | n + 1, node, h => do
      let e ← h.get node
      if lt key e.key then
        match e.left with
        | none => return some ⟨some node, -1⟩
        | some l => reserveLoop lt key n l h
      else if lt e.key key then
        match e.right with
        | none => return some ⟨some node, 1⟩
        | some r => reserveLoop lt key n r h
      else return none

/-- `Map::ReserveMapElement`, TSMap.h:706-751. For an empty map the code leaves `direction` as it was;
the model puts 0 there. -/
def reserveMapElement (lt : κ → κ → Bool) (n : Nat) (m : MapId) (key : κ) (h : Store κ) :
    Out (Option Reservation) :=
  match h.root m with
  | some r => reserveLoop lt key n r h
  | none => .ok (some ⟨none, 0⟩)

/-- `Map::InsertMapElement(element, reservation)`, TSMap.h:685-704. -/
def insertReserved (n : Nat) (m : MapId) (a : Addr) (r : Reservation) (h : Store κ) : Out (Store κ) :=
  match r.super with
  | some s => if r.direction < 0 then insertLeftSubnode n m s a h else insertRightSubnode n m s a h
  | none => setRootElement n m a h

/-- The loop of `InsertMapElement`, TSMap.h:594-623, with `f` the fuel of the functions called. -/
def insertSearch (lt : κ → κ → Bool) (f : Nat) (m : MapId) (key : κ) (element : Addr) :
    Nat → Addr → Store κ → Out (Bool × Store κ)
  | 0, _, _ => .fuel
  | n + 1, node, h => do
      let e ← h.get node
      if lt key e.key then
        match e.left with
        | none => (true, ·) <$> insertLeftSubnode f m node element h
        | some l => insertSearch lt f m key element n l h
      else if lt e.key key then
        match e.right with
        | none => (true, ·) <$> insertRightSubnode f m node element h
        | some r => insertSearch lt f m key element n r h
      else return (false, h)

/-- `Map::InsertMapElement(element)`, TSMap.h:587-631. -/
def insertMapElement (lt : κ → κ → Bool) (n : Nat) (m : MapId) (a : Addr) (h : Store κ) :
    Out (Bool × Store κ) :=
  match h.root m with
  | some r => do
      let e ← h.get a
      insertSearch lt n m e.key a n r h
  | none => (true, ·) <$> setRootElement n m a h

/-- `MapBase::ReplaceMapElement`, TSMap.cpp:554-597. -/
def replaceMapElement (n : Nat) (m : MapId) (element replacement : Addr) (h : Store κ) :
    Out (Store κ) := do
  let h ← detach n replacement h
  let e ← h.get element
  let super := e.super
  let h ← (match super with
    | some s => replaceSubnode s element (some replacement) h
    | none => .ok h)
  let h ← h.mod replacement fun n => { n with super := super }
  let e ← h.get element
  let h ← h.mod replacement fun n => { n with balance := e.balance }
  let h ← h.mod replacement fun n => { n with owner := some m }
  let e ← h.get element
  let h ← h.mod replacement fun n => { n with left := e.left }
  let h ← setSuper e.left (some replacement) h
  let e ← h.get element
  let h ← h.mod replacement fun n => { n with right := e.right }
  let h ← setSuper e.right (some replacement) h
  unlink element h

/-- The loop of `InsertReplaceMapElement`, TSMap.h:640-675. -/
def insertReplaceSearch (lt : κ → κ → Bool) (f : Nat) (m : MapId) (key : κ) (element : Addr) :
    Nat → Addr → Store κ → Out (Option Addr × Store κ)
  | 0, _, _ => .fuel
  | n + 1, node, h => do
      let e ← h.get node
      if lt key e.key then
        match e.left with
        | none => (none, ·) <$> insertLeftSubnode f m node element h
        | some l => insertReplaceSearch lt f m key element n l h
      else if lt e.key key then
        match e.right with
        | none => (none, ·) <$> insertRightSubnode f m node element h
        | some r => insertReplaceSearch lt f m key element n r h
      else if element ≠ node then (some node, ·) <$> replaceMapElement f m node element h
      else return (none, h)

/-- `Map::InsertReplaceMapElement(element)`, TSMap.h:633-683. -/
def insertReplaceMapElement (lt : κ → κ → Bool) (n : Nat) (m : MapId) (a : Addr) (h : Store κ) :
    Out (Option Addr × Store κ) :=
  match h.root m with
  | some r => do
      let e ← h.get a
      insertReplaceSearch lt n m e.key a n r h
  | none => (none, ·) <$> setRootElement n m a h

/-- `Map::FindMapElement`, TSMap.h:753-775, from a node. -/
def findFrom (lt : κ → κ → Bool) (key : κ) : Nat → Option Addr → Store κ → Out (Option Addr)
  | _, none, _ => .ok none
  | 0, some _, _ => .fuel
  | n + 1, some a, h => do
      let e ← h.get a
      if lt key e.key then findFrom lt key n e.left h
      else if lt e.key key then findFrom lt key n e.right h
      else return some a

/-- `Map::FindMapElement`, TSMap.h:753-775. -/
def findMapElement (lt : κ → κ → Bool) (n : Nat) (m : MapId) (key : κ) (h : Store κ) :
    Out (Option Addr) :=
  findFrom lt key n (h.root m) h

/-- `MapElementBase::RemoveSubtree`, TSMap.cpp:121-137. -/
def removeSubtree : Nat → Addr → Store κ → Out (Store κ)
  | 0, _, _ => .fuel
  | n + 1, a, h => do
      let e ← h.get a
      let h ← (match e.left with
        | some l => removeSubtree n l h
        | none => .ok h)
      let e ← h.get a
      let h ← (match e.right with
        | some r => removeSubtree n r h
        | none => .ok h)
      unlink a h

/-- `delete` of an element: the destructor `~MapElementBase` (TSMap.cpp:17-23), then the object is gone. -/
def destroy (n : Nat) (a : Addr) (h : Store κ) : Out (Store κ) := do
  let h ← detach n a h
  return { h with node := fun x => if x = a then none else h.node x }

/-- `MapElementBase::DeleteSubtree`, TSMap.cpp:139-153. -/
def deleteSubtree : Nat → Addr → Store κ → Out (Store κ)
  | 0, _, _ => .fuel
  | n + 1, a, h => do
      let e ← h.get a
      let h ← (match e.left with
        | some l => deleteSubtree n l h
        | none => .ok h)
      let e ← h.get a
      let h ← (match e.right with
        | some r => deleteSubtree n r h
        | none => .ok h)
      let h ← h.mod a fun n => { n with owner := none }
      destroy n a h

/-- `MapBase::RemoveAllMapElements`, TSMap.cpp:738-745. -/
def removeAll (n : Nat) (m : MapId) (h : Store κ) : Out (Store κ) :=
  match h.root m with
  | some r => do
      let h ← removeSubtree n r h
      return h.setRoot m none
  | none => .ok h

/-- `MapBase::PurgeMap`, TSMap.cpp:747-754; also `~MapBase`, TSMap.cpp:156-159. -/
def purge (n : Nat) (m : MapId) (h : Store κ) : Out (Store κ) :=
  match h.root m with
  | some r => do
      let h ← deleteSubtree n r h
      return h.setRoot m none
  | none => .ok h

end Verif.Links
