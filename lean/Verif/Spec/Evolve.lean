import Verif.Model.Serial

/-!
# Two versions of a data type

`Ev` describes a type together with a later version of it, which has further optional fields anywhere in its user types.
-/

namespace Verif.Serial

open Verif

mutual
/-- A type in two versions. -/
inductive Ev where
  | str
  | num
  | bool
  | null
  | stdString
  | arr (e : Ev)
  | map (e : Ev)
  | vec (e : Ev)
  | stdMap (e : Ev)
  | struct (id : Nat) (fs : EvF)
/-- A field list in two versions; `added` fields are optional and only in the later one. -/
inductive EvF where
  | nil
  | here (e : Ev) (rest : EvF)
  | named (opt : Bool) (name : Bytes) (e : Ev) (rest : EvF)
  | added (name : Bytes) (t : Ty) (rest : EvF)
end

mutual
/-- The earlier version. -/
@[reducible] def Ev.old : Ev → Ty
  | .str => .str
  | .num => .num
  | .bool => .bool
  | .null => .null
  | .stdString => .stdString
  | .arr e => .arr e.old
  | .map e => .map e.old
  | .vec e => .vec e.old
  | .stdMap e => .stdMap e.old
  | .struct id fs => .struct id fs.old
/-- The same for field lists. -/
@[reducible] def EvF.old : EvF → Fields
  | .nil => .nil
  | .here e rest => .here e.old rest.old
  | .named opt name e rest => .named opt name e.old rest.old
  | .added _ _ rest => rest.old
end

mutual
/-- The later version. -/
@[reducible] def Ev.new : Ev → Ty
  | .str => .str
  | .num => .num
  | .bool => .bool
  | .null => .null
  | .stdString => .stdString
  | .arr e => .arr e.new
  | .map e => .map e.new
  | .vec e => .vec e.new
  | .stdMap e => .stdMap e.new
  | .struct id fs => .struct id fs.new
/-- The same for field lists. -/
@[reducible] def EvF.new : EvF → Fields
  | .nil => .nil
  | .here e rest => .here e.new rest.new
  | .named opt name e rest => .named opt name e.new rest.new
  | .added name t rest => .named true name t rest.new
end

variable {D : Type}

mutual
/-- Data of the later version without the added fields. -/
def proj : (e : Ev) → e.new.Den D → e.old.Den D
  | .str, d => d
  | .num, d => d
  | .bool, d => d
  | .null, d => d
  | .stdString, d => d
  | .arr e, d => d.map (proj e)
  | .map e, d => d.map fun p => (p.1, proj e p.2)
  | .vec e, d => d.map (proj e)
  | .stdMap e, d => d.map fun p => (p.1, proj e p.2)
  | .struct _ fs, d => projF fs d
/-- The same for field lists. -/
def projF : (fs : EvF) → fs.new.Den D → fs.old.Den D
  | .nil, d => d
  | .here e rest, d => (proj e d.1, projF rest d.2)
  | .named _ _ e rest, d => (proj e d.1, projF rest d.2)
  | .added _ _ rest, d => projF rest d.2
end

mutual
/-- Data of the earlier version, with the added fields taken from `o`; inside containers, which are made anew, from default-initialised
elements. -/
def graft (dflt : (t : Ty) → t.Den D) : (e : Ev) → e.old.Den D → e.new.Den D → e.new.Den D
  | .str, d, _ => d
  | .num, d, _ => d
  | .bool, d, _ => d
  | .null, d, _ => d
  | .stdString, d, _ => d
  | .arr e, d, _ => d.map fun x => graft dflt e x (dflt e.new)
  | .map e, d, _ => d.map fun p => (p.1, graft dflt e p.2 (dflt e.new))
  | .vec e, d, _ => d.map fun x => graft dflt e x (dflt e.new)
  | .stdMap e, d, _ => d.map fun p => (p.1, graft dflt e p.2 (dflt e.new))
  | .struct _ fs, d, o => graftF dflt fs d o
/-- The same for field lists. -/
def graftF (dflt : (t : Ty) → t.Den D) : (fs : EvF) → fs.old.Den D → fs.new.Den D → fs.new.Den D
  | .nil, d, _ => d
  | .here e rest, d, o => (graft dflt e d.1 o.1, graftF dflt rest d.2 o.2)
  | .named _ _ e rest, d, o => (graft dflt e d.1 o.1, graftF dflt rest d.2 o.2)
  | .added _ _ rest, d, o => (o.1, graftF dflt rest d o.2)
end

mutual
/-- The document has none of the added fields: where the later version looks for one there is an object without it. -/
def Lacks : Ev → Parser.Value D → Prop
  | .arr e, .arr l => ∀ x ∈ l, Lacks e x
  | .vec e, .arr l => ∀ x ∈ l, Lacks e x
  | .map e, .obj m _ => ∀ p ∈ Map.toList m, Lacks e p.2
  | .stdMap e, .obj m _ => ∀ p ∈ Map.toList m, Lacks e p.2
  | .struct _ fs, v => LacksF fs v
  | _, _ => True
/-- The same for field lists. -/
def LacksF : EvF → Parser.Value D → Prop
  | .nil, _ => True
  | .here e rest, v => Lacks e v ∧ LacksF rest v
  | .named _ name e rest, v =>
    (∀ m o k x, v = .obj m o → Map.findMapElement Text.nameLt name m = some (k, x) → Lacks e x) ∧ LacksF rest v
  | .added name _ rest, v => (∃ m o, v = .obj m o ∧ Map.findMapElement Text.nameLt name m = none) ∧ LacksF rest v
end

end Verif.Serial
