import Verif.Model.Serial

/-!
# Documents in layers: the settings of a second document replace the ones of a first
-/

namespace Verif.Serial

open Verif Verif.Map Verif.Text Verif.Parser Verif.Write

variable {D : Type}

/-- The member of that name. -/
def look (v : Value D) (k : Bytes) : Option (Value D) :=
  match v with
  | .obj m _ => (findMapElement nameLt k m).map (·.2)
  | _ => none

/-- Is it an object? -/
def IsObj (v : Value D) : Prop := ∃ m o, v = .obj m o

mutual
/-- The value has the shape of the type; unlike `Validate`, this asks that optional fields that are present have the right shape in full. -/
def Conforms : Ty → Value D → Prop
  | .str, v => ∃ s, v = .str s
  | .num, v => ∃ x, v = .num x
  | .bool, v => ∃ b, v = .bool b
  | .null, v => v = .null
  | .stdString, v => ∃ s, v = .str s
  | .arr t, v => ∃ l, v = .arr l ∧ ∀ x ∈ l, Conforms t x
  | .vec t, v => ∃ l, v = .arr l ∧ ∀ x ∈ l, Conforms t x
  | .map t, v => IsObj v ∧ ∀ k x, look v k = some x → Conforms t x
  | .stdMap t, v => IsObj v ∧ ∀ k x, look v k = some x → Conforms t x
  | .struct _ fs, v => ConformsF fs v
/-- The same for field lists. -/
def ConformsF : Fields → Value D → Prop
  | .nil, _ => True
  | .here t rest, v => Conforms t v ∧ ConformsF rest v
  | .named opt name t rest, v =>
    IsObj v ∧ (look v name = none → opt = true) ∧ (∀ x, look v name = some x → Conforms t x) ∧ ConformsF rest v
end

/-- What is in the upper layer counts; if it is in both layers they are put together with `R`. -/
def Over (R : Value D → Value D → Value D → Prop) (lower upper both : Option (Value D)) : Prop :=
  match lower, upper with
  | _, none => both = lower
  | none, some y => both = some y
  | some x, some y => ∃ z, both = some z ∧ R x y z

mutual
/-- `u` is `w` laid over `v`: maps and user types are put together member by member, anything else is replaced. -/
def Layered : Ty → Value D → Value D → Value D → Prop
  | .map t, v, w, u => IsObj u ∧ ∀ k, Over (Layered t) (look v k) (look w k) (look u k)
  | .stdMap t, v, w, u => IsObj u ∧ ∀ k, Over (Layered t) (look v k) (look w k) (look u k)
  | .struct _ fs, v, w, u => LayeredF fs v w u
  | .str, _, w, u => u = w
  | .num, _, w, u => u = w
  | .bool, _, w, u => u = w
  | .null, _, w, u => u = w
  | .stdString, _, w, u => u = w
  | .arr _, _, w, u => u = w
  | .vec _, _, w, u => u = w
/-- The same for field lists; members that no field names do not matter. -/
def LayeredF : Fields → Value D → Value D → Value D → Prop
  | .nil, _, _, _ => True
  | .here t rest, v, w, u => Layered t v w u ∧ LayeredF rest v w u
  | .named _ name t rest, v, w, u => IsObj u ∧ Over (Layered t) (look v name) (look w name) (look u name) ∧ LayeredF rest v w u
end

end Verif.Serial
