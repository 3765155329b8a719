import Verif.Spec.Json

/-!
# Specification: the layout of a written document

One row per array element or object member, in the order of the text, indented; rows are separated by a
comma and a newline. A member is written with the value of the first member of the same name.
-/

namespace Verif.Spec

open Verif

/-- Rows of a container: each is indented, all but the last are followed by a comma. -/
def rows (ind : Bytes) : List Bytes → Bytes
  | [] => []
  | [r] => ind ++ (r ++ [0x0A])
  | r :: rs => ind ++ (r ++ 0x2C :: 0x0A :: rows ind rs)

/-- First entry with a given name. -/
def firstRow (k : Bytes) : List (Bytes × Bytes) → Bytes
  | [] => []
  | (k', r) :: es => if k' = k then r else firstRow k es

mutual
/-- Text of a value. `num` prints numbers, `unit` is one level of indentation, `ind` the indentation of the line
the value begins on. -/
def J.layout (num : Dec → Bytes) (unit ind : Bytes) : J → Bytes
  | .null => [0x6E, 0x75, 0x6C, 0x6C]
  | .bool true => [0x74, 0x72, 0x75, 0x65]
  | .bool false => [0x66, 0x61, 0x6C, 0x73, 0x65]
  | .num d => num d
  | .str s => 0x22 :: (s ++ [0x22])
  | .arr l => 0x5B :: 0x0A :: (rows (ind ++ unit) (l.layouts num unit (ind ++ unit)) ++ (ind ++ [0x5D]))
  | .obj m =>
      let entries := m.layouts num unit (ind ++ unit)
      0x7B :: 0x0A :: (rows (ind ++ unit)
        (entries.map fun e => 0x22 :: (e.1 ++ 0x22 :: 0x20 :: 0x3A :: 0x20 :: firstRow e.1 entries)) ++
          (ind ++ [0x7D]))
/-- Texts of the elements. -/
def JL.layouts (num : Dec → Bytes) (unit ind : Bytes) : JL → List Bytes
  | .nil => []
  | .cons j l => j.layout num unit ind :: l.layouts num unit ind
/-- Names of the members and texts of their values. -/
def JM.layouts (num : Dec → Bytes) (unit ind : Bytes) : JM → List (Bytes × Bytes)
  | .nil => []
  | .cons k j m => (k, j.layout num unit ind) :: m.layouts num unit ind
end

end Verif.Spec
