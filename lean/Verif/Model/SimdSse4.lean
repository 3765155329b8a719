import Verif.Model.Simd

/-!
# Model of the vectors of floats compiled for SSE4

Code/Terathon/TSSimd.h compiled for SSE4.1, where it differs from the code for SSE in `Model/Simd`: the functions that store single
components (493-582, where `v[k]` is the component `k` of an `__m128`), those that round (1145-1707) and those that add the
components of one vector (1735-1832). The instructions are modelled as documented by Intel.
-/

namespace Verif.Sse4

open Verif Verif.B32 Verif.Simd

/-! ## Instructions -/

/-- A finite float rounded to an integer, `up` towards positive infinity, otherwise towards negative infinity; a result that is zero has
the sign of the argument. -/
def roundTo (up : Bool) : Flt → Flt
  | .fin s m q =>
    let n := m * 2 ^ q / 2 ^ 149
    let n := if m * 2 ^ q % 2 ^ 149 ≠ 0 ∧ s ≠ up then n + 1 else n
    B32.round s (n * 2 ^ 149) 1
  | x => x

/-- `_mm_round_ps(v, _MM_FROUND_TO_NEG_INF | _MM_FROUND_NO_EXC)` and `_mm_round_ps(v, _MM_FROUND_TO_POS_INF | _MM_FROUND_NO_EXC)`. -/
def floorPs (v : Vec) : Vec := fun i => wd (roundTo false (fl (v i)))
def ceilPs (v : Vec) : Vec := fun i => wd (roundTo true (fl (v i)))

/-- `_mm_hadd_ps`. -/
def hadd (a b : Vec) : Vec
  | 0 => addW (a 0) (a 1)
  | 1 => addW (a 2) (a 3)
  | 2 => addW (b 0) (b 1)
  | 3 => addW (b 2) (b 3)

/-- `_mm_insert_ps(a, b, imm)`: the component of `b` named by the bits 7 and 6 replaces that of `a` named by the bits 5 and 4; then the
components named by the bits 3 to 0 are cleared. -/
def insertPs (a b : Vec) (imm : Nat) : Vec := fun i =>
  if imm.testBit i.val then 0 else if i.val = imm / 16 % 4 then b (Fin.ofNat 4 (imm / 64)) else a i

/-! ## Memory -/

/-- The store to `ptr[i]`. -/
def put (w : Word) (m : Block) (i : Nat) : Out Block :=
  if i < m.data.length then .ok { m with data := m.data.set i w } else .ub

/-- `VecStoreX`, `VecStoreY`, `VecStoreZ` and `VecStoreW`, TSSimd.h:497, 514, 531, 548. -/
def vecStoreX (v : Vec) (m : Block) (i : Nat) : Out Block := put (v 0) m i
def vecStoreY (v : Vec) (m : Block) (i : Nat) : Out Block := put (v 1) m i
def vecStoreZ (v : Vec) (m : Block) (i : Nat) : Out Block := put (v 2) m i
def vecStoreW (v : Vec) (m : Block) (i : Nat) : Out Block := put (v 3) m i

/-- `VecStore3D`, TSSimd.h:565-567. -/
def vecStore3D (v : Vec) (m : Block) (i : Nat) : Out Block :=
  put (v 0) m i >>= fun m =>
  put (v 1) m (i + 1) >>= fun m =>
  put (v 2) m (i + 2)

/-! ## Rounding -/

/-- `VecFloor` and `VecFloorScalar`, TSSimd.h:1151, 1186. -/
def vecFloor (v : Vec) : Vec := floorPs v
def vecFloorScalar (v : Vec) : Vec := floorPs v

/-- `VecPositiveFloor` and `VecPositiveFloorScalar`, TSSimd.h:1221, 1250. -/
def vecPositiveFloor (v : Vec) : Vec := floorPs v
def vecPositiveFloorScalar (v : Vec) : Vec := floorPs v

/-- `VecNegativeFloor` and `VecNegativeFloorScalar`, TSSimd.h:1279, 1308. -/
def vecNegativeFloor (v : Vec) : Vec := floorPs v
def vecNegativeFloorScalar (v : Vec) : Vec := floorPs v

/-- `VecCeil` and `VecCeilScalar`, TSSimd.h:1337, 1372. -/
def vecCeil (v : Vec) : Vec := ceilPs v
def vecCeilScalar (v : Vec) : Vec := ceilPs v

/-- `VecPositiveCeil` and `VecPositiveCeilScalar`, TSSimd.h:1407, 1436. -/
def vecPositiveCeil (v : Vec) : Vec := ceilPs v
def vecPositiveCeilScalar (v : Vec) : Vec := ceilPs v

/-- `VecNegativeCeil` and `VecNegativeCeilScalar`, TSSimd.h:1465, 1494. -/
def vecNegativeCeil (v : Vec) : Vec := ceilPs v
def vecNegativeCeilScalar (v : Vec) : Vec := ceilPs v

/-- `VecFloorCeil` and `VecFloorCeilScalar`, TSSimd.h:1523-1524, 1555-1556. -/
def vecFloorCeil (v : Vec) : Vec × Vec := (floorPs v, ceilPs v)
def vecFloorCeilScalar (v : Vec) : Vec × Vec := (floorPs v, ceilPs v)

/-- `VecPositiveFloorCeil` and `VecPositiveFloorCeilScalar`, TSSimd.h:1587-1588, 1619-1620. -/
def vecPositiveFloorCeil (v : Vec) : Vec × Vec := (floorPs v, ceilPs v)
def vecPositiveFloorCeilScalar (v : Vec) : Vec × Vec := (floorPs v, ceilPs v)

/-- `VecNegativeFloorCeil` and `VecNegativeFloorCeilScalar`, TSSimd.h:1651-1652, 1683-1684. -/
def vecNegativeFloorCeil (v : Vec) : Vec × Vec := (floorPs v, ceilPs v)
def vecNegativeFloorCeilScalar (v : Vec) : Vec × Vec := (floorPs v, ceilPs v)

/-! ## Products of vectors -/

/-- `VecHorizontalSum3D`, TSSimd.h:1741. -/
def vecHorizontalSum3D (v : Vec) : Vec := ss addW (hadd v v) (insertPs v v 0x8E)

/-- `VecDot3D`, TSSimd.h:1762-1765. -/
def vecDot3D (a b : Vec) : Vec :=
  let r := ps mulW a b
  let r := insertPs r r 0x08
  let r := hadd r r
  hadd r r

/-- `VecDot4D`, TSSimd.h:1788-1790. -/
def vecDot4D (a b : Vec) : Vec :=
  let r := ps mulW a b
  let r := hadd r r
  hadd r r

/-- `VecPlaneDotPoint3D`, TSSimd.h:1813-1817. -/
def vecPlaneDotPoint3D (a b : Vec) : Vec :=
  let one := vecLoadScalarConstant 0x3F800000
  let p := insertPs b one 0x30
  let r := ps mulW a p
  let r := hadd r r
  hadd r r

/-- `VecProject3D`, TSSimd.h:1834-1847, with this `VecDot3D`. -/
def vecProject3D (a b : Vec) : Vec :=
  let d := vecDot3D a b
  ps mulW b (vecSmearX d)

/-- `VecReject3D`, TSSimd.h:1849-1862, with this `VecDot3D`. -/
def vecReject3D (a b : Vec) : Vec :=
  let d := vecDot3D a b
  ps subW a (ps mulW b (vecSmearX d))

end Verif.Sse4
