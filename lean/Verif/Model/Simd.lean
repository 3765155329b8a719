import Verif.Model.MathFns

/-!
# Model of the vectors of floats

Code/Terathon/TSSimd.h:295-1922 and 2414-2508, compiled for SSE without SSE4 (and for AVX): a `vec_float` is four words of 32
bits, the component x first. The instructions are modelled as documented by Intel; the operations on floats are those of
`Model/Binary32`, so that an operation whose result is a NaN gives one fixed NaN.
-/

namespace Verif.Simd

open Verif Verif.B32 Verif.MathFns

abbrev Word := BitVec 32

/-- `vec_float`, TSSimd.h:202-235: components x, y, z, w. -/
abbrev Vec := Fin 4 → Word

/-- `exv_float`, TSSimd.h:238-260. -/
abbrev Exv := Fin 8 → Word

/-- The float with the given bits. -/
def fl (w : Word) : Flt := ofBits w.toNat

/-- The bits of a float. -/
def wd (x : Flt) : Word := BitVec.ofNat 32 (toBits x)

/-! ## Instructions -/

/-- Operations on the words of one component. -/
def addW (a b : Word) : Word := wd (add (fl a) (fl b))
def subW (a b : Word) : Word := wd (sub (fl a) (fl b))
def mulW (a b : Word) : Word := wd (mul (fl a) (fl b))
def divW (a b : Word) : Word := wd (div (fl a) (fl b))
def minW (a b : Word) : Word := if lt (fl a) (fl b) then a else b
def maxW (a b : Word) : Word := if lt (fl b) (fl a) then a else b
def ltW (a b : Word) : Word := if lt (fl a) (fl b) then BitVec.allOnes 32 else 0
def eqW (a b : Word) : Word := if eq (fl a) (fl b) then BitVec.allOnes 32 else 0
def andW (a b : Word) : Word := a &&& b
def andnotW (a b : Word) : Word := ~~~a &&& b
def orW (a b : Word) : Word := a ||| b
def xorW (a b : Word) : Word := a ^^^ b

/-- The instructions ending in `ps` compute all components. -/
def ps {n : Nat} (f : Word → Word → Word) (a b : Fin n → Word) : Fin n → Word := fun i => f (a i) (b i)

/-- The instructions ending in `ss` compute the first component; the others are those of the first operand. -/
def ss (f : Word → Word → Word) (a b : Vec) : Vec := fun i => if i = 0 then f (a 0) (b 0) else a i

/-- `_mm_shuffle_ps(a, b, _MM_SHUFFLE(p3, p2, p1, p0))`. -/
def shuffle (a b : Vec) (p3 p2 p1 p0 : Fin 4) : Vec
  | 0 => a p0
  | 1 => a p1
  | 2 => b p2
  | 3 => b p3

/-- `_mm_comilt_ss`, `_mm_comigt_ss`, `_mm_comieq_ss`. -/
def comilt (a b : Vec) : Bool := lt (fl (a 0)) (fl (b 0))
def comigt (a b : Vec) : Bool := lt (fl (b 0)) (fl (a 0))
def comieq (a b : Vec) : Bool := eq (fl (a 0)) (fl (b 0))

/-- `_mm_rsqrt_ps`, where `r` is the approximation of one component. -/
def rsqrtPs (r : Word → Word) (v : Vec) : Vec := fun i => r (v i)

/-- `_mm_rsqrt_ss`. -/
def rsqrtSs (r : Word → Word) (v : Vec) : Vec := fun i => if i = 0 then r (v 0) else v i

/-- `_mm_cvtt_ss2si`: the fraction is dropped; `0x80000000` if the result does not fit. -/
def cvttW (w : Word) : Word :=
  match toInt (fl w) with
  | .ok n => BitVec.ofInt 32 n
  | _ => 0x80000000

/-! ## Constants and components -/

/-- `VecFloatGetZero`, TSSimd.h:295-306. -/
def vecFloatGetZero : Vec := fun _ => 0

/-- `VecFloatGetMinusZero`, TSSimd.h:308-320. -/
def vecFloatGetMinusZero : Vec := fun _ => 0x80000000

/-- `VecLoadVectorConstant`, TSSimd.h:322-335. -/
def vecLoadVectorConstant (value : Word) : Vec := fun _ => value

/-- `VecLoadScalarConstant`, TSSimd.h:337-350. -/
def vecLoadScalarConstant (value : Word) : Vec := fun i => if i = 0 then value else 0

/-- `VecSmearX`, TSSimd.h:352-363. -/
def vecSmearX (v : Vec) : Vec := shuffle v v 0 0 0 0

/-- `VecSmearY`, TSSimd.h:365-376. -/
def vecSmearY (v : Vec) : Vec := shuffle v v 1 1 1 1

/-- `VecSmearZ`, TSSimd.h:378-389. -/
def vecSmearZ (v : Vec) : Vec := shuffle v v 2 2 2 2

/-- `VecSmearW`, TSSimd.h:391-402. -/
def vecSmearW (v : Vec) : Vec := shuffle v v 3 3 3 3

/-! ## Memory -/

/-- A block of floats at an address, which is a multiple of four. -/
structure Block where
  addr : Nat
  data : List Word
  deriving DecidableEq, Repr

/-- `_mm_loadu_ps`; the pointer is to the element `i`. -/
def loadu (m : Block) (i : Nat) : Out Vec :=
  if i + 4 ≤ m.data.length then .ok fun k => (m.data[i + k.val]?).getD 0 else .ub

/-- Is the address of element `i` a multiple of 16? -/
def aligned (m : Block) (i : Nat) : Prop := (m.addr + 4 * i) % 16 = 0

instance (m : Block) (i : Nat) : Decidable (aligned m i) := by unfold aligned; infer_instance

/-- `_mm_load_ss`. -/
def loadss (m : Block) (i : Nat) : Out Vec :=
  match m.data[i]? with
  | some w => .ok fun k => if k = 0 then w else 0
  | none => .ub

/-- `_mm_store_ss`. -/
def storess (v : Vec) (m : Block) (i : Nat) : Out Block :=
  if i < m.data.length then .ok { m with data := m.data.set i (v 0) } else .ub

/-- `_mm_storeu_ps`. -/
def storeu (v : Vec) (m : Block) (i : Nat) : Out Block :=
  if i + 4 ≤ m.data.length then
    .ok { m with data := (((m.data.set i (v 0)).set (i + 1) (v 1)).set (i + 2) (v 2)).set (i + 3) (v 3) }
  else .ub

/-- `VecLoad`, TSSimd.h:414-425. -/
def vecLoad (m : Block) (i : Nat) : Out Vec := if aligned m i then loadu m i else .ub

/-- `VecLoadUnaligned`, TSSimd.h:427-438. -/
def vecLoadUnaligned (m : Block) (i : Nat) : Out Vec := loadu m i

/-- `VecLoadScalar`, TSSimd.h:440-451. -/
def vecLoadScalar (m : Block) (i : Nat) : Out Vec := loadss m i

/-- `VecLoadSmearScalar`, TSSimd.h:453-465. -/
def vecLoadSmearScalar (m : Block) (i : Nat) : Out Vec := loadss m i >>= fun v => .ok (shuffle v v 0 0 0 0)

/-- `VecStore`, TSSimd.h:467-478. -/
def vecStore (v : Vec) (m : Block) (i : Nat) : Out Block := if aligned m i then storeu v m i else .ub

/-- `VecStoreUnaligned`, TSSimd.h:480-491. -/
def vecStoreUnaligned (v : Vec) (m : Block) (i : Nat) : Out Block := storeu v m i

/-- `VecStoreX`, TSSimd.h:493-508. -/
def vecStoreX (v : Vec) (m : Block) (i : Nat) : Out Block := storess v m i

/-- `VecStoreY`, TSSimd.h:510-525. -/
def vecStoreY (v : Vec) (m : Block) (i : Nat) : Out Block := storess (shuffle v v 1 1 1 1) m i

/-- `VecStoreZ`, TSSimd.h:527-542. -/
def vecStoreZ (v : Vec) (m : Block) (i : Nat) : Out Block := storess (shuffle v v 2 2 2 2) m i

/-- `VecStoreW`, TSSimd.h:544-559. -/
def vecStoreW (v : Vec) (m : Block) (i : Nat) : Out Block := storess (shuffle v v 3 3 3 3) m i

/-- `VecStore3D`, TSSimd.h:561-582. -/
def vecStore3D (v : Vec) (m : Block) (i : Nat) : Out Block :=
  storess v m i >>= fun m =>
  storess (shuffle v v 1 1 1 1) m (i + 1) >>= fun m =>
  storess (shuffle v v 2 2 2 2) m (i + 2)

/-- `VecTruncateConvert`, TSSimd.h:584-595. -/
def vecTruncateConvert (v : Vec) : Word := cvttW (v 0)

/-! ## Arithmetic -/

/-- `VecNegate` and unary `-`, TSSimd.h:597-621. -/
def vecNegate (v : Vec) : Vec := ps subW vecFloatGetZero v

/-- `VecMin`, TSSimd.h:623-634. -/
def vecMin (a b : Vec) : Vec := ps minW a b

/-- `VecMinScalar`, TSSimd.h:636-647. -/
def vecMinScalar (a b : Vec) : Vec := ss minW a b

/-- `VecMax`, TSSimd.h:649-660. -/
def vecMax (a b : Vec) : Vec := ps maxW a b

/-- `VecMaxScalar`, TSSimd.h:662-673. -/
def vecMaxScalar (a b : Vec) : Vec := ss maxW a b

/-- `VecAdd` and `+`, TSSimd.h:675-699. -/
def vecAdd (a b : Vec) : Vec := ps addW a b

/-- `VecAddScalar`, TSSimd.h:701-712. -/
def vecAddScalar (a b : Vec) : Vec := ss addW a b

/-- `VecSub` and `-`, TSSimd.h:714-738. -/
def vecSub (a b : Vec) : Vec := ps subW a b

/-- `VecSubScalar`, TSSimd.h:740-751. -/
def vecSubScalar (a b : Vec) : Vec := ss subW a b

/-- `VecMul` and `*`, TSSimd.h:753-777. -/
def vecMul (a b : Vec) : Vec := ps mulW a b

/-- `VecMulScalar`, TSSimd.h:779-790. -/
def vecMulScalar (a b : Vec) : Vec := ss mulW a b

/-- `VecMadd`, TSSimd.h:792-803. -/
def vecMadd (a b c : Vec) : Vec := ps addW (ps mulW a b) c

/-- `VecMaddScalar`, TSSimd.h:805-816. -/
def vecMaddScalar (a b c : Vec) : Vec := ss addW (ss mulW a b) c

/-- `VecNmsub`, TSSimd.h:818-829. -/
def vecNmsub (a b c : Vec) : Vec := ps subW c (ps mulW a b)

/-- `VecNmsubScalar`, TSSimd.h:831-842. -/
def vecNmsubScalar (a b c : Vec) : Vec := ss subW c (ss mulW a b)

/-- `VecDiv` and `/`, TSSimd.h:844-872. -/
def vecDiv (a b : Vec) : Vec := ps divW a b

/-- `VecDivScalar`, TSSimd.h:874-887. -/
def vecDivScalar (a b : Vec) : Vec := ss divW a b

/-! ## Masks -/

/-- `VecAnd` and `&`, TSSimd.h:889-913. -/
def vecAnd (a b : Vec) : Vec := ps andW a b

/-- `VecAndc`, TSSimd.h:915-926. -/
def vecAndc (a b : Vec) : Vec := ps andnotW b a

/-- `VecOr` and `|`, TSSimd.h:928-952. -/
def vecOr (a b : Vec) : Vec := ps orW a b

/-- `VecXor` and `^`, TSSimd.h:954-978. -/
def vecXor (a b : Vec) : Vec := ps xorW a b

/-- `VecSelect`, TSSimd.h:980-991. -/
def vecSelect (a b mask : Vec) : Vec := ps orW (ps andnotW mask a) (ps andW mask b)

/-- `VecMaskCmpeq`, TSSimd.h:993-1004. -/
def vecMaskCmpeq (a b : Vec) : Vec := ps eqW a b

/-- `VecMaskCmplt`, TSSimd.h:1006-1017. -/
def vecMaskCmplt (a b : Vec) : Vec := ps ltW a b

/-- `VecMaskCmpgt`, TSSimd.h:1019-1030. -/
def vecMaskCmpgt (a b : Vec) : Vec := ps ltW b a

/-- `VecCmpeqScalar`, TSSimd.h:1032-1043. -/
def vecCmpeqScalar (a b : Vec) : Bool := comieq a b

/-- `VecCmpltScalar`, TSSimd.h:1045-1056. -/
def vecCmpltScalar (a b : Vec) : Bool := comilt a b

/-- `VecCmpgtScalar`, TSSimd.h:1058-1069. -/
def vecCmpgtScalar (a b : Vec) : Bool := comigt a b

/-- `VecCmpltAny3D`, TSSimd.h:1071-1082. -/
def vecCmpltAny3D (a b : Vec) : Bool :=
  comilt a b || comilt (vecSmearY a) (vecSmearY b) || comilt (vecSmearZ a) (vecSmearZ b)

/-- `VecCmpgtAny3D`, TSSimd.h:1084-1095. -/
def vecCmpgtAny3D (a b : Vec) : Bool :=
  comigt a b || comigt (vecSmearY a) (vecSmearY b) || comigt (vecSmearZ a) (vecSmearZ b)

/-! ## Square roots -/

/-- `VecInverseSqrt`, TSSimd.h:1097-1113. -/
def vecInverseSqrt (r : Word → Word) (v : Vec) : Vec :=
  let three := vecLoadVectorConstant 0x40400000
  let half := vecLoadVectorConstant 0x3F000000
  let f := rsqrtPs r v
  ps mulW (ps mulW (ps subW three (ps mulW v (ps mulW f f))) f) half

/-- `VecInverseSqrtScalar`, TSSimd.h:1115-1131. -/
def vecInverseSqrtScalar (r : Word → Word) (v : Vec) : Vec :=
  let three := vecLoadVectorConstant 0x40400000
  let half := vecLoadVectorConstant 0x3F000000
  let f := rsqrtSs r v
  ss mulW (ss mulW (ss subW three (ss mulW v (ss mulW f f))) f) half

/-- `VecSqrt`, TSSimd.h:1133-1137. -/
def vecSqrt (r : Word → Word) (v : Vec) : Vec :=
  let mask := vecMaskCmpeq v vecFloatGetZero
  vecAndc (vecMul (vecInverseSqrt r v) v) mask

/-- `VecSqrtScalar`, TSSimd.h:1139-1143. -/
def vecSqrtScalar (r : Word → Word) (v : Vec) : Vec :=
  let mask := vecMaskCmpeq v vecFloatGetZero
  vecAndc (vecMulScalar (vecInverseSqrtScalar r v) v) mask

/-! ## Floor and ceiling -/

/-- `one` and `two23`, TSSimd.h:1155-1156 and so on. -/
def ones : Vec := vecLoadVectorConstant 0x3F800000
def two23s : Vec := vecLoadVectorConstant 0x4B000000

/-- `VecFloor`, TSSimd.h:1145-1178. -/
def vecFloor (v : Vec) : Vec :=
  let result := ps subW (ps addW (ps addW (ps subW v two23s) two23s) two23s) two23s
  let result := ps subW result (ps andW ones (ps ltW v result))
  let mask := ps ltW two23s (ps andnotW vecFloatGetMinusZero v)
  ps orW (ps andnotW mask result) (ps andW mask v)

/-- `VecFloorScalar`, TSSimd.h:1180-1213. -/
def vecFloorScalar (v : Vec) : Vec :=
  let result := ss subW (ss addW (ss addW (ss subW v two23s) two23s) two23s) two23s
  let result := ss subW result (ps andW ones (ps ltW v result))
  let mask := ps ltW two23s (ps andnotW vecFloatGetMinusZero v)
  ps orW (ps andnotW mask result) (ps andW mask v)

/-- `VecPositiveFloor`, TSSimd.h:1215-1242. -/
def vecPositiveFloor (v : Vec) : Vec :=
  let result := ps subW (ps addW v two23s) two23s
  ps subW result (ps andW ones (ps ltW v result))

/-- `VecPositiveFloorScalar`, TSSimd.h:1244-1271. -/
def vecPositiveFloorScalar (v : Vec) : Vec :=
  let result := ss subW (ss addW v two23s) two23s
  ss subW result (ps andW ones (ps ltW v result))

/-- `VecNegativeFloor`, TSSimd.h:1273-1300. -/
def vecNegativeFloor (v : Vec) : Vec :=
  let result := ps addW (ps subW v two23s) two23s
  ps subW result (ps andW ones (ps ltW v result))

/-- `VecNegativeFloorScalar`, TSSimd.h:1302-1329. -/
def vecNegativeFloorScalar (v : Vec) : Vec :=
  let result := ss addW (ss subW v two23s) two23s
  ss subW result (ps andW ones (ps ltW v result))

/-- `VecCeil`, TSSimd.h:1331-1364. -/
def vecCeil (v : Vec) : Vec :=
  let result := ps subW (ps addW (ps addW (ps subW v two23s) two23s) two23s) two23s
  let result := ps addW result (ps andW ones (ps ltW result v))
  let mask := ps ltW two23s (ps andnotW vecFloatGetMinusZero v)
  ps orW (ps andnotW mask result) (ps andW mask v)

/-- `VecCeilScalar`, TSSimd.h:1366-1399. -/
def vecCeilScalar (v : Vec) : Vec :=
  let result := ss subW (ss addW (ss addW (ss subW v two23s) two23s) two23s) two23s
  let result := ss addW result (ps andW ones (ps ltW result v))
  let mask := ps ltW two23s (ps andnotW vecFloatGetMinusZero v)
  ps orW (ps andnotW mask result) (ps andW mask v)

/-- `VecPositiveCeil`, TSSimd.h:1401-1428. -/
def vecPositiveCeil (v : Vec) : Vec :=
  let result := ps subW (ps addW v two23s) two23s
  ps addW result (ps andW ones (ps ltW result v))

/-- `VecPositiveCeilScalar`, TSSimd.h:1430-1457. -/
def vecPositiveCeilScalar (v : Vec) : Vec :=
  let result := ss subW (ss addW v two23s) two23s
  ss addW result (ps andW ones (ps ltW result v))

/-- `VecNegativeCeil`, TSSimd.h:1459-1486. -/
def vecNegativeCeil (v : Vec) : Vec :=
  let result := ps addW (ps subW v two23s) two23s
  ps addW result (ps andW ones (ps ltW result v))

/-- `VecNegativeCeilScalar`, TSSimd.h:1488-1515. -/
def vecNegativeCeilScalar (v : Vec) : Vec :=
  let result := ss addW (ss subW v two23s) two23s
  ss addW result (ps andW ones (ps ltW result v))

/-- `VecFloorCeil`, TSSimd.h:1517-1547: what is stored in `*f` and `*c`. -/
def vecFloorCeil (v : Vec) : Vec × Vec :=
  let result := ps subW (ps addW (ps addW (ps subW v two23s) two23s) two23s) two23s
  (ps subW result (ps andW ones (ps ltW v result)), ps addW result (ps andW ones (ps ltW result v)))

/-- `VecFloorCeilScalar`, TSSimd.h:1549-1579. -/
def vecFloorCeilScalar (v : Vec) : Vec × Vec :=
  let result := ss subW (ss addW (ss addW (ss subW v two23s) two23s) two23s) two23s
  (ss subW result (ps andW ones (ps ltW v result)), ss addW result (ps andW ones (ps ltW result v)))

/-- `VecPositiveFloorCeil`, TSSimd.h:1581-1611. -/
def vecPositiveFloorCeil (v : Vec) : Vec × Vec :=
  let result := ps subW (ps addW v two23s) two23s
  (ps subW result (ps andW ones (ps ltW v result)), ps addW result (ps andW ones (ps ltW result v)))

/-- `VecPositiveFloorCeilScalar`, TSSimd.h:1613-1643. -/
def vecPositiveFloorCeilScalar (v : Vec) : Vec × Vec :=
  let result := ss subW (ss addW v two23s) two23s
  (ss subW result (ps andW ones (ps ltW v result)), ss addW result (ps andW ones (ps ltW result v)))

/-- `VecNegativeFloorCeil`, TSSimd.h:1645-1675. -/
def vecNegativeFloorCeil (v : Vec) : Vec × Vec :=
  let result := ps addW (ps subW v two23s) two23s
  (ps subW result (ps andW ones (ps ltW v result)), ps addW result (ps andW ones (ps ltW result v)))

/-- `VecNegativeFloorCeilScalar`, TSSimd.h:1677-1707. -/
def vecNegativeFloorCeilScalar (v : Vec) : Vec × Vec :=
  let result := ss addW (ss subW v two23s) two23s
  (ss subW result (ps andW ones (ps ltW v result)), ss addW result (ps andW ones (ps ltW result v)))

/-! ## Signs -/

/-- `VecFsgn`, TSSimd.h:1709-1714. -/
def vecFsgn (v : Vec) : Vec :=
  vecAndc (vecOr ones (vecAnd vecFloatGetMinusZero v)) (vecMaskCmpeq v vecFloatGetZero)

/-- `VecFnsgn`, TSSimd.h:1716-1721. -/
def vecFnsgn (v : Vec) : Vec :=
  vecAndc (vecOr ones (vecAndc vecFloatGetMinusZero v)) (vecMaskCmpeq v vecFloatGetZero)

/-- `VecNonzeroFsgn`, TSSimd.h:1723-1727. -/
def vecNonzeroFsgn (v : Vec) : Vec := vecOr ones (vecAnd vecFloatGetMinusZero v)

/-- `VecNonzeroFnsgn`, TSSimd.h:1729-1733. -/
def vecNonzeroFnsgn (v : Vec) : Vec := vecOr ones (vecAndc vecFloatGetMinusZero v)

/-! ## Products of vectors -/

/-- `VecHorizontalSum3D`, TSSimd.h:1735-1754. -/
def vecHorizontalSum3D (v : Vec) : Vec := ss addW (ss addW v (vecSmearY v)) (vecSmearZ v)

/-- `VecDot3D`, TSSimd.h:1756-1780. -/
def vecDot3D (a b : Vec) : Vec :=
  let d := ps mulW a b
  ss addW (ss addW d (vecSmearY d)) (vecSmearZ d)

/-- `VecDot4D`, TSSimd.h:1782-1805. -/
def vecDot4D (a b : Vec) : Vec :=
  let d := ps mulW a b
  ss addW (ss addW (ss addW d (vecSmearY d)) (vecSmearZ d)) (vecSmearW d)

/-- `VecPlaneDotPoint3D`, TSSimd.h:1807-1832. -/
def vecPlaneDotPoint3D (a b : Vec) : Vec :=
  let d := ps mulW a b
  ss addW (ss addW (ss addW d (vecSmearY d)) (vecSmearZ d)) (vecSmearW a)

/-- `VecProject3D`, TSSimd.h:1834-1847. -/
def vecProject3D (a b : Vec) : Vec :=
  let d := vecDot3D a b
  ps mulW b (vecSmearX d)

/-- `VecReject3D`, TSSimd.h:1849-1862. -/
def vecReject3D (a b : Vec) : Vec :=
  let d := vecDot3D a b
  ps subW a (ps mulW b (vecSmearX d))

/-- `VecCross3D`, TSSimd.h:1864-1887. -/
def vecCross3D (a b : Vec) : Vec :=
  let c := ps mulW a (shuffle b b 3 0 2 1)
  let c := ps subW c (ps mulW (shuffle a a 3 0 2 1) b)
  shuffle c c 3 0 2 1

/-- `VecTransformVector3D`, TSSimd.h:1889-1904. -/
def vecTransformVector3D (c1 c2 c3 v : Vec) : Vec :=
  let result := ps mulW c1 (vecSmearX v)
  let result := ps addW result (ps mulW c2 (vecSmearY v))
  ps addW result (ps mulW c3 (vecSmearZ v))

/-- `VecTransformPoint3D`, TSSimd.h:1906-1922. -/
def vecTransformPoint3D (c1 c2 c3 c4 p : Vec) : Vec :=
  let result := ps mulW c1 (vecSmearX p)
  let result := ps addW result (ps mulW c2 (vecSmearY p))
  let result := ps addW result (ps mulW c3 (vecSmearZ p))
  ps addW result c4

/-! ## Eight components -/

/-- `_mm256_permute_ps` with four equal indices. -/
def permute (v : Exv) (p : Fin 4) : Exv := fun i => v ⟨i.val / 4 * 4 + p.val, by omega⟩

/-- `_mm256_castps256_ps128`. -/
def lowHalf (v : Exv) : Vec := fun i => v ⟨i.val, by omega⟩

/-- `ExvFloat`, TSSimd.h:2414-2417. -/
def exvFloat (a b : Vec) : Exv := fun i => if h : i.val < 4 then a ⟨i.val, h⟩ else b ⟨i.val - 4, by omega⟩

/-- `ExvSmearX`, `ExvSmearY`, `ExvSmearZ` and `ExvSmearW`, TSSimd.h:2430-2448. -/
def exvSmearX (v : Exv) : Exv := permute v 0
def exvSmearY (v : Exv) : Exv := permute v 1
def exvSmearZ (v : Exv) : Exv := permute v 2
def exvSmearW (v : Exv) : Exv := permute v 3

/-- `ExvSmearVecLo` and `ExvSmearVecHi`, TSSimd.h:2450-2458. -/
def exvSmearVecLo (v : Exv) : Exv := fun i => v ⟨i.val % 4, by omega⟩
def exvSmearVecHi (v : Exv) : Exv := fun i => v ⟨4 + i.val % 4, by omega⟩

/-- `ExvStoreX`, `ExvStoreY`, `ExvStoreZ` and `ExvStoreW`, TSSimd.h:2475-2493. -/
def exvStoreX (v : Exv) (m : Block) (i : Nat) : Out Block := storess (lowHalf v) m i
def exvStoreY (v : Exv) (m : Block) (i : Nat) : Out Block := storess (lowHalf (permute v 1)) m i
def exvStoreZ (v : Exv) (m : Block) (i : Nat) : Out Block := storess (lowHalf (permute v 2)) m i
def exvStoreW (v : Exv) (m : Block) (i : Nat) : Out Block := storess (lowHalf (permute v 3)) m i

/-- `ExvMul` and `*`, TSSimd.h:2495-2503. -/
def exvMul (a b : Exv) : Exv := ps mulW a b

/-- `ExvMadd`, TSSimd.h:2505-2508. -/
def exvMadd (a b c : Exv) : Exv := ps addW (ps mulW a b) c

end Verif.Simd
