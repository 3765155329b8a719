import Verif.Model.SimdInt

/-!
# Model of the vectors of floats and integers compiled for NEON

Code/Terathon/TSSimd.h:295-2410, the branches `TERATHON_NEON`. The functions `vfmaq_f32` and `vpaddq_f32` exist for 64-bit processors
only, so this is AArch64. The instructions are modelled as in the pseudocode of the Arm Architecture Reference Manual, rounding to
nearest, not flushing subnormal numbers to zero and without the alternative handling of FEAT_AFP, as programs for Linux, macOS and iOS
start; as in `Model/Binary32`, every operation whose result is a NaN gives one fixed NaN.
-/

namespace Verif.Neon

open Verif Verif.B32 Verif.MathFns Verif.Simd Verif.SimdInt

/-! ## Instructions on floats -/

/-- `(x * y + z) / d`, rounded once. -/
def fmaOver (d : Nat) : Flt → Flt → Flt → Flt
  | .nan, _, _ => .nan
  | _, .nan, _ => .nan
  | _, _, .nan => .nan
  | .fin s m q, .fin s' m' q', .fin t n r =>
    let p := m * 2 ^ q * (m' * 2 ^ q')
    let z := n * 2 ^ r * 2 ^ 149
    if (s != s') = t then B32.round t (p + z) (d * 2 ^ 149)
    else if p = z then .fin false 0 0
    else if z < p then B32.round (s != s') (p - z) (d * 2 ^ 149)
    else B32.round t (z - p) (d * 2 ^ 149)
  | .fin .., .fin .., .inf t => .inf t
  | x, y, z => add (mul x y) z

/-- `FPMulAdd`. -/
def fma (x y z : Flt) : Flt := fmaOver 1 x y z

/-- Is the float a zero? -/
def isZero : Flt → Bool
  | .fin _ m _ => m == 0
  | _ => false

/-- Is the float an infinity? -/
def isInf : Flt → Bool
  | .inf _ => true
  | _ => false

/-- `FPRecipStepFused`: `2 - x * y`. -/
def recipStep (x y : Flt) : Flt :=
  if (isInf x && isZero y) || (isZero x && isInf y) then const 0x40000000 else fmaOver 1 (neg x) y (const 0x40000000)

/-- `FPRSqrtStepFused`: `(3 - x * y) / 2`. -/
def rsqrtStep (x y : Flt) : Flt :=
  if (isInf x && isZero y) || (isZero x && isInf y) then const 0x3FC00000 else fmaOver 2 (neg x) y (const 0x40400000)

/-- `RecipEstimate`: of `a / 512`, in units of 1/256. -/
def recipEstimate (a : Nat) : Nat := (2 ^ 19 / (2 * a + 1) + 1) / 2

/-- `FPRecipEstimate`. -/
def recpe : Flt → Flt
  | .nan => .nan
  | .inf s => .fin s 0 0
  | .fin s m q =>
    if m = 0 then .inf s
    else if m * 2 ^ q < 2 ^ 21 then .inf s
    else B32.round s (recipEstimate (m * 2 ^ 8 / 2 ^ m.log2) * 2 ^ (289 - (m.log2 + q))) 1

/-- The loop of `RecipSqrtEstimate`. -/
def sqrtLoop : Nat → Nat → Nat → Nat
  | 0, _, b => b
  | n + 1, a, b => if a * ((b + 1) * (b + 1)) < 2 ^ 28 then sqrtLoop n a (b + 1) else b

/-- `RecipSqrtEstimate`. -/
def rsqrtEstimate (a : Nat) : Nat :=
  let a := if a < 256 then 2 * a + 1 else (a / 2 * 2 + 1) * 2
  (sqrtLoop 512 a 512 + 1) / 2

/-- `FPRSqrtEstimate`. -/
def rsqrte : Flt → Flt
  | .nan => .nan
  | .inf s => if s then .nan else .fin false 0 0
  | .fin s m q =>
    if m = 0 then .inf s
    else if s then .nan
    else
      let e := m.log2 + q
      B32.round false (rsqrtEstimate (if e % 2 = 0 then m * 2 ^ 8 / 2 ^ m.log2 else m * 2 ^ 7 / 2 ^ m.log2) * 2 ^ ((402 - e) / 2 + 14)) 1

/-- `FPMin` and `FPMax`: of two zeros, the minimum is negative if one is, the maximum positive if one is. -/
def vmin : Flt → Flt → Flt
  | .nan, _ => .nan
  | _, .nan => .nan
  | .fin s 0 0, .fin s' 0 0 => .fin (s || s') 0 0
  | x, y => if lt x y then x else y

def vmax : Flt → Flt → Flt
  | .nan, _ => .nan
  | _, .nan => .nan
  | .fin s 0 0, .fin s' 0 0 => .fin (s && s') 0 0
  | x, y => if lt y x then x else y

/-- The operations on the words of one component. -/
def vminW (a b : Word) : Word := wd (vmin (fl a) (fl b))
def vmaxW (a b : Word) : Word := wd (vmax (fl a) (fl b))
def fmaW (c a b : Word) : Word := wd (fma (fl a) (fl b) (fl c))
def fmsW (c a b : Word) : Word := wd (fma (neg (fl a)) (fl b) (fl c))
def recpeW (a : Word) : Word := wd (recpe (fl a))
def recpsW (a b : Word) : Word := wd (recipStep (fl a) (fl b))
def rsqrteW (a : Word) : Word := wd (rsqrte (fl a))
def rsqrtsW (a b : Word) : Word := wd (rsqrtStep (fl a) (fl b))
def negW (a : Word) : Word := a ^^^ 0x80000000
def absW (a : Word) : Word := a &&& 0x7FFFFFFF
def bslW (m a b : Word) : Word := (m &&& a) ||| (~~~m &&& b)

/-- `vfmaq_f32(c, a, b)` is `c + a * b`, `vfmsq_f32(c, a, b)` is `c - a * b`. -/
def vfmaq (c a b : Vec) : Vec := fun i => fmaW (c i) (a i) (b i)
def vfmsq (c a b : Vec) : Vec := fun i => fmsW (c i) (a i) (b i)

/-- `vdupq_n_f32`. -/
def dup (w : Word) : Vec := fun _ => w

/-- `vbslq_f32`. -/
def vbslq (m a b : Vec) : Vec := fun i => bslW (m i) (a i) (b i)

/-- `vpaddq_f32`. -/
def vpaddq (a b : Vec) : Vec
  | 0 => addW (a 0) (a 1)
  | 1 => addW (a 2) (a 3)
  | 2 => addW (b 0) (b 1)
  | 3 => addW (b 2) (b 3)

/-- `vuzpq_f32(a, b).val[0]` and `vuzpq_f32(a, b).val[1]`. -/
def uzp0 (a b : Vec) : Vec
  | 0 => a 0
  | 1 => a 2
  | 2 => b 0
  | 3 => b 2
def uzp1 (a b : Vec) : Vec
  | 0 => a 1
  | 1 => a 3
  | 2 => b 1
  | 3 => b 3

/-! ## Constants and components -/

/-- `VecFloatGetZero` and `VecFloatGetMinusZero`, TSSimd.h:303, 317. -/
def vecFloatGetZero : Vec := dup 0
def vecFloatGetMinusZero : Vec := dup 0x80000000

/-- `VecLoadVectorConstant` and `VecLoadScalarConstant`, TSSimd.h:332, 347. -/
def vecLoadVectorConstant (value : Word) : Vec := dup value
def vecLoadScalarConstant (value : Word) : Vec := dup value

/-- `VecSmearX`, `VecSmearY`, `VecSmearZ` and `VecSmearW`, TSSimd.h:360, 373, 386, 399. -/
def vecSmearX (v : Vec) : Vec := dup (v 0)
def vecSmearY (v : Vec) : Vec := dup (v 1)
def vecSmearZ (v : Vec) : Vec := dup (v 2)
def vecSmearW (v : Vec) : Vec := dup (v 3)

/-! ## Memory -/

/-- `vld1q_dup_f32`. -/
def loadDup (m : Block) (i : Nat) : Out Vec :=
  match m.data[i]? with
  | some w => .ok (dup w)
  | none => .ub

/-- `vst1q_lane_f32`. -/
def storeLane (v : Vec) (k : Fin 4) (m : Block) (i : Nat) : Out Block :=
  if i < m.data.length then .ok { m with data := m.data.set i (v k) } else .ub

/-- `VecLoad` and `VecLoadUnaligned`, TSSimd.h:422, 435. -/
def vecLoad (m : Block) (i : Nat) : Out Vec := Simd.loadu m i
def vecLoadUnaligned (m : Block) (i : Nat) : Out Vec := Simd.loadu m i

/-- `VecLoadScalar` and `VecLoadSmearScalar`, TSSimd.h:448, 462. -/
def vecLoadScalar (m : Block) (i : Nat) : Out Vec := loadDup m i
def vecLoadSmearScalar (m : Block) (i : Nat) : Out Vec := loadDup m i

/-- `VecStore` and `VecStoreUnaligned`, TSSimd.h:475, 488. -/
def vecStore (v : Vec) (m : Block) (i : Nat) : Out Block := Simd.storeu v m i
def vecStoreUnaligned (v : Vec) (m : Block) (i : Nat) : Out Block := Simd.storeu v m i

/-- `VecStoreX`, `VecStoreY`, `VecStoreZ` and `VecStoreW`, TSSimd.h:505, 522, 539, 556. -/
def vecStoreX (v : Vec) (m : Block) (i : Nat) : Out Block := storeLane v 0 m i
def vecStoreY (v : Vec) (m : Block) (i : Nat) : Out Block := storeLane v 1 m i
def vecStoreZ (v : Vec) (m : Block) (i : Nat) : Out Block := storeLane v 2 m i
def vecStoreW (v : Vec) (m : Block) (i : Nat) : Out Block := storeLane v 3 m i

/-- `VecStore3D`, TSSimd.h:577-579. -/
def vecStore3D (v : Vec) (m : Block) (i : Nat) : Out Block :=
  storeLane v 0 m i >>= fun m =>
  storeLane v 1 m (i + 1) >>= fun m =>
  storeLane v 2 m (i + 2)

/-- `VecTruncateConvert`, TSSimd.h:592. -/
def vecTruncateConvert (v : Vec) : Word := vcvtW (v 0)

/-! ## Arithmetic -/

/-- `VecNegate` and unary `-`, TSSimd.h:605, 618. -/
def vecNegate (v : Vec) : Vec := fun i => negW (v i)

/-- `VecMin` and `VecMinScalar`, TSSimd.h:631, 644. -/
def vecMin (a b : Vec) : Vec := ps vminW a b
def vecMinScalar (a b : Vec) : Vec := ps vminW a b

/-- `VecMax` and `VecMaxScalar`, TSSimd.h:657, 670. -/
def vecMax (a b : Vec) : Vec := ps vmaxW a b
def vecMaxScalar (a b : Vec) : Vec := ps vmaxW a b

/-- `VecAdd`, `+` and `VecAddScalar`, TSSimd.h:683, 696, 709. -/
def vecAdd (a b : Vec) : Vec := ps addW a b
def vecAddScalar (a b : Vec) : Vec := ps addW a b

/-- `VecSub`, `-` and `VecSubScalar`, TSSimd.h:722, 735, 748. -/
def vecSub (a b : Vec) : Vec := ps subW a b
def vecSubScalar (a b : Vec) : Vec := ps subW a b

/-- `VecMul`, `*` and `VecMulScalar`, TSSimd.h:761, 774, 787. -/
def vecMul (a b : Vec) : Vec := ps mulW a b
def vecMulScalar (a b : Vec) : Vec := ps mulW a b

/-- `VecMadd` and `VecMaddScalar`, TSSimd.h:800, 813. -/
def vecMadd (a b c : Vec) : Vec := vfmaq c a b
def vecMaddScalar (a b c : Vec) : Vec := vfmaq c a b

/-- `VecNmsub` and `VecNmsubScalar`, TSSimd.h:826, 839. -/
def vecNmsub (a b c : Vec) : Vec := vfmsq c a b
def vecNmsubScalar (a b c : Vec) : Vec := vfmsq c a b

/-- `VecDiv`, `/` and `VecDivScalar`, TSSimd.h:852-854, 867-869, 882-884. -/
def vecDiv (a b : Vec) : Vec :=
  let f : Vec := fun i => recpeW (b i)
  let f := ps mulW f (ps recpsW b f)
  ps mulW a f
def vecDivScalar (a b : Vec) : Vec := vecDiv a b

/-! ## Masks -/

/-- `VecAnd` and `&`, TSSimd.h:897, 910. -/
def vecAnd (a b : Vec) : Vec := ps andW a b

/-- `VecAndc`, TSSimd.h:923. -/
def vecAndc (a b : Vec) : Vec := ps (fun x y => x &&& ~~~y) a b

/-- `VecOr` and `|`, TSSimd.h:936, 949. -/
def vecOr (a b : Vec) : Vec := ps orW a b

/-- `VecXor` and `^`, TSSimd.h:962, 975. -/
def vecXor (a b : Vec) : Vec := ps xorW a b

/-- `VecSelect`, TSSimd.h:988. -/
def vecSelect (a b mask : Vec) : Vec := vbslq mask b a

/-- `VecMaskCmpeq`, `VecMaskCmplt` and `VecMaskCmpgt`, TSSimd.h:1001, 1014, 1027. -/
def vecMaskCmpeq (a b : Vec) : Vec := ps eqW a b
def vecMaskCmplt (a b : Vec) : Vec := ps ltW a b
def vecMaskCmpgt (a b : Vec) : Vec := ps (fun x y => ltW y x) a b

/-- `VecCmpeqScalar`, `VecCmpltScalar` and `VecCmpgtScalar`, TSSimd.h:1040, 1053, 1066. -/
def vecCmpeqScalar (a b : Vec) : Bool := eq (fl (a 0)) (fl (b 0))
def vecCmpltScalar (a b : Vec) : Bool := lt (fl (a 0)) (fl (b 0))
def vecCmpgtScalar (a b : Vec) : Bool := lt (fl (b 0)) (fl (a 0))

/-- `VecCmpltAny3D` and `VecCmpgtAny3D`, TSSimd.h:1079, 1092. -/
def vecCmpltAny3D (a b : Vec) : Bool := lt (fl (a 0)) (fl (b 0)) || lt (fl (a 1)) (fl (b 1)) || lt (fl (a 2)) (fl (b 2))
def vecCmpgtAny3D (a b : Vec) : Bool := lt (fl (b 0)) (fl (a 0)) || lt (fl (b 1)) (fl (a 1)) || lt (fl (b 2)) (fl (a 2))

/-! ## Square roots -/

/-- `VecInverseSqrt` and `VecInverseSqrtScalar`, TSSimd.h:1109-1110, 1127-1128. -/
def vecInverseSqrt (v : Vec) : Vec :=
  let f : Vec := fun i => rsqrteW (v i)
  ps mulW f (ps rsqrtsW v (ps mulW f f))
def vecInverseSqrtScalar (v : Vec) : Vec := vecInverseSqrt v

/-- `VecSqrt` and `VecSqrtScalar`, TSSimd.h:1133-1143. -/
def vecSqrt (v : Vec) : Vec :=
  let mask := vecMaskCmpeq v vecFloatGetZero
  vecAndc (vecMul (vecInverseSqrt v) v) mask
def vecSqrtScalar (v : Vec) : Vec :=
  let mask := vecMaskCmpeq v vecFloatGetZero
  vecAndc (vecMulScalar (vecInverseSqrtScalar v) v) mask

/-! ## Floor and ceiling -/

/-- `one` and `two23`, TSSimd.h:1168-1169 and so on. -/
def ones : Vec := dup 0x3F800000
def two23s : Vec := dup 0x4B000000

/-- `VecFloor` and `VecFloorScalar`, TSSimd.h:1168-1175, 1203-1210. -/
def vecFloor (v : Vec) : Vec :=
  let result := ps subW (ps addW (ps addW (ps subW v two23s) two23s) two23s) two23s
  let result := ps subW result (ps andW ones (ps ltW v result))
  let mask := ps ltW two23s fun i => absW (v i)
  vbslq mask v result
def vecFloorScalar (v : Vec) : Vec := vecFloor v

/-- `VecPositiveFloor` and `VecPositiveFloorScalar`, TSSimd.h:1235-1239, 1264-1268. -/
def vecPositiveFloor (v : Vec) : Vec :=
  let result := ps subW (ps addW v two23s) two23s
  ps subW result (ps andW ones (ps ltW v result))
def vecPositiveFloorScalar (v : Vec) : Vec := vecPositiveFloor v

/-- `VecNegativeFloor` and `VecNegativeFloorScalar`, TSSimd.h:1293-1297, 1322-1326. -/
def vecNegativeFloor (v : Vec) : Vec :=
  let result := ps addW (ps subW v two23s) two23s
  ps subW result (ps andW ones (ps ltW v result))
def vecNegativeFloorScalar (v : Vec) : Vec := vecNegativeFloor v

/-- `VecCeil` and `VecCeilScalar`, TSSimd.h:1354-1361, 1389-1396. -/
def vecCeil (v : Vec) : Vec :=
  let result := ps subW (ps addW (ps addW (ps subW v two23s) two23s) two23s) two23s
  let result := ps addW result (ps andW ones (ps ltW result v))
  let mask := ps ltW two23s fun i => absW (v i)
  vbslq mask v result
def vecCeilScalar (v : Vec) : Vec := vecCeil v

/-- `VecPositiveCeil` and `VecPositiveCeilScalar`, TSSimd.h:1421-1425, 1450-1454. -/
def vecPositiveCeil (v : Vec) : Vec :=
  let result := ps subW (ps addW v two23s) two23s
  ps addW result (ps andW ones (ps ltW result v))
def vecPositiveCeilScalar (v : Vec) : Vec := vecPositiveCeil v

/-- `VecNegativeCeil` and `VecNegativeCeilScalar`, TSSimd.h:1479-1483, 1508-1512. -/
def vecNegativeCeil (v : Vec) : Vec :=
  let result := ps addW (ps subW v two23s) two23s
  ps addW result (ps andW ones (ps ltW result v))
def vecNegativeCeilScalar (v : Vec) : Vec := vecNegativeCeil v

/-- `VecFloorCeil` and `VecFloorCeilScalar`, TSSimd.h:1539-1544, 1571-1576. -/
def vecFloorCeil (v : Vec) : Vec × Vec :=
  let result := ps subW (ps addW (ps addW (ps subW v two23s) two23s) two23s) two23s
  (ps subW result (ps andW ones (ps ltW v result)), ps addW result (ps andW ones (ps ltW result v)))
def vecFloorCeilScalar (v : Vec) : Vec × Vec := vecFloorCeil v

/-- `VecPositiveFloorCeil` and `VecPositiveFloorCeilScalar`, TSSimd.h:1603-1608, 1635-1640. -/
def vecPositiveFloorCeil (v : Vec) : Vec × Vec :=
  let result := ps subW (ps addW v two23s) two23s
  (ps subW result (ps andW ones (ps ltW v result)), ps addW result (ps andW ones (ps ltW result v)))
def vecPositiveFloorCeilScalar (v : Vec) : Vec × Vec := vecPositiveFloorCeil v

/-- `VecNegativeFloorCeil` and `VecNegativeFloorCeilScalar`, TSSimd.h:1667-1672, 1699-1704. -/
def vecNegativeFloorCeil (v : Vec) : Vec × Vec :=
  let result := ps addW (ps subW v two23s) two23s
  (ps subW result (ps andW ones (ps ltW v result)), ps addW result (ps andW ones (ps ltW result v)))
def vecNegativeFloorCeilScalar (v : Vec) : Vec × Vec := vecNegativeFloorCeil v

/-! ## Products of vectors -/

/-- `VecHorizontalSum3D`, TSSimd.h:1751. -/
def vecHorizontalSum3D (v : Vec) : Vec := ps addW (vpaddq v v) (dup (v 2))

/-- `VecDot3D`, TSSimd.h:1776-1777. -/
def vecDot3D (a b : Vec) : Vec :=
  let d := ps mulW a b
  ps addW (vpaddq d d) (dup (d 2))

/-- `VecDot4D`, TSSimd.h:1801-1802. -/
def vecDot4D (a b : Vec) : Vec :=
  let d := ps mulW a b
  ps addW (ps addW (vpaddq d d) (dup (d 2))) (dup (d 3))

/-- `VecPlaneDotPoint3D`, TSSimd.h:1828-1829. -/
def vecPlaneDotPoint3D (a b : Vec) : Vec :=
  let d := ps mulW a b
  ps addW (ps addW (vpaddq d d) (dup (d 2))) (dup (a 3))

/-- `VecProject3D`, TSSimd.h:1843-1844. -/
def vecProject3D (a b : Vec) : Vec :=
  let d := vecDot3D a b
  ps mulW b (dup (d 0))

/-- `VecReject3D`, TSSimd.h:1858-1859. -/
def vecReject3D (a b : Vec) : Vec :=
  let d := vecDot3D a b
  ps subW a (ps mulW b (dup (d 0)))

/-- `mask`, TSSimd.h:1874. -/
def crossMask : Vec := fun i => if i = 0 then 0 else 0xFFFFFFFF

/-- `VecCross3D`, TSSimd.h:1874-1884. -/
def vecCross3D (a b : Vec) : Vec :=
  let w1 := vbslq crossMask (uzp0 a a) (uzp1 a a)
  let w2 := vbslq crossMask (uzp0 b b) (uzp1 b b)
  let r := vfmsq (ps mulW a w2) w1 b
  vbslq crossMask (uzp0 r r) (uzp1 r r)

/-- `VecTransformVector3D`, TSSimd.h:1899-1901. -/
def vecTransformVector3D (c1 c2 c3 v : Vec) : Vec :=
  let result := ps mulW c1 (vecSmearX v)
  let result := vfmaq result c2 (vecSmearY v)
  vfmaq result c3 (vecSmearZ v)

/-- `VecTransformPoint3D`, TSSimd.h:1917-1919. -/
def vecTransformPoint3D (c1 c2 c3 c4 p : Vec) : Vec :=
  let result := ps mulW c1 (vecSmearX p)
  let result := vfmaq result c2 (vecSmearY p)
  ps addW (vfmaq result c3 (vecSmearZ p)) c4

/-! ## Integers

The registers are sixteen bytes here, too; their words have the least significant byte first, as on all these systems. -/

/-- `vmovl_s8`, `vmovl_u8`, `vmovl_s16` and `vmovl_u16` of the lower or the higher half. -/
def movlS8 (v : Reg) (k : Fin 2) : Reg := of16 fun i => (v ⟨8 * k.val + i.val, by omega⟩).signExtend 16
def movlU8 (v : Reg) (k : Fin 2) : Reg := of16 fun i => (v ⟨8 * k.val + i.val, by omega⟩).setWidth 16
def movlS16 (v : Reg) (k : Fin 2) : Reg := of32 fun i => (h16 v ⟨4 * k.val + i.val, by omega⟩).signExtend 32
def movlU16 (v : Reg) (k : Fin 2) : Reg := of32 fun i => (h16 v ⟨4 * k.val + i.val, by omega⟩).setWidth 32

/-- One element of `vqmovn_s32`, `vqmovn_s16` and `vqmovun_s16`. -/
def qmovn32 (x : BitVec 32) : BitVec 16 := BitVec.ofInt 16 (max (-32768) (min 32767 x.toInt))
def qmovn16 (x : BitVec 16) : BitVec 8 := BitVec.ofInt 8 (max (-128) (min 127 x.toInt))
def qmovun16 (x : BitVec 16) : BitVec 8 := BitVec.ofInt 8 (max 0 (min 255 x.toInt))

/-- `VecInt8GetZero`, `VecInt16GetZero`, `VecInt32GetZero` and `VecInt8GetInfinity`, TSSimd.h:1932, 1945, 1958, 1972. -/
def vecInt8GetZero : Reg := fun _ => 0
def vecInt16GetZero : Reg := of16 fun _ => 0
def vecInt32GetZero : Reg := of32 fun _ => 0
def vecInt8GetInfinity : Reg := fun _ => BitVec.ofInt 8 (-128)

/-- `VecInt8Load`, `VecUInt8Load` and those for unaligned addresses, TSSimd.h:1985, 1998, 2011, 2024. -/
def vecInt8Load (m : Block8) (i : Nat) : Out Reg := SimdInt.loadu m i
def vecInt8LoadUnaligned (m : Block8) (i : Nat) : Out Reg := SimdInt.loadu m i

/-- `VecInt16Load`, `VecUInt16Load` and those for unaligned addresses, TSSimd.h:2037, 2050, 2063, 2076. -/
def vecInt16Load (m : Block8) (i : Nat) : Out Reg := SimdInt.loadu m (2 * i)
def vecInt16LoadUnaligned (m : Block8) (i : Nat) : Out Reg := SimdInt.loadu m (2 * i)

/-- `VecInt32StoreX`, `VecInt32StoreY`, `VecInt32StoreZ` and `VecInt32StoreW`, TSSimd.h:2089, 2102, 2115, 2128. -/
def vecInt32StoreX (v : Reg) : BitVec 32 := w32 v 0
def vecInt32StoreY (v : Reg) : BitVec 32 := w32 v 1
def vecInt32StoreZ (v : Reg) : BitVec 32 := w32 v 2
def vecInt32StoreW (v : Reg) : BitVec 32 := w32 v 3

/-- `VecInt32PackSaturate`, TSSimd.h:2141-2142, 2155. -/
def vecInt32PackSaturate2 (a b : Reg) : Reg :=
  of16 fun i => if h : i.val < 4 then qmovn32 (w32 a ⟨i.val, h⟩) else qmovn32 (w32 b ⟨i.val - 4, by omega⟩)
def vecInt32PackSaturate (v : Reg) : Reg := vecInt32PackSaturate2 v v

/-- `VecInt16PackSaturate`, TSSimd.h:2168-2169. -/
def vecInt16PackSaturate (v : Reg) : Reg := fun i => qmovn16 (h16 v ⟨i.val % 8, by omega⟩)

/-- `VecInt16PackUnsignedSaturate`, TSSimd.h:2182-2183. -/
def vecInt16PackUnsignedSaturate (v : Reg) : Reg := fun i => qmovun16 (h16 v ⟨i.val % 8, by omega⟩)

/-- `VecInt8UnpackA` and `VecInt8UnpackB`, TSSimd.h:2196, 2209. -/
def vecInt8UnpackA (v : Reg) : Reg := movlS8 v 0
def vecInt8UnpackB (v : Reg) : Reg := movlS8 v 1

/-- `VecUInt8UnpackA` and `VecUInt8UnpackB`, TSSimd.h:2222, 2235. -/
def vecUInt8UnpackA (v : Reg) : Reg := movlU8 v 0
def vecUInt8UnpackB (v : Reg) : Reg := movlU8 v 1

/-- `VecInt16UnpackA` and `VecInt16UnpackB`, TSSimd.h:2248, 2261. -/
def vecInt16UnpackA (v : Reg) : Reg := movlS16 v 0
def vecInt16UnpackB (v : Reg) : Reg := movlS16 v 1

/-- `VecUInt16UnpackA` and `VecUInt16UnpackB`, TSSimd.h:2274, 2287. -/
def vecUInt16UnpackA (v : Reg) : Reg := movlU16 v 0
def vecUInt16UnpackB (v : Reg) : Reg := movlU16 v 1

/-- `VecInt8MergeA`, `VecUInt8MergeA`, `VecInt8MergeB` and `VecUInt8MergeB`, TSSimd.h:2300, 2313, 2326, 2339: `vzipq_s8(v1, v2).val[k]`
is half `k` of the elements of both vectors in turn. -/
def zip8 (a b : Reg) (k : Fin 2) : Reg := fun i =>
  if (16 * k.val + i.val) % 2 = 0 then a ⟨(16 * k.val + i.val) / 2, by omega⟩ else b ⟨(16 * k.val + i.val) / 2, by omega⟩
def vecInt8MergeA (a b : Reg) : Reg := zip8 a b 0
def vecInt8MergeB (a b : Reg) : Reg := zip8 a b 1

/-- `VecInt16Deinterleave`, TSSimd.h:2354-2355: `vuzp_s16` of the two halves gives the elements with even, then those with odd numbers. -/
def vecInt16Deinterleave (v : Reg) : Reg :=
  of16 fun i => if h : i.val < 4 then h16 v ⟨2 * i.val, by omega⟩ else h16 v ⟨2 * (i.val - 4) + 1, by omega⟩

/-- `VecInt32ConvertFloat`, TSSimd.h:2368. -/
def vecInt32ConvertFloat (v : Reg) : Vec := fun i => cvtW (w32 v i)

/-- `VecInt32Add` and `VecInt32Sub`, TSSimd.h:2394, 2407. -/
def vecInt32Add (a b : Reg) : Reg := of32 fun i => w32 a i + w32 b i
def vecInt32Sub (a b : Reg) : Reg := of32 fun i => w32 a i - w32 b i

end Verif.Neon
