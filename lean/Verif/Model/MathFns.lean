import Verif.Model.Binary32
import Verif.Model.FloatText

/-!
# Model of the functions of floats

Code/Terathon/TSMath.h, TSMath.cpp and the scalar functions of TSSimd.h, compiled for SSE without SSE4 (the default for
x86-64): the instructions ending in `ss` compute one float as `Model/Binary32`, and the masks made by comparisons select. The
functions for a compiler without SIMD (`TERATHON_NO_SIMD`) are modelled where they differ.
-/

namespace Verif.MathFns

open Verif Verif.B32

/-- A constant given by its bits. -/
abbrev const (b : Nat) : Flt := ofBits b

/-- The literal `n * 10^(-k)`. -/
def lit (n k : Nat) : Flt := round false (n * 2 ^ 149) (10 ^ k)

/-- `0.0F`. -/
def zero : Flt := const 0

/-- `1.0F`. -/
def one : Flt := const 0x3F800000

/-- `8388608.0F`, TSSimd.h:1191. -/
def two23 : Flt := const 0x4B000000

/-! ## Signs -/

/-- `Fabs`, TSMath.h:34-48: the sign bit is cleared. -/
def fabs : Flt → Flt
  | .fin _ m q => .fin false m q
  | .inf _ => .inf false
  | .nan => .nan

/-- `Fnabs`, TSMath.h:50-64: the sign bit is set. -/
def fnabs : Flt → Flt
  | .fin _ m q => .fin true m q
  | .inf _ => .inf true
  | .nan => .nan

/-- `1.0F` with the sign bit of a float; the sign of a NaN is not modelled. -/
def withSign : Flt → Flt
  | .fin s _ _ => .fin s (2 ^ 23) 126
  | .inf s => .fin s (2 ^ 23) 126
  | .nan => one

/-- `x == y`. -/
def eq (x y : Flt) : Bool := x != .nan && y != .nan && !lt x y && !lt y x

/-- `Fsgn`, TSMath.h:66-80; `VecFsgn`, TSSimd.h:1709-1714. -/
def fsgn (x : Flt) : Flt := if eq x zero then zero else withSign x

/-- `Fnsgn`, TSMath.h:82-96; `VecFnsgn`, TSSimd.h:1716-1721. -/
def fnsgn (x : Flt) : Flt := if eq x zero then zero else neg (withSign x)

/-- `NonzeroFsgn`, TSMath.h:98-112; `VecNonzeroFsgn`, TSSimd.h:1723-1727. -/
def nonzeroFsgn (x : Flt) : Flt := withSign x

/-- `NonzeroFnsgn`, TSMath.h:114-128; `VecNonzeroFnsgn`, TSSimd.h:1729-1733. -/
def nonzeroFnsgn (x : Flt) : Flt := neg (withSign x)

/-! ## Minimum and maximum -/

/-- `Fmin(x, y)`, TSMath.h:130-144; `_mm_min_ss`, TSSimd.h:636-647, gives the second operand if neither is less. -/
def fmin (x y : Flt) : Flt := if lt x y then x else y

/-- `Fmin(x, y, z)`, TSMath.h:146-160. -/
def fmin3 (x y z : Flt) : Flt := fmin (fmin x y) z

/-- `Fmin(x, y, z, w)`, TSMath.h:162-176. -/
def fmin4 (x y z w : Flt) : Flt := fmin (fmin x y) (fmin z w)

/-- `Fmax(x, y)`, TSMath.h:178-192; `_mm_max_ss`, TSSimd.h:662-673, gives the second operand if neither is greater. -/
def fmax (x y : Flt) : Flt := if lt y x then x else y

/-- `Fmax(x, y, z)`, TSMath.h:194-208. -/
def fmax3 (x y z : Flt) : Flt := fmax (fmax x y) z

/-- `Fmax(x, y, z, w)`, TSMath.h:210-224. -/
def fmax4 (x y z w : Flt) : Flt := fmax (fmax x y) (fmax z w)

/-- `FminZero`, TSMath.h:226-240. -/
def fminZero (x : Flt) : Flt := fmin x zero

/-- `FmaxZero`, TSMath.h:242-256. -/
def fmaxZero (x : Flt) : Flt := fmax x zero

/-- `Saturate`, TSMath.h:258-273. -/
def saturate (x : Flt) : Flt := fmin (fmax x zero) one

/-- `Clamp`, TSMath.h:275-290. -/
def clamp (x y z : Flt) : Flt := fmin (fmax x y) z

/-! ## Floor and ceiling -/

/-- `v - two23 + two23 + two23 - two23`, TSSimd.h:1193, 1379 and 1563, TSMath.cpp:139 and 150. -/
def nearBoth (v : Flt) : Flt := sub (add (add (sub v two23) two23) two23) two23

/-- `v + two23 - two23`, TSSimd.h:1257, 1443 and 1627. -/
def nearPositive (v : Flt) : Flt := sub (add v two23) two23

/-- `v - two23 + two23`, TSSimd.h:1315, 1501 and 1691. -/
def nearNegative (v : Flt) : Flt := add (sub v two23) two23

/-- `result - (one & (v < result))`, TSSimd.h:1194, 1258, 1316, 1564, 1628 and 1692. -/
def down (v result : Flt) : Flt := sub result (if lt v result then one else zero)

/-- `result + (one & (result < v))`, TSSimd.h:1380, 1444, 1502, 1565, 1629 and 1693. -/
def up (v result : Flt) : Flt := add result (if lt result v then one else zero)

/-- `Floor`, TSMath.h:294-300; `VecFloorScalar`, TSSimd.h:1180-1213. -/
def floor (v : Flt) : Flt := if lt two23 (fabs v) then v else down v (nearBoth v)

/-- `Ceil`, TSMath.h:302-308; `VecCeilScalar`, TSSimd.h:1366-1399. -/
def ceil (v : Flt) : Flt := if lt two23 (fabs v) then v else up v (nearBoth v)

/-- `Floor` without SIMD, TSMath.cpp:135-144. -/
def floorPlain (x : Flt) : Flt :=
  if lt (fabs x) two23 then (if lt x (nearBoth x) then sub (nearBoth x) one else nearBoth x) else x

/-- `Ceil` without SIMD, TSMath.cpp:146-155. -/
def ceilPlain (x : Flt) : Flt :=
  if lt (fabs x) two23 then (if lt (nearBoth x) x then add (nearBoth x) one else nearBoth x) else x

/-- `PositiveFloor`, TSMath.h:317-331; `VecPositiveFloorScalar`, TSSimd.h:1244-1271. -/
def positiveFloor (v : Flt) : Flt := down v (nearPositive v)

/-- `NegativeFloor`, TSMath.h:333-347; `VecNegativeFloorScalar`, TSSimd.h:1302-1329. -/
def negativeFloor (v : Flt) : Flt := down v (nearNegative v)

/-- `PositiveCeil`, TSMath.h:349-363; `VecPositiveCeilScalar`, TSSimd.h:1430-1457. -/
def positiveCeil (v : Flt) : Flt := up v (nearPositive v)

/-- `NegativeCeil`, TSMath.h:365-379; `VecNegativeCeilScalar`, TSSimd.h:1488-1515. -/
def negativeCeil (v : Flt) : Flt := up v (nearNegative v)

/-- `FloorCeil`, TSMath.h:381-397; `VecFloorCeilScalar`, TSSimd.h:1549-1579. -/
def floorCeil (v : Flt) : Flt × Flt := (down v (nearBoth v), up v (nearBoth v))

/-- `PositiveFloorCeil`, TSMath.h:399-415; `VecPositiveFloorCeilScalar`, TSSimd.h:1613-1643. -/
def positiveFloorCeil (v : Flt) : Flt × Flt := (down v (nearPositive v), up v (nearPositive v))

/-- `NegativeFloorCeil`, TSMath.h:417-433; `VecNegativeFloorCeilScalar`, TSSimd.h:1677-1707. -/
def negativeFloorCeil (v : Flt) : Flt × Flt := (down v (nearNegative v), up v (nearNegative v))

/-- `Frac`, TSMath.h:435-438. -/
def frac (x : Flt) : Flt := sub x (floor x)

/-- `PositiveFrac`, TSMath.h:440-443. -/
def positiveFrac (x : Flt) : Flt := sub x (positiveFloor x)

/-- `NegativeFrac`, TSMath.h:445-448. -/
def negativeFrac (x : Flt) : Flt := sub x (negativeFloor x)

/-! ## Exponential and logarithm -/

/-- `r * x + c`. -/
def madd (r x c : Flt) : Flt := add (mul r x) c

/-- `1.0F / n`. -/
def recip (n : Nat) : Flt := div one (ofInt n)

/-- The constants `Math::ln_2`, `Math::ln_10` and `Math::one_over_ln_10`, TSMath.cpp:74-77. -/
def ln2 : Flt := lit 69314718055994530941723212145818 32
def ln10 : Flt := lit 23025850929940456840179914546844 31
def oneOverLn10 : Flt := lit 43429448190325182765112891891661 32

/-- The 178 initializers of `table`, TSMath.cpp:483-508. -/
def expTable : List Nat := [
  0x00000000, 0x00B33687, 0x01739362, 0x022586E0, 0x02E0F96D, 0x0398E2CB, 0x044FCB22, 0x050D35D7, 0x05BFECBA, 0x06826D27,
  0x07314490, 0x07F0EE94, 0x08A3BAF0, 0x095E884F, 0x0A1739FB, 0x0ACD89C1, 0x0B8BAD78, 0x0C3DD771, 0x0D0102BF, 0x0DAF5800,
  0x0E6E511E, 0x0F21F3FE, 0x0FDC1DF9, 0x109595C7, 0x114B4EA4, 0x120A295C, 0x12BBC7F1, 0x137F388B, 0x142D70C9, 0x14EBBAEC,
  0x15A031FC, 0x1659BA5A, 0x1713F623, 0x17C919B9, 0x1888A975, 0x1939BE2B, 0x19FC7361, 0x1AAB8EDC, 0x1B692BEB, 0x1C1E74DD,
  0x1CD75D5D, 0x1D925B02, 0x1E46EAF1, 0x1F072DBA, 0x1FB7BA0F, 0x2079B5EA, 0x2129B229, 0x21E6A405, 0x229CBC92, 0x235506F2,
  0x2410C457, 0x24C4C239, 0x2585B61D, 0x2635BB8D, 0x26F7000F, 0x27A7DAA4, 0x28642328, 0x291B090F, 0x29D2B706, 0x2A8F3216,
  0x2B429F81, 0x2C044295, 0x2CB3C295, 0x2D7451BD, 0x2E26083C, 0x2EE1A93F, 0x2F995A46, 0x30506D87, 0x310DA433, 0x31C082B8,
  0x3282D314, 0x3331CF19, 0x33F1AADE, 0x34A43AE5, 0x355F3638, 0x3617B02A, 0x36CE2A62, 0x378C1AA1, 0x383E6BCE, 0x39016791,
  0x39AFE108, 0x3A6F0B5D, 0x3B227290, 0x3BDCC9FF, 0x3C960AAE, 0x3D4BED86, 0x3E0A9555, 0x3EBC5AB2, 0x3F800000, 0x402DF854,
  0x40EC7326, 0x41A0AF2E, 0x425A6481, 0x431469C5, 0x43C9B6E3, 0x44891443, 0x453A4F54, 0x45FD38AC, 0x46AC14EE, 0x4769E224,
  0x481EF0B3, 0x48D805AD, 0x4992CD62, 0x4A478665, 0x4B07975F, 0x4BB849A4, 0x4C7A7910, 0x4D2A36C8, 0x4DE75844, 0x4E9D3710,
  0x4F55AD6E, 0x5011357A, 0x50C55BFE, 0x51861E9D, 0x52364993, 0x52F7C118, 0x53A85DD2, 0x5464D572, 0x551B8238, 0x55D35BB3,
  0x568FA1FE, 0x5743379A, 0x5804A9F1, 0x58B44F11, 0x597510AD, 0x5A2689FE, 0x5AE2599A, 0x5B99D21F, 0x5C51106A, 0x5D0E12E4,
  0x5DC1192B, 0x5E833952, 0x5F325A0E, 0x5FF267BB, 0x60A4BB3E, 0x615FE4A9, 0x621826B5, 0x62CECB81, 0x638C881F, 0x643F009E,
  0x6501CCB3, 0x65B06A7B, 0x666FC62D, 0x6722F184, 0x67DD768B, 0x68967FF0, 0x694C8CE5, 0x6A0B01A3, 0x6ABCEDE5, 0x6B806408,
  0x6C2E804A, 0x6CED2BEF, 0x6DA12CC1, 0x6E5B0F2E, 0x6F14DDC1, 0x6FCA5487, 0x70897F64, 0x713AE0EE, 0x71FDFE91, 0x72AC9B6A,
  0x736A98EC, 0x741F6CE9, 0x74D8AE7F, 0x7593401C, 0x76482254, 0x77080156, 0x77B8D9AA, 0x787B3CCF, 0x792ABBCE, 0x79E80D11,
  0x7A9DB1ED, 0x7B56546B, 0x7C11A6F5, 0x7CC5F63B, 0x7D86876D, 0x7E36D809, 0x7EF882B7, 0x7F800000]

/-- `table[i]`: the two elements without initializer are zero. -/
def expEntry (i : Nat) : Flt := ofBits ((expTable[i]?).getD 0)

/-- The polynomial, TSMath.cpp:516-525. -/
def expPoly (x : Flt) : Flt :=
  let r := recip 362880
  let r := madd r x (recip 40320)
  let r := madd r x (recip 5040)
  let r := madd r x (recip 720)
  let r := madd r x (recip 120)
  let r := madd r x (recip 24)
  let r := madd r x (recip 6)
  let r := madd r x (const 0x3F000000)
  add (mul r (mul x x)) (add x one)

/-- `Exp`, TSMath.cpp:479-529. -/
def exp (x : Flt) : Out Flt :=
  let f := floor x
  toInt f >>= fun n =>
  if 2147483647 < n + 88 then .ub
  else
    let i := n + 88
    if 0 < i then .ok (mul (expPoly (sub x f)) (expEntry (if i < 179 then i.toNat else 179)))
    else .ok zero

/-- The polynomial, TSMath.cpp:542-548. -/
def logPoly (z : Flt) : Flt :=
  let r := recip 13
  let r := madd r z (recip 11)
  let r := madd r z (recip 9)
  let r := madd r z (recip 7)
  let r := madd r z (recip 5)
  let r := madd r z (recip 3)
  madd r z one

/-- `Log` of the float with bits `b`, TSMath.cpp:531-559. `x >= 0.0F` is only evaluated for `-0.0F` and floats with a sign
bit, and is true for zeros only. -/
def logBits (b : Nat) : Flt :=
  if 0 < b ∧ b < 2 ^ 31 then
    let e : Int := (b / 2 ^ 23 : Nat) - 127
    let f := ofBits (b % 2 ^ 23 + 0x3F800000)
    let y := div (sub f one) (add f one)
    let z := mul y y
    add (mul (logPoly z) (mul y (const 0x40000000))) (mul (ofInt e) ln2)
  else if eq (ofBits b) zero then .inf true
  else .nan

/-- `Log`, TSMath.cpp:531-559. -/
def log (x : Flt) : Flt := logBits (toBits x)

/-- `Pow`, TSMath.h:467-470. -/
def pow (base exponent : Flt) : Out Flt := exp (mul (log base) exponent)

/-! ## Printing floats -/

/-- `Floor(Log(absolute) * Math::one_over_ln_10)`, TSText.cpp:1323. -/
def decade (a : Nat) : Flt := floor (mul (logBits a) oneOverLn10)

/-- `absolute / Exp(f * Math::ln_10)`, TSText.cpp:1324. -/
def scaledBy (a : Nat) (f : Flt) : Out Flt := exp (mul f ln10) >>= fun e => .ok (div (ofBits a) e)

/-- The integer of a result; zero if undefined. -/
def intOr0 : Out Int → Int
  | .ok n => n
  | _ => 0

/-- The bits of a result; zero if undefined. -/
def bitsOr0 : Out Flt → Nat
  | .ok x => toBits x
  | _ => 0

/-- The values `FloatToString` takes from `Log` and `Exp`. -/
def elem : FloatText.Elem where
  lg a := intOr0 (toInt (decade a))
  quot a f := bitsOr0 (scaledBy a (ofInt f))

end Verif.MathFns
