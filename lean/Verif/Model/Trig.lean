import Verif.Model.MathFns

/-!
# Model of the trigonometric functions and square roots

Code/Terathon/TSMath.cpp:81-477, compiled for SSE and, under names ending in `Plain`, without SIMD (`TERATHON_NO_SIMD`).

`_mm_cvtt_ss2si` gives `0x80000000` if the integer does not fit, where `int32(i)` is undefined. `_mm_rsqrt_ss` gives an
approximation that depends on the processor; it is a parameter.
-/

namespace Verif.Trig

open Verif Verif.B32 Verif.MathFns

/-- `Math::trigTable`, TSMath.cpp:81-115: cosines and sines. -/
def trigTable : List (Nat × Nat) := [
  (0x3F800000, 0x00000000), (0x3F7FEC43, 0x3CC90AB0), (0x3F7FB10F, 0x3D48FB30), (0x3F7F4E6D, 0x3D96A905), (0x3F7EC46D, 0x3DC8BD36),
  (0x3F7E1324, 0x3DFAB273), (0x3F7D3AAC, 0x3E164083), (0x3F7C3B28, 0x3E2F10A3), (0x3F7B14BE, 0x3E47C5C2), (0x3F79C79D, 0x3E605C13),
  (0x3F7853F8, 0x3E78CFCD), (0x3F76BA07, 0x3E888E94), (0x3F74FA0B, 0x3E94A031), (0x3F731447, 0x3EA09AE5), (0x3F710908, 0x3EAC7CD4),
  (0x3F6ED89E, 0x3EB8442A), (0x3F6C835E, 0x3EC3EF16), (0x3F6A09A6, 0x3ECF7BCB), (0x3F676BD8, 0x3EDAE880), (0x3F64AA59, 0x3EE63375),
  (0x3F61C597, 0x3EF15AEA), (0x3F5EBE05, 0x3EFC5D28), (0x3F5B941A, 0x3F039C3D), (0x3F584853, 0x3F08F59B), (0x3F54DB31, 0x3F0E39DA),
  (0x3F514D3D, 0x3F13682B), (0x3F4D9F02, 0x3F187FC0), (0x3F49D112, 0x3F1D7FD2), (0x3F45E403, 0x3F22679A), (0x3F41D870, 0x3F273656),
  (0x3F3DAEF9, 0x3F2BEB4A), (0x3F396842, 0x3F3085BB), (0x3F3504F3, 0x3F3504F3), (0x3F3085BA, 0x3F396842), (0x3F2BEB49, 0x3F3DAEFA),
  (0x3F273655, 0x3F41D871), (0x3F226799, 0x3F45E403), (0x3F1D7FD1, 0x3F49D112), (0x3F187FC0, 0x3F4D9F02), (0x3F13682A, 0x3F514D3D),
  (0x3F0E39D9, 0x3F54DB32), (0x3F08F59B, 0x3F584853), (0x3F039C3C, 0x3F5B941B), (0x3EFC5D27, 0x3F5EBE05), (0x3EF15AE7, 0x3F61C598),
  (0x3EE63374, 0x3F64AA59), (0x3EDAE881, 0x3F676BD8), (0x3ECF7BC9, 0x3F6A09A7), (0x3EC3EF15, 0x3F6C835E), (0x3EB84427, 0x3F6ED89E),
  (0x3EAC7CD3, 0x3F710908), (0x3EA09AE2, 0x3F731448), (0x3E94A030, 0x3F74FA0B), (0x3E888E93, 0x3F76BA07), (0x3E78CFC8, 0x3F7853F8),
  (0x3E605C12, 0x3F79C79D), (0x3E47C5BC, 0x3F7B14BF), (0x3E2F10A0, 0x3F7C3B28), (0x3E164085, 0x3F7D3AAC), (0x3DFAB26C, 0x3F7E1324),
  (0x3DC8BD35, 0x3F7EC46D), (0x3D96A8FB, 0x3F7F4E6D), (0x3D48FB29, 0x3F7FB10F), (0x3CC90A7E, 0x3F7FEC43), (0x00000000, 0x3F800000),
  (0xBCC90A7E, 0x3F7FEC43), (0xBD48FB29, 0x3F7FB10F), (0xBD96A8FB, 0x3F7F4E6D), (0xBDC8BD35, 0x3F7EC46D), (0xBDFAB26C, 0x3F7E1324),
  (0xBE164085, 0x3F7D3AAC), (0xBE2F10A0, 0x3F7C3B28), (0xBE47C5BC, 0x3F7B14BF), (0xBE605C12, 0x3F79C79D), (0xBE78CFC8, 0x3F7853F8),
  (0xBE888E93, 0x3F76BA07), (0xBE94A030, 0x3F74FA0B), (0xBEA09AE2, 0x3F731448), (0xBEAC7CD3, 0x3F710908), (0xBEB84427, 0x3F6ED89E),
  (0xBEC3EF15, 0x3F6C835E), (0xBECF7BC9, 0x3F6A09A7), (0xBEDAE881, 0x3F676BD8), (0xBEE63374, 0x3F64AA59), (0xBEF15AE7, 0x3F61C598),
  (0xBEFC5D27, 0x3F5EBE05), (0xBF039C3C, 0x3F5B941B), (0xBF08F59B, 0x3F584853), (0xBF0E39D9, 0x3F54DB32), (0xBF13682A, 0x3F514D3D),
  (0xBF187FC0, 0x3F4D9F02), (0xBF1D7FD1, 0x3F49D112), (0xBF226799, 0x3F45E403), (0xBF273655, 0x3F41D871), (0xBF2BEB49, 0x3F3DAEFA),
  (0xBF3085BA, 0x3F396842), (0xBF3504F3, 0x3F3504F3), (0xBF396842, 0x3F3085BB), (0xBF3DAEF9, 0x3F2BEB4A), (0xBF41D870, 0x3F273656),
  (0xBF45E403, 0x3F22679A), (0xBF49D112, 0x3F1D7FD2), (0xBF4D9F02, 0x3F187FC0), (0xBF514D3D, 0x3F13682B), (0xBF54DB31, 0x3F0E39DA),
  (0xBF584853, 0x3F08F59B), (0xBF5B941A, 0x3F039C3D), (0xBF5EBE05, 0x3EFC5D28), (0xBF61C597, 0x3EF15AEA), (0xBF64AA59, 0x3EE63375),
  (0xBF676BD8, 0x3EDAE880), (0xBF6A09A6, 0x3ECF7BCB), (0xBF6C835E, 0x3EC3EF16), (0xBF6ED89E, 0x3EB8442A), (0xBF710908, 0x3EAC7CD4),
  (0xBF731447, 0x3EA09AE5), (0xBF74FA0B, 0x3E94A031), (0xBF76BA07, 0x3E888E94), (0xBF7853F8, 0x3E78CFCD), (0xBF79C79D, 0x3E605C13),
  (0xBF7B14BE, 0x3E47C5C2), (0xBF7C3B28, 0x3E2F10A3), (0xBF7D3AAC, 0x3E164083), (0xBF7E1324, 0x3DFAB273), (0xBF7EC46D, 0x3DC8BD36),
  (0xBF7F4E6D, 0x3D96A905), (0xBF7FB10F, 0x3D48FB30), (0xBF7FEC43, 0x3CC90AB0), (0xBF800000, 0x00000000), (0xBF7FEC43, 0xBCC90AB0),
  (0xBF7FB10F, 0xBD48FB30), (0xBF7F4E6D, 0xBD96A905), (0xBF7EC46D, 0xBDC8BD36), (0xBF7E1324, 0xBDFAB273), (0xBF7D3AAC, 0xBE164083),
  (0xBF7C3B28, 0xBE2F10A3), (0xBF7B14BE, 0xBE47C5C2), (0xBF79C79D, 0xBE605C13), (0xBF7853F8, 0xBE78CFCD), (0xBF76BA07, 0xBE888E94),
  (0xBF74FA0B, 0xBE94A031), (0xBF731447, 0xBEA09AE5), (0xBF710908, 0xBEAC7CD4), (0xBF6ED89E, 0xBEB8442A), (0xBF6C835E, 0xBEC3EF16),
  (0xBF6A09A6, 0xBECF7BCB), (0xBF676BD8, 0xBEDAE880), (0xBF64AA59, 0xBEE63375), (0xBF61C597, 0xBEF15AEA), (0xBF5EBE05, 0xBEFC5D28),
  (0xBF5B941A, 0xBF039C3D), (0xBF584853, 0xBF08F59B), (0xBF54DB31, 0xBF0E39DA), (0xBF514D3D, 0xBF13682B), (0xBF4D9F02, 0xBF187FC0),
  (0xBF49D112, 0xBF1D7FD2), (0xBF45E403, 0xBF22679A), (0xBF41D870, 0xBF273656), (0xBF3DAEF9, 0xBF2BEB4A), (0xBF396842, 0xBF3085BB),
  (0xBF3504F3, 0xBF3504F3), (0xBF3085BA, 0xBF396842), (0xBF2BEB49, 0xBF3DAEFA), (0xBF273655, 0xBF41D871), (0xBF226799, 0xBF45E403),
  (0xBF1D7FD1, 0xBF49D112), (0xBF187FC0, 0xBF4D9F02), (0xBF13682A, 0xBF514D3D), (0xBF0E39D9, 0xBF54DB32), (0xBF08F59B, 0xBF584853),
  (0xBF039C3C, 0xBF5B941B), (0xBEFC5D27, 0xBF5EBE05), (0xBEF15AE7, 0xBF61C598), (0xBEE63374, 0xBF64AA59), (0xBEDAE881, 0xBF676BD8),
  (0xBECF7BC9, 0xBF6A09A7), (0xBEC3EF15, 0xBF6C835E), (0xBEB84427, 0xBF6ED89E), (0xBEAC7CD3, 0xBF710908), (0xBEA09AE2, 0xBF731448),
  (0xBE94A030, 0xBF74FA0B), (0xBE888E93, 0xBF76BA07), (0xBE78CFC8, 0xBF7853F8), (0xBE605C12, 0xBF79C79D), (0xBE47C5BC, 0xBF7B14BF),
  (0xBE2F10A0, 0xBF7C3B28), (0xBE164085, 0xBF7D3AAC), (0xBDFAB26C, 0xBF7E1324), (0xBDC8BD35, 0xBF7EC46D), (0xBD96A8FB, 0xBF7F4E6D),
  (0xBD48FB29, 0xBF7FB10F), (0xBCC90A7E, 0xBF7FEC43), (0x00000000, 0xBF800000), (0x3CC90A7E, 0xBF7FEC43), (0x3D48FB29, 0xBF7FB10F),
  (0x3D96A8FB, 0xBF7F4E6D), (0x3DC8BD35, 0xBF7EC46D), (0x3DFAB26C, 0xBF7E1324), (0x3E164085, 0xBF7D3AAC), (0x3E2F10A0, 0xBF7C3B28),
  (0x3E47C5BC, 0xBF7B14BF), (0x3E605C12, 0xBF79C79D), (0x3E78CFC8, 0xBF7853F8), (0x3E888E93, 0xBF76BA07), (0x3E94A030, 0xBF74FA0B),
  (0x3EA09AE2, 0xBF731448), (0x3EAC7CD3, 0xBF710908), (0x3EB84427, 0xBF6ED89E), (0x3EC3EF15, 0xBF6C835E), (0x3ECF7BC9, 0xBF6A09A7),
  (0x3EDAE881, 0xBF676BD8), (0x3EE63374, 0xBF64AA59), (0x3EF15AE7, 0xBF61C598), (0x3EFC5D27, 0xBF5EBE05), (0x3F039C3C, 0xBF5B941B),
  (0x3F08F59B, 0xBF584853), (0x3F0E39D9, 0xBF54DB32), (0x3F13682A, 0xBF514D3D), (0x3F187FC0, 0xBF4D9F02), (0x3F1D7FD1, 0xBF49D112),
  (0x3F226799, 0xBF45E403), (0x3F273655, 0xBF41D871), (0x3F2BEB49, 0xBF3DAEFA), (0x3F3085BA, 0xBF396842), (0x3F3504F3, 0xBF3504F3),
  (0x3F396842, 0xBF3085BB), (0x3F3DAEF9, 0xBF2BEB4A), (0x3F41D870, 0xBF273656), (0x3F45E403, 0xBF22679A), (0x3F49D112, 0xBF1D7FD2),
  (0x3F4D9F02, 0xBF187FC0), (0x3F514D3D, 0xBF13682B), (0x3F54DB31, 0xBF0E39DA), (0x3F584853, 0xBF08F59B), (0x3F5B941A, 0xBF039C3D),
  (0x3F5EBE05, 0xBEFC5D28), (0x3F61C597, 0xBEF15AEA), (0x3F64AA59, 0xBEE63375), (0x3F676BD8, 0xBEDAE880), (0x3F6A09A6, 0xBECF7BCB),
  (0x3F6C835E, 0xBEC3EF16), (0x3F6ED89E, 0xBEB8442A), (0x3F710908, 0xBEAC7CD4), (0x3F731447, 0xBEA09AE5), (0x3F74FA0B, 0xBE94A031),
  (0x3F76BA07, 0xBE888E94), (0x3F7853F8, 0xBE78CFCD), (0x3F79C79D, 0xBE605C13), (0x3F7B14BE, 0xBE47C5C2), (0x3F7C3B28, 0xBE2F10A3),
  (0x3F7D3AAC, 0xBE164083), (0x3F7E1324, 0xBDFAB273), (0x3F7EC46D, 0xBDC8BD36), (0x3F7F4E6D, 0xBD96A905), (0x3F7FB10F, 0xBD48FB30),
  (0x3F7FEC43, 0xBCC90AB0)]

/-- `cossin.x`, TSMath.cpp:233, 274, 313, 355. -/
def cosAlpha (n : Nat) : Flt := ofBits ((trigTable[n]?).getD (0, 0)).1

/-- `cossin.y`, TSMath.cpp:234, 275, 314, 356. -/
def sinAlpha (n : Nat) : Flt := ofBits ((trigTable[n]?).getD (0, 0)).2

/-- `VecNmsubScalar`, TSSimd.h:831-842; `VecNmsub` in the first component, TSSimd.h:818-829. -/
def nmsub (a b c : Flt) : Flt := sub c (mul a b)

/-- The argument in units of `tau / 256`, TSMath.cpp:228, 269, 307, 350. -/
def turns (x : Flt) : Flt := mul (fabs x) (const 0x4222F983)

/-- The integral part, TSMath.cpp:229, 270, 308, 351. -/
def whole (x : Flt) : Flt := positiveFloor (turns x)

/-- The rest as an angle, TSMath.cpp:230, 271, 309, 352. -/
def beta (x : Flt) : Flt := mul (sub (turns x) (whole x)) (const 0x3CC90FDB)

/-- `VecTruncateConvert(i) & 255`, TSMath.cpp:232, 273, 311, 354; TSSimd.h:584-595. -/
def index (i : Flt) : Nat :=
  match toInt i with
  | .ok n => (n % 256).toNat
  | _ => 0

/-- `sine_beta`, TSMath.cpp:236-237, 277-278, 315-316, 358-359. -/
def sineBeta (b : Flt) : Flt :=
  let b2 := mul b b
  nmsub (mul b b2) (nmsub b2 (const 0x3E2AAAAB) (const 0x3C088889)) b

/-- `cosine_beta`, TSMath.cpp:238, 279, 317, 360. -/
def cosineBeta (b : Flt) : Flt :=
  let b2 := mul b b
  nmsub b2 (nmsub b2 (const 0x3D2AAAAB) (const 0x3F000000)) (const 0x3F800000)

/-- `sine`, TSMath.cpp:240, 319, 362. -/
def sine (x : Flt) : Flt :=
  let n := index (whole x)
  add (mul (sinAlpha n) (cosineBeta (beta x))) (mul (cosAlpha n) (sineBeta (beta x)))

/-- `cosine`, TSMath.cpp:281, 320, 363. -/
def cosine (x : Flt) : Flt :=
  let n := index (whole x)
  sub (mul (cosAlpha n) (cosineBeta (beta x))) (mul (sinAlpha n) (sineBeta (beta x)))

/-- `(x < 0.0F) ? -r : r`. -/
def oddSign (x r : Flt) : Flt := if lt x zero then neg r else r

/-- `Sin`, TSMath.cpp:222-244. -/
def sin (x : Flt) : Flt := oddSign x (sine x)

/-- `Cos`, TSMath.cpp:263-283. -/
def cos (x : Flt) : Flt := cosine x

/-- `Tan`, TSMath.cpp:301-324. -/
def tan (x : Flt) : Flt := oddSign x (div (sine x) (cosine x))

/-- `CosSin`, TSMath.cpp:346-367: what is stored in `*c` and `*s`. -/
def cosSin (x : Flt) : Flt × Flt := (cosine x, oddSign x (sine x))

/-! ## Without SIMD -/

/-- `Fabs(x) * 40.74366543F`, TSMath.cpp:247, 286, 327, 370. -/
def turnsPlain (x : Flt) : Flt := mul (fabs x) (lit 4074366543 8)

/-- `PositiveFloor`, TSMath.h:317-331, is `Floor` without SIMD, TSMath.cpp:248, 287, 328, 371. -/
def wholePlain (x : Flt) : Flt := floorPlain (turnsPlain x)

/-- `(b - i) * 0.0245436926F`, TSMath.cpp:249, 288, 329, 372. -/
def betaPlain (x : Flt) : Flt := mul (sub (turnsPlain x) (wholePlain x)) (lit 245436926 10)

/-- `sine_beta`, TSMath.cpp:253-254, 292-293, 333-334, 376-377. -/
def sineBetaPlain (b : Flt) : Flt :=
  let b2 := mul b b
  sub b (mul (mul b b2) (sub (lit 1666666667 10) (mul b2 (lit 8333333333 12))))

/-- `cosine_beta`, TSMath.cpp:255, 294, 335, 378. -/
def cosineBetaPlain (b : Flt) : Flt :=
  let b2 := mul b b
  sub one (mul b2 (sub (const 0x3F000000) (mul b2 (lit 4166666667 11))))

/-- `GetTrigTable()[int32(i) & 255]`, TSMath.cpp:251, 290, 331, 374. -/
def indexPlain (i : Flt) : Out Nat := toInt i >>= fun n => .ok (n % 256).toNat

/-- `sine` for an index, TSMath.cpp:257, 337, 381. -/
def sineAt (n : Nat) (b : Flt) : Flt := add (mul (sinAlpha n) (cosineBetaPlain b)) (mul (cosAlpha n) (sineBetaPlain b))

/-- `cosine` for an index, TSMath.cpp:296, 338, 380. -/
def cosineAt (n : Nat) (b : Flt) : Flt := sub (mul (cosAlpha n) (cosineBetaPlain b)) (mul (sinAlpha n) (sineBetaPlain b))

/-- `Sin`, TSMath.cpp:245-258. -/
def sinPlain (x : Flt) : Out Flt := indexPlain (wholePlain x) >>= fun n => .ok (oddSign x (sineAt n (betaPlain x)))

/-- `Cos`, TSMath.cpp:284-296. -/
def cosPlain (x : Flt) : Out Flt := indexPlain (wholePlain x) >>= fun n => .ok (cosineAt n (betaPlain x))

/-- `Tan`, TSMath.cpp:325-341. -/
def tanPlain (x : Flt) : Out Flt := indexPlain (wholePlain x) >>= fun n =>
  .ok (oddSign x (div (sineAt n (betaPlain x)) (cosineAt n (betaPlain x))))

/-- `CosSin`, TSMath.cpp:368-382. -/
def cosSinPlain (x : Flt) : Out (Flt × Flt) := indexPlain (wholePlain x) >>= fun n =>
  .ok (cosineAt n (betaPlain x), oddSign x (sineAt n (betaPlain x)))

/-! ## Square roots -/

/-- `_mm_rsqrt_ss` and a step of Newton's method, TSMath.cpp:169-170 and 200-201. -/
def newton (rsqrt : Flt → Flt) (v : Flt) : Flt :=
  mul (sub (const 0x40400000) (mul v (mul (rsqrt v) (rsqrt v)))) (mul (rsqrt v) (const 0x3F000001))

/-- `Sqrt`, TSMath.cpp:160-173: the mask clears the bits of `r`. -/
def sqrt (rsqrt : Flt → Flt) (x : Flt) : Flt := mul (if lt x (const 0x00800000) then zero else newton rsqrt x) x

/-- `InverseSqrt`, TSMath.cpp:191-204. -/
def inverseSqrt (rsqrt : Flt → Flt) (x : Flt) : Flt := if lt x (const 0x00800000) then .inf false else newton rsqrt x

/-- The two steps of Newton's method, TSMath.cpp:184-185 and 215-216. -/
def newtonPlain (x r : Flt) : Flt := mul (mul (const 0x3F000000) r) (sub (const 0x40400000) (mul (mul x r) r))

/-- `asfloat(0x5F375A86 - (asuint(x) >> 1))`, TSMath.cpp:182-183 and 213-214. -/
def guess (x : Flt) : Flt := ofBits ((0x5F375A86 + 2 ^ 32 - toBits x / 2) % 2 ^ 32)

/-- `Sqrt`, TSMath.cpp:175-188. -/
def sqrtPlain (x : Flt) : Flt :=
  if lt x (const 0x00800000) then zero else mul (newtonPlain x (newtonPlain x (guess x))) x

/-- `InverseSqrt`, TSMath.cpp:206-219. -/
def inverseSqrtPlain (x : Flt) : Flt :=
  if lt x (const 0x00800000) then .inf false else newtonPlain x (newtonPlain x (guess x))

/-! ## Arctangents -/

/-- The table of `Arctan`, TSMath.cpp:402-411. -/
def atanTable : List Nat := [
  0x00000000, 0x3C7FFAAB, 0x3CFFEAAE, 0x3D3FDC0C, 0x3D7FAADE, 0x3D9FACF8, 0x3DBF70C1, 0x3DDF1CF6, 0x3DFEADD5, 0x3E0F0FD8,
  0x3E1EB777, 0x3E2E4C09, 0x3E3DCBDA, 0x3E4D3547, 0x3E5C86BB, 0x3E6BBEAF, 0x3E7ADBB0, 0x3E84EE2D, 0x3E8C5FAD, 0x3E93C1B9,
  0x3E9B13BA, 0x3EA25522, 0x3EA9856D, 0x3EB0A420, 0x3EB7B0CA, 0x3EBEAB02, 0x3EC5926A, 0x3ECC66AA, 0x3ED32776, 0x3ED9D489,
  0x3EE06DA6, 0x3EE6F29A, 0x3EED6338, 0x3EF3BF5C, 0x3EFA06E8, 0x3F001CE4, 0x3F032BF5, 0x3F0630A3, 0x3F092AED, 0x3F0C1AD4,
  0x3F0F005D, 0x3F11DB8F, 0x3F14AC73, 0x3F177314, 0x3F1A2F81, 0x3F1CE1C9, 0x3F1F89FE, 0x3F222833, 0x3F24BC7D, 0x3F2746F3,
  0x3F29C7AC, 0x3F2C3EC1, 0x3F2EAC4C, 0x3F311069, 0x3F336B32, 0x3F35BCC5, 0x3F38053E, 0x3F3A44BC, 0x3F3C7B5E, 0x3F3EA941,
  0x3F40CE86, 0x3F42EB4B, 0x3F44FFB0, 0x3F470BD5, 0x3F490FDB]

/-- `table[int32(i)]`, TSMath.cpp:423 and 439; the index is outside of the table from 65 on. -/
def atanEntry (i : Flt) : Out Flt := toInt i >>= fun n =>
  if n < 0 then .ub
  else match atanTable[n.toNat]? with
    | some b => .ok (ofBits b)
    | none => .ub

/-- `PositiveFloor(a * 64.0F)`, TSMath.cpp:419-420 and 435-436. -/
def atanIndex (a : Flt) : Flt := positiveFloor (mul a (const 0x42800000))

/-- `arctan_c`, TSMath.cpp:421, 424-427, 437 and 440-443. -/
def atanRest (a i : Flt) : Flt :=
  let b := mul i (const 0x3C800000)
  let c := div (sub a b) (add (mul a b) one)
  let c2 := mul c c
  mul c (sub one (mul c2 (add (lit 3333333333 10) (mul c2 (sub (lit 2 1) (mul c2 (lit 1428571429 10)))))))

/-- `arctan_b + arctan_c`, TSMath.cpp:419-428 and 435-444. -/
def atanUnit (a : Flt) : Out Flt := atanEntry (atanIndex a) >>= fun t => .ok (add t (atanRest a (atanIndex a)))

/-- `Math::tau_over_4` and `Math::tau_over_2`, TSMath.cpp:34 and 37. -/
def tauOver2 : Flt := lit 31415926535897932384626433832795 31
def tauOver4 : Flt := lit 15707963267948966192313216916398 31

/-- `x <= y`. -/
def le (x y : Flt) : Bool := lt x y || eq x y

/-- `Arctan(x)`, TSMath.cpp:398-448. -/
def arctan (x : Flt) : Out Flt :=
  if le (fabs x) one then atanUnit (fabs x) >>= fun r => .ok (oddSign x r)
  else atanUnit (div one (fabs x)) >>= fun r => .ok (oddSign x (sub tauOver4 r))

/-- `Arctan(y, x)`, TSMath.cpp:450-477. -/
def arctan2 (y x : Flt) : Out Flt :=
  if lt (const 0x00800000) (fabs y) then
    if lt (const 0x00800000) (fabs x) then
      arctan (div y x) >>= fun r =>
        .ok (if lt x zero then (if le zero y then add r tauOver2 else sub r tauOver2) else r)
    else .ok (if lt y zero then neg tauOver4 else tauOver4)
  else .ok (if lt x zero then tauOver2 else zero)

/-- `Arcsin`, TSMath.cpp:387-390; with an implementation of `InverseSqrt`. -/
def arcsinOf (inverse : Flt → Flt) (y : Flt) : Out Flt := arctan (mul y (inverse (sub one (mul y y))))

/-- `Arccos`, TSMath.cpp:392-396; with an implementation of `Sqrt`. -/
def arccosOf (root : Flt → Flt) (x : Flt) : Out Flt :=
  arctan (div (root (sub one (mul x x))) x) >>= fun r => .ok (if lt x zero then add r tauOver2 else r)

/-- `Arcsin` and `Arccos` with SSE. -/
def arcsin (rsqrt : Flt → Flt) : Flt → Out Flt := arcsinOf (inverseSqrt rsqrt)
def arccos (rsqrt : Flt → Flt) : Flt → Out Flt := arccosOf (sqrt rsqrt)

/-- `Arcsin` and `Arccos` without SIMD. -/
def arcsinPlain : Flt → Out Flt := arcsinOf inverseSqrtPlain
def arccosPlain : Flt → Out Flt := arccosOf sqrtPlain

end Verif.Trig
