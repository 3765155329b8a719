import Verif.Model.Simd

/-!
# Model of the vectors of integers of TSSimd.h (SSE)

TSSimd.h:1924-2410. The types `vec_int8`, `vec_uint8`, `vec_int16`, `vec_uint16`, `vec_int32` and `vec_uint32` are all `__m128i`
(TSSimd.h:265-270): sixteen bytes, of which the words of two and of four bytes are made with the least significant byte first. The
instructions are as Intel documents them.
-/

namespace Verif.SimdInt

open Verif Verif.B32 Verif.Simd

/-- `__m128i`. -/
abbrev Reg := Fin 16 → BitVec 8

/-- The words of two bytes. -/
def h16 (v : Reg) (i : Fin 8) : BitVec 16 := v ⟨2 * i.val + 1, by omega⟩ ++ v ⟨2 * i.val, by omega⟩

/-- The words of four bytes. -/
def w32 (v : Reg) (i : Fin 4) : BitVec 32 := h16 v ⟨2 * i.val + 1, by omega⟩ ++ h16 v ⟨2 * i.val, by omega⟩

/-- A register of words of two bytes. -/
def of16 (f : Fin 8 → BitVec 16) : Reg := fun i =>
  if i.val % 2 = 0 then (f ⟨i.val / 2, by omega⟩).extractLsb' 0 8 else (f ⟨i.val / 2, by omega⟩).extractLsb' 8 8

/-- A register of words of four bytes. -/
def of32 (f : Fin 4 → BitVec 32) : Reg :=
  of16 fun i => if i.val % 2 = 0 then (f ⟨i.val / 2, by omega⟩).extractLsb' 0 16 else (f ⟨i.val / 2, by omega⟩).extractLsb' 16 16

/-! ## Instructions -/

/-- `_mm_setzero_si128`. -/
def setzero : Reg := fun _ => 0

/-- `_mm_unpacklo_epi8` and `_mm_unpackhi_epi8`. -/
def unpacklo8 (a b : Reg) : Reg := fun i => if i.val % 2 = 0 then a ⟨i.val / 2, by omega⟩ else b ⟨i.val / 2, by omega⟩
def unpackhi8 (a b : Reg) : Reg := fun i => if i.val % 2 = 0 then a ⟨8 + i.val / 2, by omega⟩ else b ⟨8 + i.val / 2, by omega⟩

/-- `_mm_unpacklo_epi16` and `_mm_unpackhi_epi16`. -/
def unpacklo16 (a b : Reg) : Reg :=
  of16 fun i => if i.val % 2 = 0 then h16 a ⟨i.val / 2, by omega⟩ else h16 b ⟨i.val / 2, by omega⟩
def unpackhi16 (a b : Reg) : Reg :=
  of16 fun i => if i.val % 2 = 0 then h16 a ⟨4 + i.val / 2, by omega⟩ else h16 b ⟨4 + i.val / 2, by omega⟩

/-- `_mm_cmplt_epi8` and `_mm_cmplt_epi16`. -/
def cmplt8 (a b : Reg) : Reg := fun i => if (a i).slt (b i) then 0xFF else 0
def cmplt16 (a b : Reg) : Reg := of16 fun i => if (h16 a i).slt (h16 b i) then 0xFFFF else 0

/-- Signed and unsigned saturation. -/
def sat16 (x : BitVec 32) : BitVec 16 := if x.toInt < -32768 then 0x8000 else if 32767 < x.toInt then 0x7FFF else x.extractLsb' 0 16
def sat8 (x : BitVec 16) : BitVec 8 := if x.toInt < -128 then 0x80 else if 127 < x.toInt then 0x7F else x.extractLsb' 0 8
def satu8 (x : BitVec 16) : BitVec 8 := if x.toInt < 0 then 0 else if 255 < x.toInt then 0xFF else x.extractLsb' 0 8

/-- `_mm_packs_epi32`, `_mm_packs_epi16` and `_mm_packus_epi16`. -/
def packs32 (a b : Reg) : Reg :=
  of16 fun i => if h : i.val < 4 then sat16 (w32 a ⟨i.val, h⟩) else sat16 (w32 b ⟨i.val - 4, by omega⟩)
def packs16 (a b : Reg) : Reg := fun i => if h : i.val < 8 then sat8 (h16 a ⟨i.val, h⟩) else sat8 (h16 b ⟨i.val - 8, by omega⟩)
def packus16 (a b : Reg) : Reg := fun i => if h : i.val < 8 then satu8 (h16 a ⟨i.val, h⟩) else satu8 (h16 b ⟨i.val - 8, by omega⟩)

/-- `_MM_SHUFFLE(p3, p2, p1, p0)` as a function. -/
def select (p3 p2 p1 p0 : Fin 4) : Fin 4 → Fin 4
  | 0 => p0
  | 1 => p1
  | 2 => p2
  | 3 => p3

/-- `_mm_shuffle_epi32`, `_mm_shufflelo_epi16` and `_mm_shufflehi_epi16`. -/
def shuffle32 (a : Reg) (p : Fin 4 → Fin 4) : Reg := of32 fun i => w32 a (p i)
def shufflelo16 (a : Reg) (p : Fin 4 → Fin 4) : Reg :=
  of16 fun i => if h : i.val < 4 then h16 a ⟨(p ⟨i.val, h⟩).val, by omega⟩ else h16 a i
def shufflehi16 (a : Reg) (p : Fin 4 → Fin 4) : Reg :=
  of16 fun i => if i.val < 4 then h16 a i else h16 a ⟨4 + (p ⟨i.val - 4, by omega⟩).val, by omega⟩

/-- `_mm_cvtsi128_si32`. -/
def cvtsi32 (a : Reg) : BitVec 32 := w32 a 0

/-- One component of `_mm_cvtepi32_ps`: the nearest float. -/
def cvtW (x : BitVec 32) : Word := wd (ofInt x.toInt)

/-- One component of `_mm_cvtps_epi32`: the nearest integer, in a tie the even one; `0x80000000` if it does not fit. -/
def cvtnW (w : Word) : BitVec 32 :=
  match fl w with
  | .fin s m q =>
    let n : Int := B64.rne (m * 2 ^ q) (2 ^ 149)
    let n := if s then -n else n
    if -2147483648 ≤ n ∧ n ≤ 2147483647 then BitVec.ofInt 32 n else 0x80000000
  | _ => 0x80000000

/-- One component of `vcvtq_s32_f32` of NEON: the fraction is dropped, numbers that do not fit give the nearest number that does, NaN gives zero. -/
def vcvtW (w : Word) : BitVec 32 :=
  match fl w with
  | .fin s m q =>
    let n : Int := (m * 2 ^ q / 2 ^ 149 : Nat)
    let n := if s then -n else n
    if n < -2147483648 then 0x80000000 else if 2147483647 < n then 0x7FFFFFFF else BitVec.ofInt 32 n
  | .inf s => if s then 0x80000000 else 0x7FFFFFFF
  | .nan => 0

/-! ## Constants and memory -/

/-- `VecInt8GetZero`, `VecInt16GetZero` and `VecInt32GetZero`, TSSimd.h:1924-1961. -/
def vecInt8GetZero : Reg := setzero
def vecInt16GetZero : Reg := setzero
def vecInt32GetZero : Reg := setzero

/-- `VecInt8GetInfinity`, TSSimd.h:1963-1975. -/
def vecInt8GetInfinity : Reg := fun _ => 0x80

/-- A block of bytes at an address. -/
structure Block8 where
  addr : Nat
  data : List (BitVec 8)

/-- `_mm_loadu_si128` of the bytes from index `i` on. -/
def loadu (m : Block8) (i : Nat) : Out Reg :=
  if i + 16 ≤ m.data.length then .ok fun k => (m.data[i + k.val]?).getD 0 else .ub

/-- `_mm_load_si128`: the address must be a multiple of 16. -/
def loada (m : Block8) (i : Nat) : Out Reg := if (m.addr + i) % 16 = 0 then loadu m i else .ub

/-- `VecInt8Load` and `VecUInt8Load`, TSSimd.h:1977-1988, 2003-2014. -/
def vecInt8Load (m : Block8) (i : Nat) : Out Reg := loada m i

/-- `VecInt8LoadUnaligned` and `VecUInt8LoadUnaligned`, TSSimd.h:1990-2001, 2016-2027. -/
def vecInt8LoadUnaligned (m : Block8) (i : Nat) : Out Reg := loadu m i

/-- `VecInt16Load` and `VecUInt16Load` of the words from number `i` on, TSSimd.h:2029-2040, 2055-2066. -/
def vecInt16Load (m : Block8) (i : Nat) : Out Reg := loada m (2 * i)

/-- `VecInt16LoadUnaligned` and `VecUInt16LoadUnaligned`, TSSimd.h:2042-2053, 2068-2079. -/
def vecInt16LoadUnaligned (m : Block8) (i : Nat) : Out Reg := loadu m (2 * i)

/-- `VecInt32StoreX`, `VecInt32StoreY`, `VecInt32StoreZ` and `VecInt32StoreW`, TSSimd.h:2081-2131: the integer that is stored. -/
def vecInt32StoreX (v : Reg) : BitVec 32 := cvtsi32 v
def vecInt32StoreY (v : Reg) : BitVec 32 := cvtsi32 (shuffle32 v (select 1 1 1 1))
def vecInt32StoreZ (v : Reg) : BitVec 32 := cvtsi32 (shuffle32 v (select 2 2 2 2))
def vecInt32StoreW (v : Reg) : BitVec 32 := cvtsi32 (shuffle32 v (select 3 3 3 3))

/-! ## Packing and unpacking -/

/-- `VecInt32PackSaturate` of one vector, TSSimd.h:2133-2145. -/
def vecInt32PackSaturate (v : Reg) : Reg := packs32 v v

/-- `VecInt32PackSaturate` of two vectors, TSSimd.h:2147-2158. -/
def vecInt32PackSaturate2 (a b : Reg) : Reg := packs32 a b

/-- `VecInt16PackSaturate`, TSSimd.h:2160-2172. -/
def vecInt16PackSaturate (v : Reg) : Reg := packs16 v v

/-- `VecInt16PackUnsignedSaturate`, TSSimd.h:2174-2186. -/
def vecInt16PackUnsignedSaturate (v : Reg) : Reg := packus16 v v

/-- `VecInt8UnpackA` and `VecInt8UnpackB`, TSSimd.h:2188-2212. -/
def vecInt8UnpackA (v : Reg) : Reg := unpacklo8 v (cmplt8 v setzero)
def vecInt8UnpackB (v : Reg) : Reg := unpackhi8 v (cmplt8 v setzero)

/-- `VecUInt8UnpackA` and `VecUInt8UnpackB`, TSSimd.h:2214-2238. -/
def vecUInt8UnpackA (v : Reg) : Reg := unpacklo8 v setzero
def vecUInt8UnpackB (v : Reg) : Reg := unpackhi8 v setzero

/-- `VecInt16UnpackA` and `VecInt16UnpackB`, TSSimd.h:2240-2264. -/
def vecInt16UnpackA (v : Reg) : Reg := unpacklo16 v (cmplt16 v setzero)
def vecInt16UnpackB (v : Reg) : Reg := unpackhi16 v (cmplt16 v setzero)

/-- `VecUInt16UnpackA` and `VecUInt16UnpackB`, TSSimd.h:2266-2290. -/
def vecUInt16UnpackA (v : Reg) : Reg := unpacklo16 v setzero
def vecUInt16UnpackB (v : Reg) : Reg := unpackhi16 v setzero

/-- `VecInt8MergeA` and `VecUInt8MergeA`, TSSimd.h:2292-2303, 2318-2329. -/
def vecInt8MergeA (a b : Reg) : Reg := unpacklo8 a b

/-- `VecInt8MergeB` and `VecUInt8MergeB`, TSSimd.h:2305-2316, 2331-2342. -/
def vecInt8MergeB (a b : Reg) : Reg := unpackhi8 a b

/-- `VecInt16Deinterleave`, TSSimd.h:2344-2358. -/
def vecInt16Deinterleave (v : Reg) : Reg :=
  let i := shufflelo16 v (select 3 1 2 0)
  let i := shufflehi16 i (select 3 1 2 0)
  shuffle32 i (select 3 1 2 0)

/-! ## Conversion and arithmetic -/

/-- `VecInt32ConvertFloat`, TSSimd.h:2360-2371. -/
def vecInt32ConvertFloat (v : Reg) : Vec := fun i => cvtW (w32 v i)

/-- `VecConvertInt32`, TSSimd.h:2373-2384. -/
def vecConvertInt32 (v : Vec) : Reg := of32 fun i => cvtnW (v i)

/-- `VecConvertInt32` compiled for NEON, TSSimd.h:2379-2381. -/
def vecConvertInt32Neon (v : Vec) : Reg := of32 fun i => vcvtW (v i)

/-- `VecInt32Add` and `VecInt32Sub`, TSSimd.h:2386-2410. -/
def vecInt32Add (a b : Reg) : Reg := of32 fun i => w32 a i + w32 b i
def vecInt32Sub (a b : Reg) : Reg := of32 fun i => w32 a i - w32 b i

end Verif.SimdInt
