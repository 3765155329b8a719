import Verif.Model.DynString

/-!
# Numbers in `String<0>`: the unsigned and the 64-bit operators

Code/Terathon/TSString.cpp. The operators for `uint32` and `uint64` pass their argument to functions for signed
integers; the conversion is modular (this is implementation-defined before C++20, and what all compilers do).

Simplifications: those of `Model/DynString.lean`.
-/

namespace Verif.Dyn

open Verif Verif.Text Verif.Str

/-- `String<0>(uint32 n)`, TSString.cpp:196-201. -/
def newUInt (wrapv : Bool) (n : Nat) : Out Dyn :=
  integerToString wrapv (toSigned 32 n) 0 15 loc0 >>= fun r =>
  .ok { logical := r.2 + 1, physical := 16, heap := none, loc := r.1 }

/-- `String<0>(uint32 n, const char *s1)`, TSString.cpp:260-269 (`operator +(uint32)`, TSString.h:495). -/
def newPlusUInt (wrapv : Bool) (g : Nat → Byte) (t1 : Bytes) (n : Nat) : Out Dyn :=
  getTextLength t1 >>= fun len1 =>
  let size := len1 + 64
  copyInto (.ext t1) 0 (fresh g (physSize size)) >>= fun b =>
  integerToString wrapv (toSigned 32 n) len1 63 b >>= fun r =>
  .ok { logical := len1 + r.2 + 1, physical := physSize size, heap := some r.1, loc := loc0 }

/-- `String<0>(int64 n, const char *s1)`, TSString.cpp:271-280 (`operator +(int64)`, TSString.h:500). -/
def newPlusInt64 (wrapv : Bool) (g : Nat → Byte) (t1 : Bytes) (n : Int) : Out Dyn :=
  getTextLength t1 >>= fun len1 =>
  let size := len1 + 64
  copyInto (.ext t1) 0 (fresh g (physSize size)) >>= fun b =>
  integer64ToString wrapv n len1 63 b >>= fun r =>
  .ok { logical := len1 + r.2 + 1, physical := physSize size, heap := some r.1, loc := loc0 }

/-- `operator =(uint32 n)`, TSString.cpp:417-422. -/
def setUInt (wrapv : Bool) (g : Nat → Byte) (n : Nat) (s : Dyn) : Out Dyn :=
  let s' := (resize g 64 s).1
  integerToString wrapv (toSigned 32 n) 0 63 s'.data >>= fun r => .ok { s'.store r.1 with logical := r.2 + 1 }

/-- `operator =(int64 n)`, TSString.cpp:424-429. -/
def setInt64 (wrapv : Bool) (g : Nat → Byte) (n : Int) (s : Dyn) : Out Dyn :=
  let s' := (resize g 64 s).1
  integer64ToString wrapv n 0 63 s'.data >>= fun r => .ok { s'.store r.1 with logical := r.2 + 1 }

/-- `operator +=(uint32 n)`, TSString.cpp:536-555. -/
def appendUInt (wrapv : Bool) (g : Nat → Byte) (n : Nat) (s : Dyn) : Out Dyn :=
  grow g (s.logical + 64) s >>= fun r =>
  integerToString wrapv (toSigned 32 n) (r.1.logical - 1) 63 r.1.data >>= fun p =>
  .ok { r.1.store p.1 with logical := r.1.logical + p.2 }

/-- `operator +=(int64 n)`, TSString.cpp:557-576. -/
def appendInt64 (wrapv : Bool) (g : Nat → Byte) (n : Int) (s : Dyn) : Out Dyn :=
  grow g (s.logical + 64) s >>= fun r =>
  integer64ToString wrapv n (r.1.logical - 1) 63 r.1.data >>= fun p =>
  .ok { r.1.store p.1 with logical := r.1.logical + p.2 }

/-- `operator +=(uint64 n)`, TSString.cpp:578-597. -/
def appendUInt64 (wrapv : Bool) (g : Nat → Byte) (n : Nat) (s : Dyn) : Out Dyn :=
  grow g (s.logical + 64) s >>= fun r =>
  integer64ToString wrapv (toSigned 64 n) (r.1.logical - 1) 63 r.1.data >>= fun p =>
  .ok { r.1.store p.1 with logical := r.1.logical + p.2 }

end Verif.Dyn
