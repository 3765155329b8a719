import Verif.Model.MathFns

/-!
# The constants of the namespace `Math`

TSMath.cpp:25-78. Literals are converted to the nearest float, quotients are computed in floats.
-/

namespace Verif.MathConst

open Verif Verif.B32 Verif.MathFns

/-- TSMath.cpp:25-28. -/
def infinity : Flt := const 0x7F800000
def minusInfinity : Flt := const 0xFF800000
def minFloat : Flt := const 0x00800000
def maxFloat : Flt := const 0x7F7FFFFF

/-- TSMath.cpp:30-78. -/
def tau : Flt := lit 62831853071795864769252867665590 31
def twoTau : Flt := lit 12566370614359172953850573533118 30
def threeTauOver4 : Flt := lit 47123889803846898576939650749193 31
def threeTauOver8 : Flt := lit 23561944901923449288469825374596 31
def tauOver2 : Flt := lit 31415926535897932384626433832795 31
def tauOver3 : Flt := lit 20943951023931954923084289221863 31
def twoTauOver3 : Flt := lit 41887902047863909846168578443727 31
def tauOver4 : Flt := lit 15707963267948966192313216916398 31
def tauOver6 : Flt := lit 10471975511965977461542144610932 31
def tauOver8 : Flt := lit 78539816339744830961566084581988 32
def tauOver12 : Flt := lit 52359877559829887307710723054658 32
def tauOver16 : Flt := lit 39269908169872415480783042290994 32
def tauOver24 : Flt := lit 26179938779914943653855361527329 32
def tauOver40 : Flt := lit 15707963267948966192313216916398 32
def oneOverTau : Flt := div one tau
def twoOverTau : Flt := div (const 0x40000000) tau
def fourOverTau : Flt := div (const 0x40800000) tau
def oneOverTwoTau : Flt := div (const 0x3F000000) tau
def pi : Flt := lit 31415926535897932384626433832795 31
def twoPi : Flt := lit 62831853071795864769252867665590 31
def fourPi : Flt := lit 12566370614359172953850573533118 30
def threePiOver2 : Flt := lit 47123889803846898576939650749193 31
def threePiOver4 : Flt := lit 23561944901923449288469825374596 31
def twoPiOver3 : Flt := lit 20943951023931954923084289221863 31
def fourPiOver3 : Flt := lit 41887902047863909846168578443727 31
def piOver2 : Flt := lit 15707963267948966192313216916398 31
def piOver3 : Flt := lit 10471975511965977461542144610932 31
def piOver4 : Flt := lit 78539816339744830961566084581988 32
def piOver6 : Flt := lit 52359877559829887307710723054658 32
def piOver8 : Flt := lit 39269908169872415480783042290994 32
def piOver12 : Flt := lit 26179938779914943653855361527329 32
def piOver20 : Flt := lit 15707963267948966192313216916398 32
def oneOverPi : Flt := div one pi
def oneOverTwoPi : Flt := div (const 0x3F000000) pi
def oneOverFourPi : Flt := div (const 0x3E800000) pi
def sqrt2 : Flt := lit 14142135623730950488016887242097 31
def sqrt2Over2 : Flt := lit 70710678118654752440084436210485 32
def sqrt2Over3 : Flt := lit 47140452079103168293389624140323 32
def sqrt3 : Flt := lit 17320508075688772935274463415059 31
def sqrt3Over2 : Flt := lit 86602540378443864676372317075294 32
def sqrt3Over3 : Flt := lit 57735026918962576450914878050196 32
def ln2 : Flt := lit 69314718055994530941723212145818 32
def oneOverLn2 : Flt := lit 14426950408889634073599246810019 31
def ln10 : Flt := lit 23025850929940456840179914546844 31
def oneOverLn10 : Flt := lit 43429448190325182765112891891661 32
def ln256 : Flt := lit 55451774444795624753378569716654 31

end Verif.MathConst
