/-!
# Common definitions: bytes, outcomes, status codes
-/

namespace Verif

/-- A `char` / `uint8` of the C++ code, seen as an unsigned byte
(the parser casts every text to `const uint8*`, e.g. C4Json.cpp:613). -/
abbrev Byte := UInt8

/-- Byte strings. A C++ pointer into a buffer is represented by the bytes from
the pointer up to the end of the buffer. -/
abbrev Bytes := List UInt8

/-- Outcome of a piece of C++ code.

* `ok a`  : the code returned `a`;
* `ub`    : the code had undefined behaviour (out-of-bounds access, null
  dereference, ...);
* `fuel`  : the model ran out of fuel (the code may run forever). -/
inductive Out (α : Type) where
  | ok (a : α)
  | ub
  | fuel
  deriving DecidableEq, Repr

namespace Out

/-- Sequencing of outcomes: `ub` and `fuel` stop the computation. -/
@[inline] def bind {α β : Type} (x : Out α) (f : α → Out β) : Out β :=
  match x with
  | ok a => f a
  | ub => ub
  | fuel => fuel

instance : Monad Out where
  pure := Out.ok
  bind := Out.bind

@[simp] theorem pure_eq {α : Type} (a : α) : (pure a : Out α) = .ok a := rfl
@[simp] theorem ok_bind {α β : Type} (a : α) (f : α → Out β) : (Out.ok a >>= f) = f a := rfl
@[simp] theorem ub_bind {α β : Type} (f : α → Out β) : ((Out.ub : Out α) >>= f) = .ub := rfl
@[simp] theorem fuel_bind {α β : Type} (f : α → Out β) : ((Out.fuel : Out α) >>= f) = .fuel := rfl

theorem bind_eq_ok {α β : Type} {x : Out α} {f : α → Out β} {b : β} :
    (x >>= f) = .ok b ↔ ∃ a, x = .ok a ∧ f a = .ok b := by
  cases x <;> simp

end Out

/-- `C4::Json::Status`, C4Json.h:131-160, in the order of the enumeration. -/
inductive Status where
  | kOk
  | KFileOpenError
  | KFileReadError
  | KFileTooLarge
  | kTextBufferContentsInvalid
  | kUnterminatedTextBuffer
  | kExpectedOpeningCurlyBraces
  | kExpectedClosingCurlyBracesOrComma
  | kExpectedOpeningSquareBrackets
  | kExpectedClosingSquareBracketsOrComma
  | kStringIllegalChar
  | kStringIllegalEscape
  | kExpectedColon
  | kExpectedBeginingDoubleQuotes
  | kExpectedEndingDoubleQuotes
  | kFloatInvalid
  | kExpectedTrueOrFalse
  | kExpectedNull
  | kExpectedJsonValue
  | kExpectedEndOfFile
  | kPrematureNullTerminator
  | kNumbersCannotHaveLeadingZeros
  | kInvalidStructuredData
  | kMissingObjectElement
  | kException
  | kInvalidValueType
  | kNameNotPresent
  deriving DecidableEq, Repr

end Verif
