import Verif.Model.TextTools
import Verif.Model.Map

/-!
# Model of the key classes (Code/Terathon/TSString.h:539-683)

`ConstCharKey`, `StringKey` and `FileNameKey` hold a pointer to a text and compare it with another text (the second
operand is converted to `const char *`, 558-561, 607-610, 656-659). A map whose elements have such a key compares
keys with `operator <` only (TSMap.h:585-775).
-/

namespace Verif.Keys

open Verif Verif.Text Verif.Tools

/-- The three classes. -/
inductive KeyClass where
  | constChar
  | string
  | fileName
  deriving DecidableEq, Repr

/-- `operator ==(const char *c)`, TSString.h:571-574, 620-623 and 669-672. -/
def keyEq : KeyClass → Bytes → Bytes → Out Bool
  | .constChar, ptr, c => compareText ptr c
  | .string, ptr, c => compareText ptr c
  | .fileName, ptr, c => compareTextCaseless ptr c

/-- `operator !=(const char *c)`, TSString.h:576-579, 625-628 and 674-677. -/
def keyNe : KeyClass → Bytes → Bytes → Out Bool
  | .constChar, ptr, c => compareText ptr c >>= fun r => .ok !r
  | .string, ptr, c => compareText ptr c >>= fun r => .ok !r
  | .fileName, ptr, c => compareTextCaseless ptr c >>= fun r => .ok !r

/-- `operator <(const char *c)`, TSString.h:581-584, 630-633 and 679-682. -/
def keyLess : KeyClass → Bytes → Bytes → Out Bool
  | .constChar, ptr, c => compareTextLessThan ptr c
  | .string, ptr, c => compareTextLessThan ptr c
  | .fileName, ptr, c => compareNumberedCaseless ptr c

/-- The order that `Map<type>` uses for elements whose key is of class `K` and points to the text `text k`. (The
comparison of terminated texts is always defined, see C131.) -/
def mapLess {κ : Type} (K : KeyClass) (text : κ → Bytes) (a b : κ) : Bool :=
  match keyLess K (text a) (text b) with
  | .ok r => r
  | _ => false

end Verif.Keys
