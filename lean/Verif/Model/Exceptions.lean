import Verif.Core.Outcome

/-!
# Model of `ecl_exceptions`: `StandardException` and `DataException`

Texts are lists of characters.  The text of a flag (`Error::what`, package `ecl_errors`, not in the
repository) and the text that `operator<<` writes for the data are parameters.
-/
set_option autoImplicit false

namespace Ecl.Exc

/-- A text (`std::string`, `standard_exception.hpp:69-102`). -/
abbrev Text := List Char

/-- `StandardException` (`ecl_exceptions/include/ecl/exceptions/standard_exception.hpp:54-103`):
`location` is the member of the base class `Exception`. -/
structure Std where
  location : Text
  flag : Flag
  detail : Text
  combined : Text
  deriving DecidableEq, Repr

/-- `create_combined_message` (`ecl_exceptions/src/lib/standard_exception.cpp:56-61`). -/
def Std.combine (name : Flag → Text) (e : Std) : Std :=
  let c := "\nLocation : ".toList ++ e.location ++ "\n".toList ++ "Flag     : ".toList ++ name e.flag
    ++ "\n".toList
  if e.detail.length > 0 then { e with combined := c ++ "Detail   : ".toList ++ e.detail ++ "\n".toList }
  else { e with combined := c }

/-- `StandardException(loc, error)` (`32-37`). -/
def Std.plain (name : Flag → Text) (loc : Text) (f : Flag) : Std :=
  ({ location := loc, flag := f, detail := [], combined := [] } : Std).combine name

/-- `StandardException(loc, error, msg)` (`39-45`). -/
def Std.make (name : Flag → Text) (loc : Text) (f : Flag) (msg : Text) : Std :=
  ({ location := loc, flag := f, detail := msg, combined := [] } : Std).combine name

/-- `StandardException(loc, e)`, the constructor for rethrowing (`47-54`). -/
def Std.rethrow (name : Flag → Text) (loc : Text) (e : Std) : Std :=
  ({ location := loc ++ "\n         : ".toList ++ e.location, flag := e.flag, detail := e.detail,
     combined := [] } : Std).combine name

/-- `what()` (`62-65`): a C string, so it ends at the first NUL. -/
def Std.what (e : Std) : Text := e.combined.takeWhile (· ≠ '\x00')

/-- `DataException<Data>` (`ecl_exceptions/include/ecl/exceptions/data_exception.hpp:57-78`). -/
structure Dat (δ : Type) where
  location : Text
  flag : Flag
  data : δ
  message : Text
  combined : Text

variable {δ : Type}

/-- `create_combined_message` (`133-144`). -/
def Dat.combine (name : Flag → Text) (shown : δ → Text) (e : Dat δ) : Dat δ :=
  { e with
    combined := "\n".toList ++ "Location : ".toList ++ e.location ++ "\n".toList
      ++ "Flag     : ".toList ++ name e.flag ++ "\n".toList
      ++ (if e.message.length > 0 then "Detail   : ".toList ++ e.message ++ "\n".toList else [])
      ++ "Data     : ".toList ++ shown e.data ++ "\n".toList }

/-- `DataException(loc, error, msg, d)` (`104-112`); without a message (`89-96`) `msg` is empty. -/
def Dat.make (name : Flag → Text) (shown : δ → Text) (loc : Text) (f : Flag) (msg : Text) (d : δ) : Dat δ :=
  ({ location := loc, flag := f, data := d, message := msg, combined := [] } : Dat δ).combine name shown

/-- `DataException(loc, e)` (`119-128`). -/
def Dat.rethrow (name : Flag → Text) (shown : δ → Text) (loc : Text) (e : Dat δ) : Dat δ :=
  ({ location := loc ++ "\n         : ".toList ++ e.location, flag := e.flag, data := e.data,
     message := e.message, combined := [] } : Dat δ).combine name shown

/-- `what()` (`151-154`). -/
def Dat.what (e : Dat δ) : Text := e.combined.takeWhile (· ≠ '\x00')

end Ecl.Exc
