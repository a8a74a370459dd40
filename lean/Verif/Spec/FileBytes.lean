import Verif.Model.FileBuffer

/-!
# What a file should hold after writes
-/
set_option autoImplicit false

namespace Ecl.Props
open FileBuffer

variable {α : Type _}

/-- What a file that held `old` holds after `bytes` have been stored: mode `New` overwrites it from its beginning
(C71), mode `Append` adds to its end. -/
def storedBytes (old : List α) (mode : WMode) (bytes : List α) : List α :=
  match mode with
  | .new => bytes ++ old.drop bytes.length
  | .append => old ++ bytes

/-- The bytes a call hands over. -/
def fileBytes : FileBuffer.Op α → List α
  | .write bs _ => bs
  | _ => []

/-- A write or a flush. -/
def isOutput : FileBuffer.Op α → Prop
  | .write _ _ => True
  | .flush _ => True
  | _ => False

/-- The result by which a call reports success: all bytes taken, or `true`. -/
def fileSuccess : FileBuffer.Op α → Int
  | .write bs _ => bs.length
  | _ => 1

end Ecl.Props
