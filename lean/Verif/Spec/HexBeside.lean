import Verif.Spec.StaticBuffers

/-! # Reading in hexadecimal -/
set_option autoImplicit false

namespace Ecl.Spec
open Ecl.StaticBuf

/-- After spaces and ends of line the text begins with `0x` or `x`. -/
def isHex (inp : List Char) : Bool :=
  match inp.dropWhile fun c => c = ' ' || c = '\n' with
  | '0' :: 'x' :: _ => true
  | 'x' :: _ => true
  | _ => false

/-- A call that reads a number in hexadecimal. -/
def readsHex {V : Type} : Call V → Bool
  | .getInt _ _ inp => isHex inp
  | _ => false

end Ecl.Spec
