import Verif.Model.StreamDevice

/-!
# What a text stream should report of its device
-/
set_option autoImplicit false

namespace Ecl.Spec
open Ecl.StreamDevice

/-- A call made the reads of `dev` up to `rest`; if one of them failed, the stream reports a read error. -/
def Reported (err : Flag) (dev rest : Dev) : Prop :=
  ∃ used, dev = used ++ rest ∧ (.failed ∈ used → err = .readError)

/-- A text that arrives without pauses and failures. -/
def arriving (t : List Char) : Dev := t.map .byte

end Ecl.Spec
