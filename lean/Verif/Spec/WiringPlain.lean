import Verif.Spec.Wiring

/-! # Histories of signals and slots without assignments, in which new handles are new -/
set_option autoImplicit false

namespace Ecl.Spec.Wiring
open Ecl.SigSlots (Op)

/-- New handles are new, nothing is assigned; what is used need not exist. -/
def Plain (g : Wiring) : Op → Prop
  | .newSignal h | .newSlot h | .copy h _ => ∀ e, ¬ g.At h e
  | .assign _ _ => False
  | _ => True

def AllPlain (g : Wiring) : List Op → Prop
  | [] => True
  | o :: os => g.Plain o ∧ (g.after o).AllPlain os

end Ecl.Spec.Wiring
