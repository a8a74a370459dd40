import Verif.Spec.Delivery

/-!
# Emissions that cannot go on for ever: the reader's side
-/
set_option autoImplicit false

namespace Ecl.Spec
open Ecl.SigSlots (Op)
open Ecl.SigSlots.Nested (Event Item Machine Act)

/-- There are at most `N` endpoints, and no topics but those listed are published. -/
def Confined (N : Nat) (topics : List String) (g : Wiring) : Prop :=
  g.created ≤ N ∧ ∀ e t, g.pub e t → t ∈ topics

/-- What is called, and what the running function is about to emit, is of a lower rank than whoever calls
or emits it. -/
def Descends (rank : Nat → Nat) (g : Wiring) (m : Machine) : Prop :=
  (∀ e x, g.Edge e x → rank x < rank e) ∧
    ∀ x h acts rest, m.stack = .call x (.emit h :: acts) :: rest → ∀ e, g.At h e → rank e < rank x

/-- The call constructs no slot and no signal. -/
def Builds : Act → Prop
  | .op (.newSlot _) => True
  | .op (.newSignal _) => True
  | _ => False

end Ecl.Spec
