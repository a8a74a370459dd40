import Verif.Model.SigSlotsThrow
import Verif.Spec.Wiring

/-!
# Calls of functions and their returns: the reader's side

(Only the types of events and calls are taken from the model.)
-/
set_option autoImplicit false

namespace Ecl.Spec.SlotCalls
open Ecl.SigSlotsThrow (Event Op)

/-- Which functions were called, in order. -/
def calls : List Event → List Nat
  | [] => []
  | .call x :: es => x :: calls es
  | .back _ :: es => calls es

/-- Some call of the function of `x` has not returned. -/
def Unanswered (log : List Event) (x : Nat) : Prop := log.count (.back x) < log.count (.call x)

/-- The calls on handles that are not emissions. -/
def wires : List Op → List Ecl.SigSlots.Op
  | [] => []
  | .wire op :: ops => op :: wires ops
  | .emit _ _ :: ops => wires ops

/-- In the events `seen`, which come after `before`, no function of those in `P` threw. -/
def NoneThrew (throws : List Event → Nat → Bool) (P : Nat → Prop) (before seen : List Event) : Prop :=
  ∀ l x r, seen = l ++ .call x :: r → P x → throws (before ++ l ++ [.call x]) x = false

/-- A way from the signal `e` through published topics, by signals that relay, to a slot, the last of the list. -/
inductive Route (g : Wiring) : Nat → List Nat → Prop
  | slot {e x : Nat} : g.Edge e x → g.signal x = false → Route g e [x]
  | relay {e s : Nat} {way : List Nat} : g.Edge e s → g.signal s = true → Route g s way → Route g e (s :: way)

end Ecl.Spec.SlotCalls
