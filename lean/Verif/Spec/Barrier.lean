import Verif.Model.SigSlotThreads

/-!
# When an endpoint may be destroyed: the reader's side

(From the model only its events are taken, and in which calls its threads are.)
-/
set_option autoImplicit false

namespace Ecl.Spec
open Ecl.SigSlots.Threads

/-- Thread `i` is in no `process` call. -/
def Outside (s : State) (i : Nat) : Prop := s.threads i = []

/-- Thread `i` runs the function of the slot. -/
def Runs (s : State) (i : Nat) : Prop := Pc.running ∈ s.threads i

/-- An orderly use.  Calls of different threads do not overlap; no call begins after the destructor has
begun, except from within a call; a function nests less than 2³²-1 calls; and the destructor does not begin
in the moment in which a call has begun but has not got to the mutex. -/
def Orderly (s : State) : Event → Prop
  | .call i => (∀ j, j ≠ i → Outside s j) ∧ (s.dtor = .idle ∨ ¬ Outside s i) ∧ (s.threads i).length < 2 ^ 32 - 1
  | .destroy => ∀ i, s.threads i ≠ [.called]
  | _ => True

/-- All events of the schedule are orderly when they happen. -/
def AllOrderly (mode : Mode) : State → List Event → Prop
  | _, [] => True
  | s, e :: es => Orderly s e ∧ ∀ s', step mode s e = .ok s' → AllOrderly mode s' es

end Ecl.Spec
