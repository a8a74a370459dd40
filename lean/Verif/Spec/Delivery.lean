import Verif.Spec.Wiring
import Verif.Model.SigSlotsNested

/-!
# Deliveries while connections change: the reader's side

What a log of a program says about its connections, and which programs are careful.  (From the model only
the log, the stack and the types of calls are taken.)
-/
set_option autoImplicit false

namespace Ecl.Spec
open Ecl.SigSlots (Op)
open Ecl.SigSlots.Nested (Event Item Machine Act)

/-- The calls in a log that change connections. -/
def opsOf : List Event → List Op
  | [] => []
  | .did o :: l => o :: opsOf l
  | .called .. :: l => opsOf l

/-- The deliveries made by the outermost emission, in order: topic and endpoint. -/
def deliveries : List Event → List (String × Nat)
  | [] => []
  | .called 0 _ t x :: l => (t, x) :: deliveries l
  | _ :: l => deliveries l

/-- At all times while the log was written, `e` published `t` and `x` subscribed to it. -/
def Throughout (g : Wiring) (log : List Event) (e : Nat) (t : String) (x : Nat) : Prop :=
  ∀ k, (g.run (opsOf (log.take k))).pub e t ∧ (g.run (opsOf (log.take k))).sub x t

/-- A function of `x` or an emission of `x` runs. -/
def Busy (stack : List Item) (x : Nat) : Prop :=
  (∃ acts, Item.call x acts ∈ stack) ∨ ∃ f, Item.loop f ∈ stack ∧ f.emitter = x

/-- The call neither disconnects an endpoint in `B` nor destroys its last handle. -/
def Spares (g : Wiring) (B : Nat → Prop) : Op → Prop
  | .disconnect h => ∀ e, g.At h e → ¬ B e
  | .destroy h => ∀ e, g.At h e → (∀ k, g.At k e → k = h) → ¬ B e
  | _ => True

/-- What the program does next is legal and spares the endpoints that are busy. -/
def Careful (g : Wiring) (m : Machine) : Prop :=
  match m.stack with
  | .call _ (.op o :: _) :: _ => g.Legal o ∧ Spares g (Busy m.stack) o
  | .call _ (.emit h :: _) :: _ => ∃ e, g.At h e
  | _ => True

end Ecl.Spec
