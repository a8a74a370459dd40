import Verif.Model.Neighbours
import Verif.Spec.Descriptors

/-!
# What the devices of a program are for

Each device leads to what it was opened to, or nowhere; numbers of descriptors play no part.
-/
set_option autoImplicit false

namespace Ecl.Spec.Near
open Ecl.Near

/-- What is known of the devices: `none`: there is no such device; its class, and where it leads. -/
abbrev Plan := Nat → Option (Cls × Option Nat)

/-- One device of the plan changes. -/
def put (f : Plan) (o : Nat) (v : Option (Cls × Option Nat)) : Plan := fun x => if x = o then v else f x

/-- What a call is for. -/
def next (f : Plan) : Op → Plan
  | .make o c => put f o (some (c, none))
  | .open o l => put f o ((f o).map fun d => (d.1, some l))
  | .refuse o => put f o ((f o).map fun d => (d.1, none))
  | .copy p o => put f p (f o)
  | .assign p o => put f p (f o)
  | .write _ _ => f
  | .close o => put f o ((f o).map fun d => (d.1, none))
  | .destroy o => put f o none

/-- No devices. -/
def nobody : Plan := fun _ => none

/-- What a history of calls is for. -/
def plan (ops : List Op) : Plan := ops.foldl next nobody

/-- What should arrive: each byte where the device it was written to leads. -/
def arrives (f : Plan) : List Op → List (Nat × List Nat)
  | [] => []
  | .write o bs :: ops =>
    (match f o with
      | some (_, some l) => [(l, bs)]
      | _ => []) ++ arrives (next f (.write o bs)) ops
  | x :: ops => arrives (next f x) ops

/-- A call that respects the other devices: devices are constructed once and used while they exist; a device that leads
somewhere is neither copied nor assigned to nor from; a client is closed or destroyed only while it leads somewhere. -/
def Considerate (f : Plan) : Op → Prop
  | .make o _ => f o = none
  | .open o _ => f o ≠ none
  | .refuse o => f o ≠ none
  | .copy p o => (∃ c, f o = some (c, none)) ∧ f p = none
  | .assign p o => ∃ c, f o = some (c, none) ∧ f p = some (c, none)
  | .write o _ => f o ≠ none
  | .close o => f o ≠ none ∧ f o ≠ some (.client, none)
  | .destroy o => f o ≠ none ∧ f o ≠ some (.client, none)

/-- All calls of a history respect the other devices. -/
def AllConsiderate (f : Plan) : List Op → Prop
  | [] => True
  | x :: ops => Considerate f x ∧ AllConsiderate (next f x) ops

end Ecl.Spec.Near
