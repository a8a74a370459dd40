import Verif.Model.ThreadCopies

/-!
# What copies of threads are for

An object has not been started, is responsible for a thread, or has joined its thread.
-/
set_option autoImplicit false

namespace Ecl.Spec.Handles
open Ecl.Handles

/-- What an object is for. -/
inductive Stage where
  | fresh | responsible | joined
  deriving DecidableEq, Repr

/-- One object changes. -/
def put (f : Nat → Option Stage) (o : Nat) (v : Option Stage) : Nat → Option Stage := fun x => if x = o then v else f x

/-- What the objects are for after a call. -/
def next (f : Nat → Option Stage) : Op → Nat → Option Stage
  | .make o => put f o (some .fresh)
  | .start o => if f o = some .fresh then put f o (some .responsible) else f
  | .copy p o => put f p (f o)
  | .assign p o => put f p (f o)
  | .join o => put f o (some .joined)
  | .destroy o => put f o none
  | .finish _ => f

/-- No objects. -/
def nobody : Nat → Option Stage := fun _ => none

/-- What the objects are for after a history. -/
def stages (ops : List Op) : Nat → Option Stage := ops.foldl next nobody

/-- The number of threads that a history starts. -/
def starts (f : Nat → Option Stage) : List Op → Nat
  | [] => 0
  | .start o :: ops => (if f o = some .fresh then 1 else 0) + starts (next f (.start o)) ops
  | x :: ops => starts (next f x) ops

/-- A call that keeps one object responsible for each thread: objects are constructed once and used while they exist; an object
that is responsible for a thread is neither copied nor assigned to nor from; only such an object is joined. -/
def Single (f : Nat → Option Stage) : Op → Prop
  | .make o => f o = none
  | .start o => f o ≠ none
  | .copy p o => f o ≠ none ∧ f o ≠ some .responsible ∧ f p = none
  | .assign p o => (f o ≠ none ∧ f o ≠ some .responsible) ∧ f p ≠ none ∧ f p ≠ some .responsible
  | .join o => f o = some .responsible
  | .destroy o => f o ≠ none
  | .finish _ => True

/-- All calls of a history are of this kind. -/
def AllSingle (f : Nat → Option Stage) : List Op → Prop
  | [] => True
  | x :: ops => Single f x ∧ AllSingle (next f x) ops

/-- A call on the object `o`. -/
def Touches (o : Nat) : Op → Prop
  | .make x | .start x | .join x | .destroy x => x = o
  | .copy p _ | .assign p _ => p = o
  | .finish _ => False

end Ecl.Spec.Handles
