import Verif.Model.Thread

/-!
# What a thread object has been through: the reader's side of C35 and C74

A story only records which calls were made and which events happened.
-/
set_option autoImplicit false

namespace Ecl.Spec.Threads
open Ecl.Thread (Op TAct)

/-- Which calls and events there have been: how the first `start` went, whether a thread was
cancelled, whether the function returned, whether a cancelled thread died, whether a `join` waited for
the end, whether any `join` was called, whether the object was destroyed. -/
structure Story where
  first : Option Bool := none
  cancelled : Bool := false
  returned : Bool := false
  died : Bool := false
  joined : Bool := false
  asked : Bool := false
  destroyed : Bool := false
  deriving DecidableEq, Repr

/-- What one more call or event means: impossible (or blocked), undefined, or the story goes on. -/
inductive Next where
  | impossible | undefined | goesOn (f : Story)
  deriving DecidableEq, Repr

/-- The object has created a thread. -/
def Story.created (f : Story) : Bool := f.first = some true

/-- Complete account of a call or event.
* Only the first `start` counts.
* `cancel` is undefined without a thread, and when the function has returned before.
* `join` waits only for a thread that was not cancelled, and must not be repeated then.
* The destructor is undefined after a start that failed, unless `join` was called.
* A function that returns after its thread was cancelled makes the program undefined. -/
def Story.next (f : Story) : Op → Next
  | .start ok => if f.destroyed then .impossible
      else if f.first.isSome then .goesOn f else .goesOn { f with first := some ok }
  | .isRunning => if f.destroyed then .impossible else .goesOn f
  | .cancel => if f.destroyed then .impossible
      else if !f.created then .undefined
      else if f.cancelled then .goesOn f
      else if f.returned then .undefined
      else .goesOn { f with cancelled := true }
  | .join => if f.destroyed then .impossible
      else if f.created && !f.cancelled then
        if f.joined then .undefined
        else if f.returned then .goesOn { f with asked := true, joined := true }
        else .impossible
      else .goesOn { f with asked := true }
  | .destroy => if f.destroyed then .impossible
      else if f.first = some false && !f.asked then .undefined
      else .goesOn { f with destroyed := true }
  | .finish => if !f.created || f.returned || f.died then .impossible
      else if f.cancelled then .undefined
      else .goesOn { f with returned := true }
  | .die => if f.cancelled && !f.died then .goesOn { f with died := true } else .impossible

/-- The story of a whole history. -/
def Story.tell : Story → List Op → Next
  | f, [] => .goesOn f
  | f, op :: l =>
    match f.next op with
    | .impossible => .impossible
    | .undefined => .undefined
    | .goesOn f' => f'.tell l

/-- Threads begun by `Threadable::start` in a history, threads ended, and whether the last such event
was a beginning (with or without success). -/
def begun (l : List TAct) : Nat := l.countP fun a => match a with | .go _ true => true | _ => false

def ended (l : List TAct) : Nat := l.countP fun a => match a with | .finish => true | _ => false

def lastWasStart : Bool → List TAct → Bool
  | b, [] => b
  | _, .go _ _ :: l => lastWasStart true l
  | _, .finish :: l => lastWasStart false l
  | b, .test _ :: l => lastWasStart b l

end Ecl.Spec.Threads
