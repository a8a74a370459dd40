import Verif.Model.SharedFileThreads
import Mathlib.Algebra.BigOperators.Group.Finset.Basic
import Mathlib.Data.Fintype.Basic

/-! # What is expected of shared files used from several threads -/
set_option autoImplicit false

namespace Ecl.SharedThreads.Spec
variable {k : Nat}

/-- The system opens and writes the files as it is asked. -/
def FilesWork (es : List (Event k)) : Prop := ∀ i, Event.go i false ∉ es

/-- No file is opened by two threads. -/
def Apart (es : List (Event k)) : Prop :=
  ∀ i j n, Event.construct i n ∈ es → Event.construct j n ∈ es → i = j

/-- The file called `n` is open, as the object at `p`. -/
def OpenAs (s : State k) (n p : Nat) : Prop := (s.heap p).alive = true ∧ (s.heap p).name = n

/-- How many `SharedFile` objects there are for the file called `n`. -/
def objects (s : State k) (n : Nat) : Nat :=
  ∑ i, (s.thread i).handles.countP fun p => (s.heap p).name == n

/-- No thread is in a call. -/
def Quiet (s : State k) : Prop := ∀ i, (s.thread i).pc = .idle

/-- The variables that the threads share: the map of the manager, and of each object the count, the error
flags and the file. -/
inductive Var where
  | map | count (p : Nat) | flags (p : Nat) | file (p : Nat)
  deriving DecidableEq, Repr

/-- What a thread touches in its next step, and whether it changes it.  Deleting an object changes all of it. -/
def touches (s : State k) : Pc → List (Var × Bool)
  | .registering n =>
    match s.map n with
    | some p => [(.map, false), (.count p, true)]
    | none => [(.map, true)]
  | .flagging p => [(.flags p, true)]
  | .counting p => [(.count p, false)]
  | .writing p => [(.file p, false)]
  | .written p _ _ => [(.flags p, true), (.file p, false)]
  | .checking p =>
    if (s.heap p).err = .noError then [(.flags p, false)]
    else [(.flags p, true), (.count p, true), (.file p, true)]
  | .deregistering p =>
    if (s.heap p).count = 1 then [(.map, true), (.flags p, true), (.count p, true), (.file p, true)]
    else [(.map, false), (.file p, false), (.count p, true)]
  | _ => []

/-- A data race: two threads are about to touch a variable, and one of them changes it. -/
def Race (s : State k) (v : Var) : Prop :=
  ∃ i j b, i ≠ j ∧ (v, true) ∈ touches s (s.thread i).pc ∧ (v, b) ∈ touches s (s.thread j).pc

end Ecl.SharedThreads.Spec
