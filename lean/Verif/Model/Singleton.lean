/-!
# Singletons (`ecl_utilities/include/ecl/utilities/singleton.hpp`)

`instance()` is one static local variable (`singleton.hpp:59-63`); what that means for threads, exceptions and the end of
the program is laid down by C++11 and later ([stmt.dcl], [basic.start.term]): the first call constructs the object while
other callers wait, a constructor that throws leaves the construction to the next caller, a constructor that calls
`instance()` again is undefined behaviour, and static objects are destroyed in the reverse order of the completion of
their constructors.  Calls are interleaved; threads that still run while static objects are destroyed are not modelled.
-/
set_option autoImplicit false

namespace Ecl.Singleton

/-- The guard of the static local variable (`singleton.hpp:61`). -/
inductive Guard where
  | idle
  /-- The constructor runs in this thread. -/
  | building (t : Nat)
  /-- The object made by this run of the constructor. -/
  | done (k : Nat)
  deriving DecidableEq, Repr

/-- Static objects: the one of `singleton.hpp:61` and others of the program. -/
inductive Obj where
  | single
  | other (i : Nat)
  deriving DecidableEq, Repr

structure St where
  guard : Guard
  /-- Runs of the constructor that were begun, and those that threw. -/
  started : Nat
  threw : Nat
  /-- What calls returned: thread and number of the run that made the object; newest first. -/
  got : List (Nat × Nat)
  /-- Static objects whose constructors have completed, newest first. -/
  order : List Obj

def init : St := { guard := .idle, started := 0, threw := 0, got := [], order := [] }

inductive Event where
  /-- A thread calls `instance()`. -/
  | call (t : Nat)
  /-- The constructor, running in this thread, returns. -/
  | finish (t : Nat)
  /-- It throws. -/
  | throws (t : Nat)
  /-- The constructor of another static object returns. -/
  | other (i : Nat)
  deriving DecidableEq, Repr

inductive Out where
  | ok (s : St)
  /-- The thread waits, or the event cannot happen. -/
  | blocked
  | ub

/-- One event (`singleton.hpp:59-63`). -/
def step (s : St) : Event → Out
  | .call t =>
    match s.guard with
    | .done k => .ok { s with got := (t, k) :: s.got }
    | .idle => .ok { s with guard := .building t, started := s.started + 1 }
    | .building t' => if t' = t then .ub else .blocked
  | .finish t =>
    if s.guard = .building t then
      .ok { s with guard := .done s.started, got := (t, s.started) :: s.got, order := .single :: s.order }
    else .blocked
  | .throws t =>
    if s.guard = .building t then .ok { s with guard := .idle, threw := s.threw + 1 } else .blocked
  | .other i => .ok { s with order := .other i :: s.order }

/-- Events one after the other. -/
def run (s : St) : List Event → Out
  | [] => .ok s
  | e :: es =>
    match step s e with
    | .ok s' => run s' es
    | .blocked => .blocked
    | .ub => .ub

/-- The object during the destruction of static objects. -/
inductive Phase where
  | never
  | alive
  | dead
  deriving DecidableEq, Repr

/-- Destroys static objects, the ones with `uses` calling `instance()` in their destructors: true if all goes well, false
for undefined behaviour.  An object made by such a call is destroyed right after the destructor that made it. -/
def destroy (uses : Nat → Bool) : Phase → List Obj → Bool
  | _, [] => true
  | _, .single :: r => destroy uses .dead r
  | ph, .other i :: r =>
    if uses i then
      match ph with
      | .never => destroy uses .dead r
      | .alive => destroy uses .alive r
      | .dead => false
    else destroy uses ph r

/-- The end of the program, no constructor running. -/
def atExit (uses : Nat → Bool) (s : St) : Bool :=
  destroy uses (match s.guard with | .done _ => .alive | _ => .never) s.order

end Ecl.Singleton
