import Verif.Core.Outcome
import Mathlib.Logic.Function.Basic

/-!
# Signals and slots of one data type, used from several threads (`ecl_sigslots/include/ecl/sigslots/*.hpp`)

The tables of `SigSlotsManager` and of the endpoints (`SigSlot` objects) as memory cells.  A call is a program that reads
and writes cells; nothing but the mutex of `process` protects them, and that one protects none of them.  One step of a
thread is one access; a set that is iterated is read when the loop over it begins.  Endpoints and topics are numbers.
Slots have functions that neither connect nor emit: signals subscribed as slots and functions that use signals are in
`Model/SigSlots.lean` and `Model/SigSlotsNested.lean`, the mutex is in `Model/SigSlotThreads.lean`.  The initialisation
of the static map (`manager.hpp:148`) is made safe by the language.
-/
set_option autoImplicit false

namespace Ecl.SigSlots.Wires

/-- The shared variables: the keys of the map of topics (`manager.hpp:148`), the publishers and subscribers of a topic
(`topic.hpp:120-121`), and of an endpoint (`sigslot.hpp:194-197`) the number of handles, the subscriptions, the
publications and the number of running calls. -/
inductive Cell where
  | topics
  | pubs (t : Nat)
  | subs (t : Nat)
  | handles (e : Nat)
  | subscriptions (e : Nat)
  | publications (e : Nat)
  | busy (e : Nat)
  deriving DecidableEq

/-- Their contents: sets as lists, counts as lists of one number. (`manager.hpp:148`,
`topic.hpp:120-121`, `sigslot.hpp:194-197`.) -/
abbrev Mem := Cell → List Nat

/-- A count. (`sigslot.hpp:194-197`.) -/
def num (l : List Nat) : Nat := l.headD 0

/-- The outcome of a call: the endpoints whose function was called, and whether the endpoint was
deleted. (`sigslot.hpp:91-188`.) -/
inductive Result where
  | ub
  | done (called : List Nat) (deleted : Bool)
  deriving DecidableEq

/-- A call as a program: its accesses to the variables, one after the other (`sigslot.hpp:61-188`).
-/
inductive Prog where
  | ret (r : Result)
  | put (c : Cell) (v : List Nat) (next : Prog)
  | get (c : Cell) (next : List Nat → Prog)

/-- A program on its own. (`sigslot.hpp:61-188`.) -/
def Prog.run : Prog → Mem → Result × Mem
  | .ret r, m => (r, m)
  | .put c v p, m => p.run (Function.update m c v)
  | .get c k, m => (k (m c)).run m

/-- `std::set::insert`, `std::map::insert`. (Used at `manager.hpp:82-110`, `sigslot.hpp:138-163`.) -/
def addTo (c : Cell) (x : Nat) (k : Prog) : Prog := .get c fun l => if x ∈ l then k else .put c (l ++ [x]) k

/-- `find` and `erase` (`topic.hpp:87-94`). -/
def removeFrom (c : Cell) (x : Nat) (k : Prog) : Prog := .get c fun l => if x ∈ l then .put c (l.erase x) k else k

/-- `topics().insert(…)` (`manager.hpp:88-89`, `107-108`). -/
def insertTopic (t : Nat) (k : Prog) : Prog :=
  .get .topics fun ts =>
    if t ∈ ts then k else .put .topics (ts ++ [t]) (.put (.pubs t) [] (.put (.subs t) [] k))

/-- `connectSignal` (`sigslot.hpp:138-148`, `manager.hpp:82-92`). -/
def connect (e t : Nat) : Prog :=
  insertTopic t (addTo (.pubs t) e (addTo (.publications e) t (.ret (.done [] false))))

/-- `connectSlot` (`sigslot.hpp:156-163`, `manager.hpp:101-110`). -/
def subscribe (e t : Nat) : Prog :=
  .get (.subscriptions e) fun q =>
    if t ∈ q then .ret (.done [] false)
    else .put (.subscriptions e) (q ++ [t]) (insertTopic t (addTo (.subs t) e (.ret (.done [] false))))

/-- `SigSlotsManager::disconnect` (`manager.hpp:120-128`, `topic.hpp:86-104`): the iterator is dereferenced even if the
topic was not found. -/
def disconnectTopic (e t : Nat) (k : Prog) : Prog :=
  .get .topics fun ts =>
    if t ∈ ts then
      removeFrom (.pubs t) e (removeFrom (.subs t) e (.get (.pubs t) fun a => .get (.subs t) fun b =>
        if a = [] ∧ b = [] then .put .topics (ts.erase t) k else k))
    else .ret .ub

/-- The loops of `disconnect`. (`sigslot.hpp:177-188`.) -/
def disconnectLoop (e : Nat) (k : Prog) : List Nat → Prog
  | [] => k
  | t :: ts => disconnectTopic e t (disconnectLoop e k ts)

/-- `disconnect()` (`sigslot.hpp:177-188`). -/
def disconnectAll (e : Nat) (k : Prog) : Prog :=
  .get (.subscriptions e) fun q => disconnectLoop e
    (.put (.subscriptions e) [] (.get (.publications e) fun q' => disconnectLoop e (.put (.publications e) [] k) q')) q

/-- `process` (`sigslot.hpp:123-130`). -/
def process (s : Nat) (k : Prog) : Prog :=
  .get (.busy s) fun n => .put (.busy s) [num n + 1] (.get (.busy s) fun n => .put (.busy s) [num n - 1] k)

/-- The inner loop of `emit` (`sigslot.hpp:111-114`). -/
def processAll (k : List Nat → Prog) : List Nat → List Nat → Prog
  | [], log => k log
  | s :: ss, log => process s (processAll k ss (log ++ [s]))

/-- The outer loop of `emit` (`sigslot.hpp:109-115`). -/
def emitLoop : List Nat → List Nat → Prog
  | [], log => .ret (.done log false)
  | t :: ts, log => .get (.subs t) fun ss => processAll (fun log => emitLoop ts log) ss log

/-- The calls; those of handles name the endpoint of the handle. (`sigslot.hpp:61-188`,
`signal.hpp:77-94`, `slot.hpp:119-136`.) -/
inductive Call where
  | create (e : Nat)
  | copy (e : Nat)
  | drop (e : Nat)
  | connect (e t : Nat)
  | subscribe (e t : Nat)
  | disconnect (e : Nat)
  | emit (e : Nat)
  deriving DecidableEq

/-- Construction (`sigslot.hpp:61-82`), copying and destruction of handles (`signal.hpp:77-94`, `slot.hpp:119-136`), and
the other calls. -/
def Call.prog : Call → Prog
  | .create e => .put (.handles e) [1] (.put (.subscriptions e) [] (.put (.publications e) [] (.ret (.done [] false))))
  | .copy e => .get (.handles e) fun n => .put (.handles e) [num n + 1] (.ret (.done [] false))
  | .drop e => .get (.handles e) fun n => .put (.handles e) [num n - 1] (.get (.handles e) fun n =>
      if num n = 0 then disconnectAll e (.ret (.done [] true)) else .ret (.done [] false))
  | .connect e t => Wires.connect e t
  | .subscribe e t => Wires.subscribe e t
  | .disconnect e => disconnectAll e (.ret (.done [] false))
  | .emit e => .get (.publications e) fun ts => emitLoop ts []

/-- A call that is going on: which, the tables when it began, its number, and what is left to do.
(`sigslot.hpp:61-188`.) -/
structure Active where
  call : Call
  tables : Mem
  number : Nat
  rest : Prog

/-- The memory, the threads, the calls begun so far, and the results of those that are over, by
number. (`sigslot.hpp:61-188`.) -/
structure State where
  mem : Mem
  th : Nat → Option Active
  begun : List Call
  results : Nat → Option Result

/-- Nothing constructed, no thread in a call (before `sigslot.hpp:61`). -/
def init : State := ⟨fun _ => [], fun _ => none, [], fun _ => none⟩

/-- Which thread goes on (`sigslot.hpp:61-188`). -/
inductive Event where
  | start (i : Nat) (c : Call)
  | step (i : Nat)

/-- A thread begins a call (if it is in none), or goes on by one access, or returns.
(`sigslot.hpp:61-188`.) -/
def step (s : State) : Event → State
  | .start i c =>
    match s.th i with
    | none => ⟨s.mem, Function.update s.th i (some ⟨c, s.mem, s.begun.length, c.prog⟩), s.begun ++ [c], s.results⟩
    | some _ => s
  | .step i =>
    match s.th i with
    | none => s
    | some ⟨c, m, n, .ret r⟩ => ⟨s.mem, Function.update s.th i none, s.begun, Function.update s.results n (some r)⟩
    | some ⟨c, m, n, .put x v p⟩ =>
      ⟨Function.update s.mem x v, Function.update s.th i (some ⟨c, m, n, p⟩), s.begun, s.results⟩
    | some ⟨c, m, n, .get x k⟩ => ⟨s.mem, Function.update s.th i (some ⟨c, m, n, k (s.mem x)⟩), s.begun, s.results⟩

/-- A schedule (`sigslot.hpp:61-188`). -/
def exec (s : State) (es : List Event) : State := es.foldl step s

/-- Two threads are about to access one variable, and one of them to write it: a data race.
(`sigslot.hpp:61-188`.) -/
def Race (s : State) : Prop :=
  ∃ i j a b x v p, i ≠ j ∧ s.th i = some a ∧ s.th j = some b ∧ a.rest = .put x v p ∧
    ((∃ v' p', b.rest = .put x v' p') ∨ ∃ k, b.rest = .get x k)

end Ecl.SigSlots.Wires
