import Verif.Core.Outcome
import Mathlib.Logic.Function.Basic

/-!
# Model of shared files used from several threads

`ecl_devices/src/lib/shared_file.cpp`, `ecl_devices/include/ecl/devices/shared_file.hpp`.  `k` threads construct
and destroy `SharedFile` objects, flush them and ask for their `count()`.  A step is what happens between two
calls of the mutex of `SharedFileManager`, or one access to a variable that no mutex protects.  (The member
`mutex` of `SharedFileCommon`, `shared_file.hpp:83`, is never used.)  The counter `number_locks` of the mutex
(C73), the contents of the files and of the buffers (C26) and wrap-around of the 32 bit count are not
represented; objects are constructed with a name (for the default constructor see C25) and used by the thread
that made them.
-/
set_option autoImplicit false

namespace Ecl.SharedThreads
variable {k : Nat}

/-- A `SharedFileCommon` (`shared_file.hpp:81-85`): the name of its file, `count`, and `error_handler`.  `alive`:
not yet deleted; the file is open as long. -/
structure Common where
  name : Nat
  count : Nat
  err : Flag
  alive : Bool
  deriving DecidableEq, Repr

/-- What a call gives. (`shared_file.cpp:135-175`.) -/
inductive Ret where
  | handle | number (c : Nat) | flushed (ok : Bool) | gone | threw (e : Flag)
  deriving DecidableEq, Repr

/-- Where a thread is: in no call; in `RegisterSharedFile`, before `mutex.lock()` (`shared_file.cpp:75`), after
it (`76-95`), before `mutex.unlock()` (`96`); in `open`, before it sets the flag (`167`); in `count()`
(`shared_file.hpp:178`); in `flush`, before `fwrite` (`203`) and before the flags are set
(`210` or `205`, and in `OFile::write`), with what is to be set and given; in the
destructor, before it reads the flag (`147`); in `DeRegisterSharedFile`, before `mutex.lock()` (`106`), after it
(`107-118`), before `mutex.unlock()` (`119`). -/
inductive Pc where
  | idle
  | opening (n : Nat)
  | registering (n : Nat)
  | registered (p : Nat)
  | flagging (p : Nat)
  | counting (p : Nat)
  | writing (p : Nat)
  | written (p : Nat) (f : Flag) (r : Ret)
  | checking (p : Nat)
  | closing (p : Nat)
  | deregistering (p : Nat)
  | deregistered
  deriving DecidableEq, Repr

/-- A thread: where it is, and the `shared_instance` of each `SharedFile` object that it has.
(Behind the calls of `shared_file.cpp:73-216`.) -/
structure Thread where
  pc : Pc
  handles : List Nat
  deriving DecidableEq, Repr

/-- The process: the `SharedFileCommon` objects and the next fresh address, the map `opened_files` and the
owner of the mutex of the manager (`shared_file.cpp:66-67`), the threads. -/
structure State (k : Nat) where
  heap : Nat → Common
  next : Nat
  map : Nat → Option Nat
  owner : Option (Fin k)
  thread : Fin k → Thread

/-- No file open, no object, no call going on (before any call of `shared_file.cpp:73-216`). -/
def init : State k := ⟨fun _ => ⟨0, 0, .noError, false⟩, 0, fun _ => none, none, fun _ => ⟨.idle, []⟩⟩

/-- The beginning of a call by thread `i`: the constructor with a name, `count()`, `flush()` and the destructor
of its `j`-th object; or (`go`) the next step of the call that it is in.  `ok`: whether the system does what that
step asks it (opening or writing a file). (Calls of `shared_file.cpp:135-216`.) -/
inductive Event (k : Nat) where
  | construct (i : Fin k) (n : Nat)
  | count (i : Fin k) (j : Nat)
  | flush (i : Fin k) (j : Nat)
  | destroy (i : Fin k) (j : Nat)
  | go (i : Fin k) (ok : Bool)
  deriving DecidableEq, Repr

/-- Thread `i` goes to `pc`. (Between the statements of `shared_file.cpp:73-216`.) -/
def State.goto (s : State k) (i : Fin k) (pc : Pc) : State k :=
  { s with thread := Function.update s.thread i ⟨pc, (s.thread i).handles⟩ }

/-- The object at `p` becomes `c`. (The assignments at `shared_file.cpp:82`, `89`, `117`, `167`, `205`, `210`.) -/
def State.put (s : State k) (p : Nat) (c : Common) : State k :=
  { s with heap := Function.update s.heap p c }

/-- `mutex.lock()` (`mutex_pos.cpp:69-75`): thread `i` goes to `pc` with the mutex, or it waits.  A thread that has
the mutex already waits for ever in a release build (NORMAL), and in a debug build (ERRORCHECK) the call throws:
`thrown` is what the call then gives. -/
def lock (m : Mode) (s : State k) (i : Fin k) (pc : Pc) (thrown : Ret) : State k × Option Ret :=
  match s.owner with
  | none => ({ s with owner := some i }.goto i pc, none)
  | some j =>
    if j = i then
      match m with
      | .debug => (s.goto i .idle, some thrown)
      | .release => (s, none)
    else (s, none)

/-- The next step of a call.  Access to a deleted object is undefined. (`shared_file.cpp:73-216`.) -/
def go (m : Mode) (s : State k) (i : Fin k) (ok : Bool) : Outcome (State k × Option Ret) :=
  match (s.thread i).pc with
  | .idle => .ok (s, none)
  -- RegisterSharedFile, shared_file.cpp:73-98
  | .opening n => .ok (lock m s i (.registering n) (.threw .usageError))
  | .registering n =>
    match s.map n with
    | some p =>
      if (s.heap p).alive then
        .ok ((s.put p { s.heap p with count := (s.heap p).count + 1 }).goto i (.registered p), none)
      else .ub
    | none =>
      if ok then
        .ok (({ s with next := s.next + 1, map := Function.update s.map n (some s.next) }.put s.next
          ⟨n, 1, .noError, true⟩).goto i (.registered s.next), none)
      -- the exception leaves 88-94 without mutex.unlock()
      else .ok (s.goto i .idle, some (.threw .openError))
  | .registered p => .ok ({ s with owner := none }.goto i (.flagging p), none)
  -- SharedFile::open, shared_file.cpp:167-168
  | .flagging p =>
    if (s.heap p).alive then
      .ok ({ (s.put p { s.heap p with err := .noError }) with
        thread := Function.update s.thread i ⟨.idle, p :: (s.thread i).handles⟩ }, some .handle)
    else .ub
  | .counting p =>
    if (s.heap p).alive then .ok (s.goto i .idle, some (.number (s.heap p).count)) else .ub
  -- SharedFile::flush of bytes, shared_file.cpp:200-216 with OFile::write, ofile_pos.cpp:134-150: a debug
  -- build throws before the flag of the file is set, so that the old one is taken over
  | .writing p =>
    if (s.heap p).alive then
      if ok then .ok (s.goto i (.written p .noError (.flushed true)), none)
      else
        match m with
        | .debug => .ok (s.goto i (.written p (s.heap p).err (.threw .writeError)), none)
        | .release => .ok (s.goto i (.written p .writeError (.flushed false)), none)
    else .ub
  | .written p f r =>
    if (s.heap p).alive then .ok ((s.put p { s.heap p with err := f }).goto i .idle, some r)
    else .ub
  -- SharedFile::~SharedFile, shared_file.cpp:145-157
  | .checking p =>
    if (s.heap p).alive then
      if (s.heap p).err = .noError then .ok (s.goto i (.closing p), none)
      else .ok ((s.put p { s.heap p with alive := false }).goto i .idle, some .gone)
    else .ub
  -- DeRegisterSharedFile, shared_file.cpp:104-121; the destructor swallows the exceptions
  | .closing p => .ok (lock m s i (.deregistering p) .gone)
  | .deregistering p =>
    if (s.heap p).alive then
      match s.map (s.heap p).name with
      | none => .ok (s.goto i .idle, some .gone)
      | some q =>
        if (s.heap q).alive then
          if (s.heap q).count = 1 then
            .ok (({ s with map := Function.update s.map (s.heap p).name none }.put q
              { s.heap q with alive := false }).goto i .deregistered, none)
          else
            .ok ((s.put q { s.heap q with count := (s.heap q).count - 1 }).goto i .deregistered, none)
        else .ub
    else .ub
  | .deregistered => .ok ({ s with owner := none }.goto i .idle, some .gone)

/-- One step; what cannot happen now changes nothing. (`shared_file.cpp:73-216`.) -/
def step (m : Mode) (s : State k) : Event k → Outcome (State k × Option Ret)
  | .construct i n =>
    if (s.thread i).pc = .idle then .ok (s.goto i (.opening n), none) else .ok (s, none)
  | .count i j =>
    match (s.thread i).pc, (s.thread i).handles[j]? with
    | .idle, some p => .ok (s.goto i (.counting p), none)
    | _, _ => .ok (s, none)
  | .flush i j =>
    match (s.thread i).pc, (s.thread i).handles[j]? with
    | .idle, some p => .ok (s.goto i (.writing p), none)
    | _, _ => .ok (s, none)
  | .destroy i j =>
    match (s.thread i).pc, (s.thread i).handles[j]? with
    | .idle, some p =>
      .ok ({ s with thread := Function.update s.thread i ⟨.checking p, (s.thread i).handles.eraseIdx j⟩ }, none)
    | _, _ => .ok (s, none)
  | .go i ok => go m s i ok

/-- The thread of an event. (For the schedules of `shared_file.cpp:73-216`.) -/
def Event.who : Event k → Fin k
  | .construct i _ | .count i _ | .flush i _ | .destroy i _ | .go i _ => i

/-- A schedule, and what the calls give, with the thread that gets it. (`shared_file.cpp:73-216`.) -/
def run (m : Mode) : State k → List (Event k) → Outcome (State k × List (Fin k × Ret))
  | s, [] => .ok (s, [])
  | s, e :: es =>
    step m s e >>= fun r => run m r.1 es >>= fun q => .ok (q.1, r.2.toList.map (e.who, ·) ++ q.2)

end Ecl.SharedThreads
