import Verif.Core.Outcome

/-!
# Programs whose threads use objects of `main`

`ecl_core_apps/src/utils/serial.cpp`, `hex.cpp`, `socket_server.cpp`, `socket_client.cpp` and the class `Threadable`:
`main` makes objects, starts threads that use them, waits for threads, and destroys the objects in the reverse order of
their construction, at the end of their block or because an exception leaves it.  Only the lifetimes are modelled: what
the threads do is modelled by the parts of objects they use, any of them at any time between their start and their end.
That two threads may use one part at the same time is not considered here.
-/
set_option autoImplicit false

namespace Ecl.Lifetimes

variable {α : Type}

/-- What `main` does up to the end of the block: a part of an object is constructed, a `Thread` is constructed that
starts thread `t`, thread `t` is waited for. (`serial.cpp:218-224`, `hex.cpp:213-219`, `socket_server.cpp:213-221`,
`socket_client.cpp:214-221`.) -/
inductive Step (α : Type) where
  | obj (p : α)
  | start (t : Nat)
  | join (t : Nat)
  deriving DecidableEq, Repr

/-- What exists in the block, newest first: parts of objects, and `Thread` objects with what the destructor looks at:
whether `thread_handle` was set by `pthread_create`, and `join_requested`. (`thread_pos.hpp:417-422`.) -/
inductive Item (α : Type) where
  | obj (p : α)
  | handle (t : Nat) (created joined : Bool)
  deriving DecidableEq, Repr

/-- Build, whether `pthread_create` may fail, and whether the block has a handler for the exception
(`serial.cpp:214-227`, `hex.cpp:209-222`: yes; `socket_server.cpp:213-229`, `socket_client.cpp:214-230`: no). -/
structure Env where
  mode : Mode
  mayFail : Bool
  caught : Bool
  deriving DecidableEq, Repr

/-- What remains to be done, what exists, the threads that run, whether the block is being left, whether the process
has ended. (Behind `serial.cpp:218-229`.) -/
structure St (α : Type) where
  todo : List (Step α)
  stack : List (Item α)
  running : List Nat
  leaving : Bool
  over : Bool
  deriving DecidableEq, Repr

/-- The block is entered. (`serial.cpp:214`, `hex.cpp:209`, `socket_server.cpp:175`, `socket_client.cpp:171`.) -/
def St.init (prog : List (Step α)) : St α := ⟨prog, [], [], false, false⟩

/-- The scheduler's choices: `main` goes on (a thread it starts is created or not), a thread uses a part, a thread
leaves its function. (`serial.cpp:78-104`, `121-151` and so on.) -/
inductive Event (α : Type) where
  | main (created : Bool)
  | use (t : Nat) (p : α)
  | finish (t : Nat)
  deriving DecidableEq, Repr

/-- `Thread::join` sets `join_requested`. (`thread_pos.cpp:95`.) -/
def markJoined (t : Nat) : Item α → Item α
  | .obj p => .obj p
  | .handle u c j => .handle u c (j || u = t)

/-- The `Thread` of a created thread `t` that has been waited for already. (`thread_pos.cpp:94-101`.) -/
def waitedFor (t : Nat) : Item α → Bool
  | .obj _ => false
  | .handle u c j => u = t && c && j

/-- `main` goes on; `none`: it waits, or the process has ended.
* a part is constructed;
* a thread is started (`thread_pos.cpp:33-61`, `thread_pos.hpp:454-496`): if that fails, debug builds throw, and the
  block is left if there is a handler, otherwise the process ends; release builds go on;
* waiting (`thread_pos.cpp:94-101`): a second time is undefined;
* the block is left: objects are destroyed, newest first; the destructor of a `Thread` that was not waited for detaches
  its handle (`thread_pos.cpp:63-79`), which is undefined if it was never set. -/
def mainStep (e : Env) (s : St α) (created : Bool) : Option (Outcome (St α)) :=
  if s.over then none
  else if s.leaving then
    match s.stack with
    | [] => some (.ok { s with over := true })
    | .obj _ :: k => some (.ok { s with stack := k })
    | .handle _ c j :: k => if !j && !c then some .ub else some (.ok { s with stack := k })
  else
    match s.todo with
    | [] => some (.ok { s with leaving := true })
    | .obj p :: l => some (.ok { s with todo := l, stack := .obj p :: s.stack })
    | .start t :: l =>
      if created then
        some (.ok { s with todo := l, stack := .handle t true false :: s.stack, running := t :: s.running })
      else if e.mayFail then
        match e.mode with
        | .debug =>
          if e.caught then some (.ok { s with leaving := true }) else some (.ok { s with over := true })
        | .release => some (.ok { s with todo := l, stack := .handle t false false :: s.stack })
      else none
    | .join t :: l =>
      if t ∈ s.running then none
      else if s.stack.any (waitedFor t) then some .ub
      else some (.ok { s with todo := l, stack := s.stack.map (markJoined t) })

/-- A part of this name exists. (Behind `serial.cpp:218-221`.) -/
def lives [DecidableEq α] (s : St α) (p : α) : Bool := s.stack.any fun i => match i with | .obj q => q = p | _ => false

/-- One event: `uses t` are the parts thread `t` uses, `ends t` tells whether it can leave its function. Using a part
that does not exist (any more) is undefined. (`serial.cpp:78-104`, `121-151`, `hex.cpp:86-114`, `131-151`,
`socket_server.cpp:69-113`, `131-154`.) -/
def step [DecidableEq α] (e : Env) (uses : Nat → List α) (ends : Nat → Bool) (s : St α) :
    Event α → Option (Outcome (St α))
  | .main c => mainStep e s c
  | .use t p =>
    if !s.over ∧ t ∈ s.running ∧ p ∈ uses t then if lives s p then some (.ok s) else some .ub else none
  | .finish t =>
    if !s.over ∧ t ∈ s.running ∧ ends t then some (.ok { s with running := s.running.filter (· ≠ t) }) else none

/-- The events one after the other, if they are possible. (Behind `serial.cpp:218-229`.) -/
def run [DecidableEq α] (e : Env) (uses : Nat → List α) (ends : Nat → Bool) :
    St α → List (Event α) → Option (Outcome (St α))
  | s, [] => some (.ok s)
  | s, v :: vs =>
    match step e uses ends s v with
    | some (.ok s') => run e uses ends s' vs
    | o => o

/-! ## The programs -/

/-- The parts of the objects of the programs. (`serial.cpp:71-76`, `152-159`, `hex.cpp:78-84`, `152-158`,
`socket_server.cpp:116-121`, `157-159`, `socket_client.cpp:116-121`, `153-155`.) -/
inductive Part where
  /-- The `Serial`, `SocketServer` or `SocketClient`. -/
  | device
  /-- The whole writer and reader of the socket programs. -/
  | writer | reader
  | wDisplayTimestamps | wTimestamp | wSerial | wHexFormat | wToByteArray
  | rSerial | rHex | rDisplayTimestamps | rTime | rFormat | rHexFormat
  deriving DecidableEq, Repr

open Part in
/-- `serial.cpp:218-224`, with the members in the order of their declaration (`71-76`, `152-159`); thread 0 is the
reader's, thread 1 the writer's. -/
def serialProgram : List (Step Part) :=
  [.obj device,
   .obj rSerial, .obj rHex, .obj rDisplayTimestamps, .obj rTime, .obj rFormat, .obj rHexFormat, .start 0,
   .obj wDisplayTimestamps, .obj wTimestamp, .obj wSerial, .start 1,
   .join 0, .join 1]

open Part in
/-- The parts used by the threads of `serial.cpp` (`121-151`, `78-104`). -/
def serialUses : Nat → List Part
  | 0 => [device, rSerial, rHex, rDisplayTimestamps, rTime, rHexFormat]
  | 1 => [device, wSerial, wDisplayTimestamps, wTimestamp]
  | _ => []

open Part in
/-- `hex.cpp:213-219` with the members in the order of their declaration (`78-84`, `152-158`). -/
def hexProgram : List (Step Part) :=
  [.obj device,
   .obj rSerial, .obj rDisplayTimestamps, .obj rTime, .obj rFormat, .obj rHexFormat, .start 0,
   .obj wDisplayTimestamps, .obj wTimestamp, .obj wSerial, .obj wHexFormat, .start 1, .obj wToByteArray,
   .join 0, .join 1]

open Part in
/-- The parts used by the threads of `hex.cpp` (`131-151`, `86-114`). -/
def hexUses : Nat → List Part
  | 0 => [device, rSerial, rDisplayTimestamps, rTime, rHexFormat]
  | 1 => [device, wToByteArray, wSerial, wDisplayTimestamps, wTimestamp]
  | _ => []

open Part in
/-- `socket_server.cpp:213-221`, `socket_client.cpp:214-221`. -/
def socketProgram : List (Step Part) :=
  [.obj device, .obj writer, .obj reader, .start 0, .start 1, .join 0, .join 1]

open Part in
/-- The parts used by the threads of the socket programs (`socket_server.cpp:69-113`, `131-154`). -/
def socketUses : Nat → List Part
  | 0 => [device, reader]
  | 1 => [device, writer]
  | _ => []

/-- Only the writers can leave their loops (`serial.cpp:89-91`, `hex.cpp:96-98`, `socket_server.cpp:137-139`); the
loops of the readers have no way out (`serial.cpp:127-150`; that of the socket programs ends the process). -/
def writersEnd : Nat → Bool
  | 1 => true
  | _ => false

/-- An object with `Threadable` as its base, in a block that starts it: the `Thread` in `start` is destroyed at once,
so the thread is detached and nobody waits for it. (`threadable.hpp:79-84`.)  The `Thread` is left on the stack here,
which makes no difference if the thread is created. -/
def threadableProgram : List (Step Unit) := [.obj (), .start 0]

/-- The thread uses the object: `runnable()`, then `isRunning`. (`threadable.hpp:98-101`.) -/
def threadableUses : Nat → List Unit
  | 0 => [()]
  | _ => []

end Ecl.Lifetimes
