import Verif.Core.CInt
import Verif.Core.Outcome

/-!
# Model of `ecl_ipc/src/lib/semaphore_pos.cpp`

All objects have one name.  The system keeps, for the name, the number of the semaphore it stands
for, and for every semaphore its count.  Semaphore numbers are never reused.  An object is in one
process, used by one thread.  `sem_open` is assumed to succeed.
-/
set_option autoImplicit false

namespace Ecl.Semaphore

/-- Where the user of an object is: outside, inside (a locking call reported success), or in
`unlock` between the test of the count and `sem_post`. (`semaphore_pos.cpp:45-138`.) -/
inductive At where
  | outside | inside | leaving
  deriving DecidableEq, Repr

/-- A `Semaphore` object: which kernel semaphore it opened, and where its user is
(`semaphore_pos.cpp:45-100`). -/
structure Obj where
  sem : Nat
  at_ : At
  deriving DecidableEq, Repr

/-- The system. The semaphore the name stands for, the counts, and the objects of the processes
(behind `semaphore_pos.cpp:45-138`). -/
structure Sys where
  name : Option Nat
  count : Nat → Nat
  fresh : Nat
  objs : Nat → Option Obj

/-- No semaphore of that name (before `semaphore_pos.cpp:45`). -/
def Sys.init : Sys := ⟨none, fun _ => 0, 0, fun _ => none⟩

/-- Change of one count or object by the calls of `semaphore_pos.cpp:45-138`. -/
def upd {α : Type} (f : Nat → α) (k : Nat) (v : α) : Nat → α := fun x => if x = k then v else f x

/-- Atomic actions.  `interrupted` is `sem_wait` returning `EINTR`, `crash` the end of a process
without destructors. (`semaphore_pos.cpp:45-138`.) -/
inductive Act where
  | construct | destroy | lock | interrupted | trylock | unlockTest | unlockPost | crash
  deriving DecidableEq, Repr

/-- One atomic action of process `p`; `none` when it is not possible or blocks.  The answer is that
of `trylock` (other actions: `true`).
* constructor (`45-94`): `sem_open` with `O_CREAT` and initial value 1;
* destructor (`96-102`): `sem_close`, `sem_unlink`;
* `lock` (`104-107`): `sem_wait`, whose result is ignored;
* `trylock` (`128-138`);
* `unlock` (`117-126`): the count is read, then posted in a second step unless it was 1. -/
def step (s : Sys) (p : Nat) : Act → Option (Sys × Bool)
  | .construct =>
    match s.objs p, s.name with
    | some _, _ => none
    | none, some i => some ({ s with objs := upd s.objs p (some ⟨i, .outside⟩) }, true)
    | none, none => some (⟨some s.fresh, upd s.count s.fresh 1, s.fresh + 1,
        upd s.objs p (some ⟨s.fresh, .outside⟩)⟩, true)
  | .destroy =>
    match s.objs p with
    | none => none
    | some _ => some ({ s with name := none, objs := upd s.objs p none }, true)
  | .lock =>
    match s.objs p with
    | some ⟨i, .outside⟩ =>
      if s.count i = 0 then none
      else some ({ s with
        count := upd s.count i (s.count i - 1)
        objs := upd s.objs p (some ⟨i, .inside⟩) }, true)
    | _ => none
  | .interrupted =>
    match s.objs p with
    | some ⟨i, .outside⟩ =>
      if s.count i = 0 then some ({ s with objs := upd s.objs p (some ⟨i, .inside⟩) }, true)
      else none
    | _ => none
  | .trylock =>
    match s.objs p with
    | some ⟨i, .outside⟩ =>
      if s.count i = 0 then some (s, false)
      else some ({ s with
        count := upd s.count i (s.count i - 1)
        objs := upd s.objs p (some ⟨i, .inside⟩) }, true)
    | _ => none
  | .unlockTest =>
    match s.objs p with
    | some ⟨_, .leaving⟩ => none
    | some ⟨i, _⟩ =>
      if s.count i = 1 then some ({ s with objs := upd s.objs p (some ⟨i, .outside⟩) }, true)
      else some ({ s with objs := upd s.objs p (some ⟨i, .leaving⟩) }, true)
    | none => none
  | .unlockPost =>
    match s.objs p with
    | some ⟨i, .leaving⟩ => some ({ s with
        count := upd s.count i (s.count i + 1)
        objs := upd s.objs p (some ⟨i, .outside⟩) }, true)
    | _ => none
  | .crash => some ({ s with objs := upd s.objs p none }, true)

/-- An interleaving: which process does what. (Calls of `semaphore_pos.cpp:45-138`.) -/
def run : Sys → List (Nat × Act) → Option Sys
  | s, [] => some s
  | s, (p, a) :: l =>
    match step s p a with
    | none => none
    | some (s', _) => run s' l

/-- The deadline of `trylock(timeout)` (`146-153`): `long` additions and `%` truncating towards
zero; `(sec, nsec)` is what `sem_timedwait` gets. -/
def deadline (nowSec nowNsec sec nsec : Int) : Outcome (Int × Int) :=
  if ¬ InLong (nowSec + sec) then .ub
  else
    let s := nowSec + sec
    let t := nowNsec + nsec
    if ¬ InLong t then .ub
    else if t ≥ 999999999 then
      if ¬ InLong (s + 1) then .ub else .ok (s + 1, t.tmod 1000000000)
    else .ok (s, t.tmod 1000000000)

/-- Results of `sem_timedwait`. (Called at `semaphore_pos.cpp:146-173`.) -/
inductive Wait where
  | ok | timedOut | intr | inval
  deriving DecidableEq, Repr

/-- What `trylock(timeout)` makes of the result (`158-173`, exceptions `220-239`); `clock` is false
when reading the clock failed (`146`). -/
def timedAnswer (m : Mode) (clock : Bool) (w : Wait) : Outcome Bool :=
  if !clock then .ok false
  else
    match w with
    | .ok => .ok true
    | .timedOut => .ok false
    | .intr => match m with | .debug => .throw .interruptedError | .release => .ok false
    | .inval => match m with | .debug => .throw .invalidArgError | .release => .ok false

end Ecl.Semaphore
