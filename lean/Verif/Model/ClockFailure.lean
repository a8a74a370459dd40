import Verif.Model.Time

/-!
# Model of `ecl_time` when the operating system refuses

The functions `epoch_time`, `realtime_epoch_time` and `cpu_time` of the external package `ecl_time_lite` wrap
`clock_gettime`: they either write the reading to the `timespec` they are given and return `NoError`, or leave it as it
was, with `errno` set.  A `timespec` that was never written is indeterminate (`none`); using it is undefined.  The
arithmetic of time stamps is the one of `Verif.Model.Time`.
-/
set_option autoImplicit false

namespace Ecl.ClockFail
open Ecl.Time

/-- The result of asking a clock: the time, or `errno` (`ecl_time/src/lib/timestamp_pos.cpp:56,65`). -/
abbrev Reading := Except Nat Ts

/-- A `timespec` in memory; `none` if indeterminate (`ecl_time/include/ecl/time/timestamp_base.hpp:45,217`: the default
constructor of the base leaves `time` as it is). -/
abbrev Cell := Option Ts

/-- `throwTimeStampException` (`timestamp_pos.cpp:81-93`); `EINVAL` is 22 and `EFAULT` is 14. -/
def timeStampFlag : Nat → Flag
  | 22 => .notSupportedError
  | 14 => .outOfRange
  | _ => .unknownError

/-- `TimeStamp::stamp()` (`timestamp_pos.cpp:55-60`) on a stamp with the given contents.  The default constructor
(lines 37-39) is the case of indeterminate contents, and so is `realtime_now()` (lines 63-69), whose local variable is
not initialised either. -/
def stamp (m : Mode) (c : Cell) : Reading → Res Cell Unit
  | .ok t => .ok (some t) ()
  | .error e =>
    match m with
    | .debug => .throw c (timeStampFlag e)
    | .release => .ok c ()

/-- `clock_gettime` on a variable, the result of the call being ignored (`cpuwatch_rt.cpp:37,48,55,63`,
`snooze_pos.cpp:47,77`). -/
def fetch (c : Cell) : Reading → Cell
  | .ok t => some t
  | .error _ => c

/-! ## StopWatch -/

/-- The members of `StopWatch` (`ecl_time/include/ecl/time/stopwatch.hpp:90`). -/
structure Watch where
  start : Cell
  split : Cell
  deriving DecidableEq, Repr

/-- The calls of the two watches (`stopwatch.hpp:72-87`, `cpuwatch_rt.hpp:88-103`). -/
inductive WatchOp where
  | restart
  | elapsed
  | split
  deriving DecidableEq, Repr

/-- `StopWatch()` (`ecl_time/src/lib/stopwatch.cpp:26-29`): both members are default constructed. -/
def watchNew (m : Mode) (r₁ r₂ : Reading) : Outcome Watch :=
  match stamp m none r₁ with
  | .ub => .ub
  | .throw _ e => .throw e
  | .ok a () =>
    match stamp m none r₂ with
    | .ub => .ub
    | .throw _ e => .throw e
    | .ok b () => .ok ⟨a, b⟩

/-- `a - b` of two stamps in memory (`timestamp_base.cpp:186-198`). -/
def minus (m : Mode) : Cell → Cell → Outcome Ts
  | some a, some b => sub m a b
  | _, _ => .ub

/-- `restart()`, `elapsed()` and `split()` (`stopwatch.cpp:35-52`).  The copies of lines 38 and 49 use the contents. -/
def watchStep (m : Mode) (w : Watch) : WatchOp × Reading → Res Watch (Option Ts)
  | (.restart, r) =>
    match stamp m w.start r with
    | .ub => .ub
    | .throw c e => .throw { w with start := c } e
    | .ok none () => .ub
    | .ok (some t) () => .ok ⟨some t, some t⟩ none
  | (.elapsed, r) =>
    match stamp m none r with
    | .ub => .ub
    | .throw _ e => .throw w e
    | .ok c () =>
      match minus m c w.start with
      | .ub => .ub
      | .throw e => .throw w e
      | .ok d => .ok w (some d)
  | (.split, r) =>
    match w.split with
    | none => .ub
    | some last =>
      match stamp m w.split r with
      | .ub => .ub
      | .throw c e => .throw { w with split := c } e
      | .ok c () =>
        match minus m c (some last) with
        | .ub => .ub
        | .throw e => .throw { w with split := c } e
        | .ok d => .ok { w with split := c } (some d)

/-! ## CpuWatch -/

/-- The members of `CpuWatch` (`ecl_time/include/ecl/time/cpuwatch_rt.hpp:106-107`). -/
structure CpuWatch where
  start : Cell
  split : Cell
  tmp : Cell
  deriving DecidableEq, Repr

/-- `stamp(sec,nsec)` from the member `tmp` (`cpuwatch_rt.cpp:38,49,56,64`; `timestamp_base.cpp:52-60`). -/
def stampFrom (m : Mode) : Cell → Outcome Ts
  | none => .ub
  | some t => mk m t.sec t.nsec

/-- The common body of the constructor and `restart()` (`cpuwatch_rt.cpp:37-39`, `48-50`). -/
def cpuRestart (m : Mode) (w : CpuWatch) (r : Reading) : Res CpuWatch (Option Ts) :=
  let tmp := fetch w.tmp r
  match stampFrom m tmp with
  | .ub => .ub
  | .throw e => .throw { w with tmp := tmp } e
  | .ok t => .ok ⟨some t, some t, tmp⟩ none

/-- `CpuWatch()` (`cpuwatch_rt.cpp:36-40`): the two time stamps are default constructed from the system clock, and then
overwritten. -/
def cpuNew (m : Mode) (r₁ r₂ r : Reading) : Outcome CpuWatch :=
  match watchNew m r₁ r₂ with
  | .ub => .ub
  | .throw e => .throw e
  | .ok w =>
    match cpuRestart m ⟨w.start, w.split, none⟩ r with
    | .ub => .ub
    | .throw _ e => .throw e
    | .ok c _ => .ok c

/-- `restart()`, `elapsed()` and `split()` (`cpuwatch_rt.cpp:46-66`). -/
def cpuStep (m : Mode) (w : CpuWatch) : WatchOp × Reading → Res CpuWatch (Option Ts)
  | (.restart, r) => cpuRestart m w r
  | (.elapsed, r) =>
    let tmp := fetch w.tmp r
    match stampFrom m tmp with
    | .ub => .ub
    | .throw e => .throw { w with tmp := tmp } e
    | .ok t =>
      match minus m (some t) w.start with
      | .ub => .ub
      | .throw e => .throw { w with tmp := tmp } e
      | .ok d => .ok { w with tmp := tmp } (some d)
  | (.split, r) =>
    match w.split with
    | none => .ub
    | some last =>
      let tmp := fetch w.tmp r
      match stampFrom m tmp with
      | .ub => .ub
      | .throw e => .throw { w with tmp := tmp } e
      | .ok t =>
        match minus m (some t) (some last) with
        | .ub => .ub
        | .throw e => .throw { w with split := some t, tmp := tmp } e
        | .ok d => .ok { w with split := some t, tmp := tmp } (some d)

/-! ## Snooze -/

/-- `validate()` (`ecl_time/src/lib/snooze_pos.cpp:74-92`) on a known `time_value`: the local variable `time_current` is
indeterminate if the clock fails.  `none` means that the given readings do not suffice. -/
def validate (v : Bool) (p : Ts) : Ts → List Reading → Option (Outcome (Ts × List Reading))
  | _, [] => none
  | tv, r :: rest =>
    match fetch none r with
    | none => some .ub
    | some now =>
      if later now tv then
        if v then validate v p (bump p now) rest else some (.ok (bump p now, rest))
      else some (.ok (tv, rest))

/-- `operator()()` (`snooze_pos.cpp:50-55`, `57-72`); the result is the time given to `sleep_until`. -/
def snooze (v : Bool) (p : Ts) (tv : Cell) (rs : List Reading) : Option (Outcome (Ts × List Reading)) :=
  match tv with
  | none => some .ub
  | some t =>
    match (if v then validate v p (bump p t) rs else some (.ok (bump p t, rs))) with
    | none => none
    | some .ub => some .ub
    | some (.throw e) => some (.throw e)
    | some (.ok r) => validate v p r.1 r.2

/-! ## FrequencyMonitor -/

/-- `update()` (`ecl_time/src/lib/frequency.cpp:39-55`): the connection and the counter are set before the clock is
asked; either clock may be in use (line 43), and both fail alike. -/
def freqUpdate (m : Mode) (f : Freq) (r : Reading) : Res Freq Unit :=
  let g := { f with connected := true, count := (f.count + 1) % 4294967296 }
  match stamp m none r with
  | .ub => .ub
  | .throw _ e => .throw g e
  | .ok c () =>
    match minus m c (some f.lastIncoming) with
    | .ub => .ub
    | .throw e => .throw g e
    | .ok d => .ok { g with minI := if lt d g.minI then d else g.minI
                            maxI := if gt d g.maxI then d else g.maxI
                            lastIncoming := c.getD f.lastIncoming } ()

/-- `analyse()` (`frequency.cpp:57-89`). -/
def freqAnalyse (m : Mode) (f : Freq) (r : Reading) : Res Freq Unit :=
  match stamp m none r with
  | .ub => .ub
  | .throw _ e => .throw f e
  | .ok none () => .ub
  | .ok (some now) () =>
    match Time.freqAnalyse m f now with
    | .ub => .ub
    | .throw e => .throw f e
    | .ok g => .ok g ()

/-- The calls of a monitor (`frequency.cpp:39-89`). -/
inductive FreqCall where
  | update
  | analyse
  deriving DecidableEq, Repr

/-- (`frequency.cpp:39-89`.) -/
def freqStep (m : Mode) (f : Freq) : FreqCall × Reading → Res Freq Unit
  | (.update, r) => freqUpdate m f r
  | (.analyse, r) => freqAnalyse m f r

/-! ## Sleep -/

/-- `throwSleepException` (`ecl_time/include/ecl/time/sleep_pos.hpp:331-345`); `EINTR` is 4. -/
def sleepFlag : Nat → Flag
  | 4 => .interruptedError
  | 22 => .invalidInputError
  | 14 => .memoryError
  | _ => .unknownError

/-- `nanosleep` of the operating system (called at `ecl_time/src/lib/sleep_pos.cpp:43`): an invalid request is refused,
a signal arriving before the time is over ends the sleep.  The result is the time slept in nanoseconds, and `errno`. -/
def nanosleep (req : Ts) (signal : Option Nat) : Nat × Option Nat :=
  if req.sec < 0 ∨ req.nsec < 0 ∨ 1000000000 ≤ req.nsec then (0, some 22)
  else
    let t := (req.sec * 1000000000 + req.nsec).toNat
    match signal with
    | none => (t, none)
    | some d => if d < t then (d, some 4) else (t, none)

/-- A call on one of the four sleep classes (`sleep_pos.cpp:42-62`, `73-86`, `97-108`, `119-130`): the state is the
member `required`, the answer the time slept.  The member `remaining` is written and never read. -/
def sleepStep (m : Mode) (k : SleepKind) (req : Ts) (op : SleepOp × Option Nat) : Ts × Nat × Obs Unit :=
  let req' := sleepReq k req op.1
  let r := nanosleep req' op.2
  match r.2 with
  | none => (req', r.1, .ok ())
  | some e =>
    match m with
    | .debug => (req', r.1, .error (sleepFlag e))
    | .release => (req', r.1, .ok ())

/-- A sequence of calls, with the signal that arrives during each: the time slept in each call and how it ended
(`sleep_pos.cpp:42-130`). -/
def sleepRuns (m : Mode) (k : SleepKind) : Ts → List (SleepOp × Option Nat) → List (Nat × Obs Unit)
  | _, [] => []
  | req, op :: ops => (sleepStep m k req op).2 :: sleepRuns m k (sleepStep m k req op).1 ops

end Ecl.ClockFail
