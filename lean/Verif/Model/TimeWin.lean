import Verif.Model.Time

/-!
# Model of `ecl_time` on Windows

`ecl_time/src/lib/timestamp_win.cpp`, `ecl_time/src/lib/sleep_win.cpp`, and the stop watch
(`ecl_time/src/lib/stopwatch.cpp`) on top of them.  `long` has 32 bits there; `TimeStructure` (of the external
package `ecl_time_lite`) is taken to be a 64 bit `time_t` and a `long`.  The arithmetic of time stamps is the
same as elsewhere (`Verif.Model.Time`; its 64 bit `long` makes no difference before the year 2038), and so is `Snooze` (`snooze_win.cpp` has the text of `snooze_pos.cpp`).
-/
set_option autoImplicit false

namespace Ecl.TimeWin
open Ecl.Time

/-- `TimeStamp::TimeStamp()` (`timestamp_win.cpp:38-49`); `c` is the count of the clock, whose unit is the
nanosecond. -/
def now (c : Nat) : Ts := ⟨(c / 1000000000 : Nat), (c % 1000000000 : Nat)⟩

/-- `TimeStamp::stamp()` (`67-69`), at a time at which the clock counts `c`. -/
def stamp (t : Ts) (_c : Nat) : Ts := t

/-! ## Stop watch -/

/-- Calls on a stop watch, with what the clock counts. (`stopwatch.cpp:35-52`.) -/
inductive WatchOp where
  | restart (c : Nat)
  | split (c : Nat)
  | elapsed (c : Nat)
  deriving DecidableEq, Repr

/-- The constructor (`stopwatch.cpp:26-29`): both members read the clock. -/
def watchNew (c₁ c₂ : Nat) : Watch := ⟨now c₁, now c₂⟩

/-- `restart` (`35-39`), `elapsed` (`41-45`), `split` (`47-52`). -/
def watchStep (m : Mode) (w : Watch) : WatchOp → Outcome (Watch × Option Ts)
  | .restart c =>
    let start := stamp w.start c
    .ok (⟨start, start⟩, none)
  | .split c => do
    let split := stamp w.split c
    let r ← sub m split w.split
    .ok (⟨w.start, split⟩, some r)
  | .elapsed c => do
    let r ← sub m (now c) w.start
    .ok (w, some r)

/-- A sequence of calls and the times they return. (`stopwatch.cpp:26-52`.) -/
def watchRun (m : Mode) : Watch → List WatchOp → Outcome (Watch × List (Option Ts))
  | w, [] => .ok (w, [])
  | w, op :: ops => do
    let r ← watchStep m w op
    let q ← watchRun m r.1 ops
    .ok (q.1, r.2 :: q.2)

/-! ## Sleeping -/

/-- Conversion of an `unsigned long` (32 bits) to `long`. -/
def toLong (n : Nat) : Int :=
  let k := n % 4294967296
  if k < 2147483648 then (k : Int) else (k : Int) - 4294967296

/-- The constructors (`sleep_win.cpp:40-43`, `68-71`, `90-93`, `110-113`); `n` is an `unsigned long`. -/
def sleepCtor : SleepKind → Nat → Ts
  | .sec, n => ⟨(n % 4294967296 : Nat), 0⟩
  | .milli, n => ⟨(n / 1000 : Nat), toLong (n % 1000 * 1000000)⟩
  | .micro, n => ⟨(n / 1000000 : Nat), toLong (n % 1000000 * 1000)⟩
  | .nano, n => ⟨(n / 1000000000 : Nat), toLong (n % 1000000000)⟩

/-- The member `required` at a call (`45-48`, `57-62`, `73-84`, `95-104`, `115-124`). -/
def sleepReq (k : SleepKind) (req : Ts) : SleepOp → Ts
  | .fixed => req
  | .call n =>
    match k with
    | .sec => sleepCtor .sec n
    | .milli => sleepCtor .milli n
    | .micro => ⟨req.sec, toLong (1000 * n)⟩
    | .nano => ⟨req.sec, toLong n⟩

/-- What a sequence of calls asks the system for. (`sleep_win.hpp:68-124`.) -/
def sleepRuns (k : SleepKind) : Ts → List SleepOp → List Ts
  | _, [] => []
  | req, op :: ops => sleepReq k req op :: sleepRuns k (sleepReq k req op) ops

end Ecl.TimeWin
