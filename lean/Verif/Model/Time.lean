import Verif.Core.Outcome
import Verif.Core.CInt

/-!
# Model of `ecl_time`

A `timespec` (`TimeStructure`) is a pair of `long`s.  Signed overflow is undefined (`Outcome.ub`).
Readings of the system clock (`epoch_time`, `cpu_time`, … of the external package `ecl_time_lite`)
are inputs of the modelled calls; they are assumed not to fail.
-/
set_option autoImplicit false

namespace Ecl.Time

/-- `timespec`: seconds and nanoseconds (`TimeStampBase::time`,
`ecl_time/include/ecl/time/timestamp_base.hpp:217`). -/
structure Ts where
  sec : Int
  nsec : Int
  deriving DecidableEq, Repr

/-- Signed `long` addition. (At `timestamp_base.cpp:129-169`.) -/
def addL (a b : Int) : Outcome Int := if InLong (a + b) then .ok (a + b) else .ub
/-- Signed `long` subtraction. (At `timestamp_base.cpp:171-198`.) -/
def subL (a b : Int) : Outcome Int := if InLong (a - b) then .ok (a - b) else .ub

/-- Constructor from seconds and nanoseconds, and `stamp(sec,nsec)`
(`ecl_time/src/lib/timestamp_base.cpp:33-40`, `52-60`). -/
def mk (m : Mode) (s n : Int) : Outcome Ts := do
  assertThrow m ((decide (0 < s) && decide (0 ≤ n)) || (decide (s < 0) && decide (n ≤ 0)) ||
    decide (s = 0)) .invalidInputError
  .ok ⟨s, n⟩

/-- The two normalisation steps of `+` and `+=` (`timestamp_base.cpp:131-146`, `152-167`). -/
def normalise (s n : Int) : Outcome (Int × Int) := do
  let r ← (if 1000000000 ≤ n then do
      let s' ← addL s 1
      .ok (s', n - 1000000000)
    else if n ≤ -1000000000 then do
      let s' ← subL s 1
      .ok (s', n + 1000000000)
    else .ok (s, n) : Outcome (Int × Int))
  let r := if 0 < r.1 ∧ r.2 < 0 then (r.1 - 1, 1000000000 + r.2) else r
  let r := if r.1 < 0 ∧ 0 < r.2 then (r.1 + 1, r.2 - 1000000000) else r
  .ok r

/-- `operator+=` (`timestamp_base.cpp:129-148`). -/
def addAssign (a b : Ts) : Outcome Ts := do
  let s ← addL a.sec b.sec
  let n ← addL a.nsec b.nsec
  let r ← normalise s n
  .ok ⟨r.1, r.2⟩

/-- `operator+` (`timestamp_base.cpp:150-169`). -/
def add (m : Mode) (a b : Ts) : Outcome Ts := do
  let s ← addL a.sec b.sec
  let n ← addL a.nsec b.nsec
  let r ← normalise s n
  mk m r.1 r.2

/-- The borrow step of `-` and `-=` (`timestamp_base.cpp:175-181`, `190-196`). -/
def borrow (s n : Int) : Int × Int :=
  if 0 < s ∧ n < 0 then (s - 1, n + 1000000000)
  else if s < 0 ∧ 0 < n then (s + 1, n - 1000000000)
  else (s, n)

/-- `operator-=` (`timestamp_base.cpp:171-184`). -/
def subAssign (a b : Ts) : Outcome Ts := do
  let s ← subL a.sec b.sec
  let n ← subL a.nsec b.nsec
  .ok ⟨(borrow s n).1, (borrow s n).2⟩

/-- `operator-` (`timestamp_base.cpp:186-198`). -/
def sub (m : Mode) (a b : Ts) : Outcome Ts := do
  let s ← subL a.sec b.sec
  let n ← subL a.nsec b.nsec
  mk m (borrow s n).1 (borrow s n).2

/-- `operator==` (`timestamp_base.cpp:66-72`). -/
def eq (a b : Ts) : Bool := decide (b.sec = a.sec) && decide (b.nsec = a.nsec)
/-- `operator!=` (`timestamp_base.cpp:74-80`). -/
def ne (a b : Ts) : Bool := !(decide (b.sec = a.sec) && decide (b.nsec = a.nsec))
/-- `operator<=` (`timestamp_base.cpp:82-91`). -/
def le (a b : Ts) : Bool :=
  if a.sec > b.sec then false
  else if a.sec = b.sec then (if a.nsec > b.nsec then false else true) else true
/-- `operator>=` (`timestamp_base.cpp:93-102`). -/
def ge (a b : Ts) : Bool :=
  if a.sec < b.sec then false
  else if a.sec = b.sec then (if a.nsec < b.nsec then false else true) else true
/-- `operator<` (`timestamp_base.cpp:104-113`). -/
def lt (a b : Ts) : Bool :=
  if a.sec > b.sec then false
  else if a.sec = b.sec then (if a.nsec ≥ b.nsec then false else true) else true
/-- `operator>` (`timestamp_base.cpp:115-124`). -/
def gt (a b : Ts) : Bool :=
  if a.sec < b.sec then false
  else if a.sec = b.sec then (if a.nsec ≤ b.nsec then false else true) else true

/-- `msec()`, `usec()` (`timestamp_base.hpp:112,119`): C++ division truncates. -/
def msec (a : Ts) : Int := a.nsec.tdiv 1000000
/-- (`timestamp_base.hpp:112-134`.) -/
def usec (a : Ts) : Int := a.nsec.tdiv 1000

/-- Printing of an integer by an output stream: decimal, `-` for negative numbers
(library behaviour). (At `timestamp_base.hpp:225-252`.) -/
def printInt (i : Int) : List Char :=
  if i < 0 then '-' :: Nat.toDigits 10 i.natAbs else Nat.toDigits 10 i.natAbs

/-- `operator<<` (`timestamp_base.hpp:225-252`). -/
def print (a : Ts) : List Char :=
  let n := a.nsec.natAbs
  (if a.sec = 0 ∧ a.nsec < 0 then ['-'] else []) ++ printInt a.sec ++ ['.'] ++
  (if n < 10 then "00000000".toList else if n < 100 then "0000000".toList
   else if n < 1000 then "000000".toList else if n < 10000 then "00000".toList
   else if n < 100000 then "0000".toList else if n < 1000000 then "000".toList
   else if n < 10000000 then "00".toList else if n < 100000000 then "0".toList else []) ++
  Nat.toDigits 10 n

/-! ## Sleeping -/

/-- Conversion of an `unsigned long` (a natural below `2^64` after reduction) to `time_t`/`long`. -/
def toLong (n : Nat) : Int :=
  let k := n % 18446744073709551616
  if k < 9223372036854775808 then (k : Int) else (k : Int) - 18446744073709551616

/-- The four sleep classes (`ecl_time/include/ecl/time/sleep_pos.hpp:61-308`). -/
inductive SleepKind where
  | sec | milli | micro | nano
  deriving DecidableEq, Repr

/-- Constructors from an `unsigned long` (`ecl_time/src/lib/sleep_pos.cpp:37-40`, `68-71`, `92-95`,
`114-117`): the member `required`. -/
def sleepCtor : SleepKind → Nat → Ts
  | .sec, n => ⟨toLong n, 0⟩
  | .milli, n => ⟨toLong (n / 1000), toLong (n % 1000 * 1000000)⟩
  | .micro, n => ⟨toLong (n / 1000000), toLong (n % 1000000 * 1000)⟩
  | .nano, n => ⟨toLong (n / 1000000000), toLong (n % 1000000000)⟩

/-- Calls on a sleep object. (`sleep_pos.hpp:61-308`.) -/
inductive SleepOp where
  /-- `operator()()`. -/
  | fixed
  /-- `operator()(unsigned long)`. -/
  | call (n : Nat)
  deriving DecidableEq, Repr

/-- The member `required`, which is the timespec handed to `nanosleep`, at a call
(`sleep_pos.cpp:42-46`, `56-62`, `73-86`, `97-108`, `119-130`): `MicroSleep` and `NanoSleep` only
overwrite `tv_nsec`. -/
def sleepReq (k : SleepKind) (req : Ts) : SleepOp → Ts
  | .fixed => req
  | .call n =>
    match k with
    | .sec => ⟨toLong n, 0⟩
    | .milli => ⟨toLong (n / 1000), toLong (n % 1000 * 1000000)⟩
    | .micro => ⟨req.sec, toLong (1000 * n)⟩
    | .nano => ⟨req.sec, toLong n⟩

/-- The timespecs handed to the operating system by a sequence of calls. (`sleep_pos.hpp:61-308`.) -/
def sleepRuns (k : SleepKind) : Ts → List SleepOp → List Ts
  | _, [] => []
  | req, op :: ops => sleepReq k req op :: sleepRuns k (sleepReq k req op) ops

/-- `Sleep(const Duration&)` and `Sleep::operator()(const Duration&)` (`sleep_pos.cpp:32-35`,
`48-54`). -/
def sleepDuration (d : Ts) : Ts := ⟨d.sec, d.nsec⟩

/-! ## Snooze -/

/-- The arithmetic of `add_period()` (`ecl_time/src/lib/snooze_pos.cpp:57-67`), with
`wrap_value_ns = 1000000000 - period.nsec` (line 42).  Overflow of the seconds is not modelled. -/
def bump (p tv : Ts) : Ts :=
  if tv.nsec > 1000000000 - p.nsec then ⟨tv.sec + 1 + p.sec, tv.nsec - (1000000000 - p.nsec)⟩
  else ⟨tv.sec + p.sec, tv.nsec + p.nsec⟩

/-- The test of `validate()` (`snooze_pos.cpp:79-85`). -/
def later (now tv : Ts) : Bool :=
  decide (now.sec > tv.sec) || (decide (now.sec = tv.sec) && decide (now.nsec > tv.nsec))

/-- `validate()` (`snooze_pos.cpp:74-92`) with the clock readings it may consume; with
`validate_times` (the flag `v`) the call of `add_period` validates again (lines 69-71).  `none`
means that the given readings do not suffice. -/
def validate (v : Bool) (p : Ts) : Ts → List Ts → Option (Ts × List Ts)
  | _, [] => none
  | tv, now :: rest =>
    if later now tv then
      if v then validate v p (bump p now) rest else some (bump p now, rest)
    else some (tv, rest)

/-- `add_period()` (`snooze_pos.cpp:57-72`). -/
def addPeriod (v : Bool) (p tv : Ts) (rs : List Ts) : Option (Ts × List Ts) :=
  if v then validate v p (bump p tv) rs else some (bump p tv, rs)

/-- `operator()()` (`snooze_pos.cpp:50-55`): the result is the absolute time passed to
`sleep_until`, which is also the next `time_value`. -/
def snooze (v : Bool) (p tv : Ts) (rs : List Ts) : Option (Ts × List Ts) :=
  (addPeriod v p tv rs).bind fun r => validate v p r.1 r.2

/-- A sequence of `operator()()` calls, each with its own clock readings: the requested wake-up
times. (`snooze_pos.cpp:50-92`.) -/
def snoozes (v : Bool) (p : Ts) : Ts → List (List Ts) → Option (List Ts)
  | _, [] => some []
  | tv, rs :: rss => (snooze v p tv rs).bind fun r => (snoozes v p r.1 rss).map (r.1 :: ·)

/-! ## StopWatch -/

/-- `StopWatch` (`ecl_time/include/ecl/time/stopwatch.hpp:96`); `CpuWatch` has the same members. -/
structure Watch where
  start : Ts
  split : Ts
  deriving DecidableEq, Repr

/-- `StopWatch::StopWatch()` (`ecl_time/src/lib/stopwatch.cpp:26-29`): the body is empty, so the two
members are default constructed one after the other, each reading the clock. -/
def watchNew (t₁ t₂ : Ts) : Watch := ⟨t₁, t₂⟩

/-- `CpuWatch::CpuWatch()` (`ecl_time/src/lib/cpuwatch_rt.cpp:36-40`), and `restart()` of both
classes (`stopwatch.cpp:35-39`, `cpuwatch_rt.cpp:46-51`). -/
def watchRestart (t : Ts) : Watch := ⟨t, t⟩

/-- `elapsed()` at clock reading `t` (`stopwatch.cpp:41-45`, `cpuwatch_rt.cpp:53-58`). -/
def watchElapsed (m : Mode) (w : Watch) (t : Ts) : Outcome Ts := sub m t w.start

/-- `split()` at clock reading `t` (`stopwatch.cpp:47-52`, `cpuwatch_rt.cpp:60-66`). -/
def watchSplit (m : Mode) (w : Watch) (t : Ts) : Outcome (Watch × Ts) := do
  let r ← sub m t w.split
  .ok (⟨w.start, t⟩, r)

/-- A sequence of `split()` calls. (`stopwatch.cpp:47-52`.) -/
def watchSplits (m : Mode) : Watch → List Ts → Outcome (Watch × List Ts)
  | w, [] => .ok (w, [])
  | w, t :: ts => do
    let r ← watchSplit m w t
    let q ← watchSplits m r.1 ts
    .ok (q.1, r.2 :: q.2)

/-! ## FrequencyMonitor -/

/-- The members of `FrequencyMonitor` (`ecl_time/include/ecl/time/frequency.hpp:116-123`). The
diagnostics are the values before their conversion to `float`. -/
structure Freq where
  connected : Bool
  /-- reported frequency (events and length of the window) -/
  hz : Option (Nat × Ts)
  repMin : Ts
  repMax : Ts
  count : Nat
  lastAnalysed : Ts
  minI : Ts
  maxI : Ts
  period : Ts
  lastIncoming : Ts
  deriving DecidableEq, Repr

/-- Constructor (`ecl_time/src/lib/frequency.cpp:20-37`): `t₁` is the clock reading of the default
constructed `last_anyalsed`, `t₂` the one of `last_incoming`. -/
def freqNew (period t₁ t₂ : Ts) : Freq :=
  ⟨false, none, ⟨-1, 0⟩, ⟨-1, 0⟩, 0, t₁, ⟨100000, 0⟩, ⟨0, 0⟩, period, t₂⟩

/-- `update()` at reading `t` (`frequency.cpp:39-55`); the counter is an `unsigned int`. -/
def freqUpdate (m : Mode) (f : Freq) (t : Ts) : Outcome Freq := do
  let d ← sub m t f.lastIncoming
  .ok { f with
    connected := true
    count := (f.count + 1) % 4294967296
    minI := if lt d f.minI then d else f.minI
    maxI := if gt d f.maxI then d else f.maxI
    lastIncoming := t }

/-- `analyse()` at reading `now` (`frequency.cpp:57-89`). -/
def freqAnalyse (m : Mode) (f : Freq) (now : Ts) : Outcome Freq := do
  let interval ← sub m now f.lastAnalysed
  if gt interval f.period then
    if f.count = 0 then
      .ok { f with lastAnalysed := now, connected := false, repMin := ⟨0, 0⟩, repMax := ⟨0, 0⟩
                   hz := some (0, interval) }
    else
      .ok { f with lastAnalysed := now, connected := true, repMin := f.minI, repMax := f.maxI
                   hz := some (f.count, interval), count := 0
                   minI := ⟨100000, 0⟩, maxI := ⟨0, 0⟩ }
  else .ok f

/-- What happens to a monitor. (`frequency.cpp:39-89`.) -/
inductive FreqOp where
  | update (t : Ts)
  | analyse (now : Ts)
  deriving DecidableEq, Repr

/-- (`frequency.cpp:39-89`.) -/
def freqStep (m : Mode) (f : Freq) : FreqOp → Outcome Freq
  | .update t => freqUpdate m f t
  | .analyse now => freqAnalyse m f now

/-- (`frequency.cpp:20-89`.) -/
def freqRun (m : Mode) : Freq → List FreqOp → Outcome Freq
  | f, [] => .ok f
  | f, op :: ops => do
    let f' ← freqStep m f op
    freqRun m f' ops

end Ecl.Time
