import Verif.Model.Time

/-!
# Model of `ecl::Serial` (posix): timeouts and reading

`ecl_devices/src/lib/serial_pos.cpp`, `ecl_devices/include/ecl/devices/serial_pos.hpp`.

Time is counted in nanoseconds.  The line is the list of bytes still to be read, each with its arrival
time.  `::read` is assumed not to fail; `tcsetattr` to succeed.  (`TCSAFLUSH` also discards unread input;
the line is the input from then on.)
-/
set_option autoImplicit false

namespace Ecl.Serial
open Ecl.Time

/-- The members that matter for reading (`serial_pos.hpp:383-392`): the flag `is_open`, the terminal's
`VTIME`, `read_timeout_ms`, the period of `fake_snooze` and `fake_loop_count`. -/
structure Port where
  isOpen : Bool
  vtime : Nat
  timeoutMs : Int
  period : Ts
  count : Nat
  deriving DecidableEq, Repr

/-- `unblock()`: `serial_pos.cpp:357-363` (`NonBlocking` is -1). -/
def Port.unblock (s : Port) : Port := { s with vtime := 0, timeoutMs := -1 }

/-- `block(timeout)`: `serial_pos.cpp:303-355`.  The durations 0.001, 0.002 and 0.005 convert to 1, 2 and
5 ms. -/
def Port.block (s : Port) (t : Nat) : Port :=
  let s' :=
    if t < 100 then
      let s'' :=
        if t < 5 then { s with period := ⟨0, 1000000⟩, count := t }
        else if t < 20 then
          { s with period := ⟨0, 2000000⟩, count := if t % 2 = 0 then t / 2 else t / 2 + 1 }
        else
          { s with period := ⟨0, 5000000⟩, count := if t % 5 = 0 then t / 5 else t / 5 + 1 }
      s''.unblock
    else { s with vtime := t / 100 % 256 }
  { s' with timeoutMs := toLong t }

/-- Bytes to come, with arrival times. (Behind `serial_pos.hpp:442-517`.) -/
abbrev Line (α : Type _) := List (Int × α)

variable {α : Type _}

/-- The bytes that have arrived by time `τ`. (Behind `serial_pos.hpp:442-517`.) -/
def arrived (line : Line α) (τ : Int) : Line α := line.takeWhile fun p => decide (p.1 ≤ τ)

/-- `::read` for at most `n ≥ 1` bytes on a terminal with `VMIN = 0`: what is there, else wait at most
`vtime` tenths of a second for the first byte (termios(3)).  Result: bytes, remaining line, return time. -/
def sysRead (vtime : Nat) (line : Line α) (n : Nat) (τ : Int) : List α × Line α × Int :=
  match line with
  | [] => ([], [], τ + vtime * 100000000)
  | (a, b) :: rest =>
    if a ≤ τ then
      (((arrived ((a, b) :: rest) τ).take n).map Prod.snd,
        ((a, b) :: rest).drop ((arrived ((a, b) :: rest) τ).take n).length, τ)
    else if a ≤ τ + vtime * 100000000 then
      (((arrived ((a, b) :: rest) a).take n).map Prod.snd,
        ((a, b) :: rest).drop ((arrived ((a, b) :: rest) a).take n).length, a)
    else ([], (a, b) :: rest, τ + vtime * 100000000)

/-- `sleep_until` (external package `ecl_time_lite`: `clock_nanosleep` with an absolute time) called at
time `τ`: it returns no earlier than asked; a time that is not a valid `timespec` is rejected at
once. (Behind `serial_pos.hpp:442-517`.) -/
def sleepUntil (req : Ts) (τ : Int) (late : Nat) : Int :=
  if 0 ≤ req.nsec ∧ req.nsec < 1000000000 then max (req.sec * 1000000000 + req.nsec) τ + late else τ + late

/-- What one loop of the fake timeout needs from outside: the clock reading of `Snooze::validate` and
the delay after the wake-up. (`serial_pos.hpp:442-517`.) -/
abbrev Tick := Ts × Nat

/-- The loop `for (i = 0; i < fake_loop_count; ++i)`: `serial_pos.hpp:456-464`, `495-503`; one tick per
iteration.  Result: bytes, remaining line, return time, the wake-up times asked for. -/
def fakeLoop (p : Ts) (n : Nat) : Line α → Ts → Int → List Tick → List α × Line α × Int × List Ts
  | line, _, τ, [] => ([], line, τ, [])
  | line, tv, τ, (now, late) :: ticks =>
    match sysRead 0 line n τ with
    | ([], line', τ') =>
      match snooze false p tv [now] with
      | none => ([], line', τ', [])   -- not possible: one reading is enough without validation
      | some (req, _) =>
        let r := fakeLoop p n line' req (sleepUntil req τ' late) ticks
        (r.1, r.2.1, r.2.2.1, req :: r.2.2.2)
    | (bs, line', τ') => (bs, line', τ', [])

/-- `read(Byte*, n)`: `serial_pos.hpp:481-517`, called at time `τ`, with `start` the clock reading of
`fake_snooze.initialise()` and one tick for each of the `fake_loop_count` iterations.  The result is the
bytes (the call returns their number), the rest of the line, the return time and the wake-up times. -/
def readN (m : Mode) (s : Port) (line : Line α) (n : Nat) (τ : Int) (start : Ts) (ticks : Nat → Tick) :
    Outcome (Option (List α × Line α × Int × List Ts)) :=
  if ¬ s.isOpen then
    match m with
    | .debug => .throw .openError
    | .release => .ok none   -- the call returns -1
  else if s.timeoutMs ≠ -1 ∧ s.timeoutMs < 100 then
    .ok (some (fakeLoop s.period n line start τ ((List.range s.count).map ticks)))
  else
    let r := sysRead s.vtime line n τ
    .ok (some (r.1, r.2.1, r.2.2, []))

/-- `read(Byte&)`: `serial_pos.hpp:442-479`: as above with one byte, but the result variable `no_read`
is not initialised (line 452), so that a loop that runs zero times returns an indeterminate value. -/
def readByte (m : Mode) (s : Port) (line : Line α) (τ : Int) (start : Ts) (ticks : Nat → Tick) :
    Outcome (Option (List α × Line α × Int × List Ts)) :=
  if s.isOpen ∧ s.timeoutMs ≠ -1 ∧ s.timeoutMs < 100 ∧ s.count = 0 then .ub
  else readN m s line 1 τ start ticks

end Ecl.Serial
