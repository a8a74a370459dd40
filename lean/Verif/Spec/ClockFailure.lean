import Verif.Spec.Time
import Verif.Model.ClockFailure

/-!
# Clocks that fail: the reader's side

From the model only the types of readings, of calls and of time stamps are taken.
-/
set_option autoImplicit false

namespace Ecl.Spec.ClockFail
open Ecl.Time Ecl.ClockFail

/-- The error that stands for an `errno` of a clock. -/
def reason (e : Nat) : Flag := if e = 22 then .notSupportedError else if e = 14 then .outOfRange else .unknownError

/-- The time stamp of a duration of `n` nanoseconds. -/
def span (n : Int) : Ts :=
  if 0 ≤ n then ⟨n / 1000000000, n % 1000000000⟩ else ⟨-(-n / 1000000000), -(-n % 1000000000)⟩

/-- What a clock may show. -/
def Shown : Reading → Prop
  | .ok t => t.Valid ∧ t.sec ≤ longMax
  | .error _ => True

/-- When a watch was started, and when it was last split, in nanoseconds. -/
structure Marks where
  start : Int
  split : Int
  deriving DecidableEq, Repr

/-- A watch that answers a call at time `t`. -/
def good (s : Marks) (t : Int) : WatchOp → Marks × Obs (Option Ts)
  | .restart => (⟨t, t⟩, .ok none)
  | .elapsed => (s, .ok (some (span (t - s.start))))
  | .split => (⟨s.start, t⟩, .ok (some (span (t - s.split))))

/-- A watch that reports a failing clock and is left as it was. -/
def reporting (s : Marks) : WatchOp × Reading → Marks × Obs (Option Ts)
  | (op, .ok t) => good s t.total op
  | (_, .error e) => (s, .error (reason e))

/-- A watch that says nothing of a failing clock: a restart goes back to the start before, a split takes no time at
all. -/
def silent (s : Marks) : WatchOp × Reading → Marks × Obs (Option Ts)
  | (op, .ok t) => good s t.total op
  | (.restart, .error _) => (⟨s.start, s.start⟩, .ok none)
  | (_, .error _) => (s, .ok (some ⟨0, 0⟩))

/-- A watch for which time stands still while its clock fails; the second component is the time of the last reading. -/
def frozen (s : Marks × Int) : WatchOp × Reading → (Marks × Int) × Obs (Option Ts)
  | (op, .ok t) => (((good s.1 t.total op).1, t.total), (good s.1 t.total op).2)
  | (op, .error _) => (((good s.1 s.2 op).1, s.2), (good s.1 s.2 op).2)

/-- How a sleep of `w` nanoseconds ends if a signal arrives after some time: how long it took, and what was reported. -/
def ends (m : Mode) (w : Nat) : Option Nat → Nat × Obs Unit
  | none => (w, .ok ())
  | some d => if d < w then (d, if m = .debug then .error .interruptedError else .ok ()) else (w, .ok ())

/-- Arguments with which a sleep object asks for the times wanted of it (C19). -/
def Modest (k : SleepKind) (ns : List Nat) : Prop :=
  ∀ n ∈ ns, if k = .sec ∨ k = .milli then n < 9223372036854775808 else n * unit k < 1000000000

/-- The arguments of calls. -/
def arguments : List SleepOp → List Nat
  | [] => []
  | .fixed :: ops => arguments ops
  | .call n :: ops => n :: arguments ops

end Ecl.Spec.ClockFail
