import Verif.Core.Outcome

/-!
# Model of `ecl_threads/src/lib/priority_pos.cpp`

`PRIO_MIN`/`PRIO_MAX` are -20 and 20 (`sys/resource.h`); the real time range is a parameter.  Integer
division truncates towards zero; the products fit in `int` for every real system and are not
checked.
-/
set_option autoImplicit false

namespace Ecl.Priority

/-- `Priority` (`priority_common.hpp:32-44`). -/
inductive Level where
  | default | unknown | background | low | normal | high | critical | rt1 | rt2 | rt3 | rt4
  deriving DecidableEq, Repr

/-- Distance from `RealTimePriority1`, for the real time levels. -/
def Level.rt : Level → Option Int
  | .rt1 => some 0
  | .rt2 => some 1
  | .rt3 => some 2
  | .rt4 => some 3
  | _ => none

/-- What the system knows about the calling thread: the real time priority (`SCHED_RR`) or `none` for
`SCHED_OTHER`, and the niceness. (Operating system, behind `priority_pos.cpp:40-336`.) -/
structure Sys where
  rr : Option Int
  nice : Int
  deriving DecidableEq, Repr

/-- The system's rules: the real time range, whether real time scheduling is permitted, which nice
values may be set, and the largest nice value (19 on Linux; larger ones are reduced to it). -/
structure Rules where
  rrMin : Int
  rrMax : Int
  rtAllowed : Bool
  niceAllowed : Int → Bool
  niceMax : Int

/-- `setpriority`: the new niceness and whether the call succeeded. (Operating system, behind
`priority_pos.cpp:40-119`.) -/
def setpriority (r : Rules) (s : Sys) (n : Int) : Sys × Bool :=
  if r.niceAllowed n then ({ s with nice := min n r.niceMax }, true) else (s, false)

/-- `set_real_time_priority` (`300-336`). -/
def setRealTime (m : Mode) (r : Rules) (s : Sys) (p : Int) : Res Sys Bool :=
  if p < r.rrMin then .throw s .outOfRange
  else if p > r.rrMax then .throw s .outOfRange
  else if r.rtAllowed then .ok { s with rr := some p } true
  else
    match m with
    | .debug => .throw s .permissionsError
    | .release => .ok s false

/-- The nice value of a level (`88-113`). -/
def niceOf : Level → Option Int
  | .critical => some (-20)
  | .high => some (-20 + (20 - -20 : Int).tdiv 4)
  | .normal => some (-20 + (20 - -20 : Int).tdiv 2)
  | .low => some (-20 + (3 * (20 - -20) : Int).tdiv 4)
  | .background => some 20
  | _ => none

/-- `set_priority` (`40-119`): only the result of setting the critical level is looked at; -1 stands
for an unavailable real time policy. -/
def setPriority (m : Mode) (r : Rules) (s : Sys) (l : Level) : Res Sys Bool :=
  match l.rt with
  | some k =>
    if r.rrMin = -1 ∨ r.rrMax = -1 then .throw s .notSupportedError
    else setRealTime m r s (r.rrMin + (k * (r.rrMax - r.rrMin)).tdiv 10)
  | none =>
    match niceOf l with
    | none => .ok s true
    | some n =>
      let x := setpriority r s n
      if l = .critical ∧ x.2 = false then
        match m with
        | .debug => .throw x.1 .permissionsError
        | .release => .ok x.1 false
      else .ok x.1 true

/-- `get_priority` (`121-183`); the system calls succeed. -/
def getPriority (r : Rules) (s : Sys) : Outcome Level :=
  match s.rr with
  | some p =>
    if r.rrMin = -1 ∨ r.rrMax = -1 then .throw .notSupportedError
    else if p ≥ r.rrMin + (3 * (r.rrMax - r.rrMin)).tdiv 10 then .ok .rt4
    else if p ≥ r.rrMin + (2 * (r.rrMax - r.rrMin)).tdiv 10 then .ok .rt3
    else if p ≥ r.rrMin + (r.rrMax - r.rrMin).tdiv 10 then .ok .rt2
    else .ok .rt1
  | none =>
    if s.nice = -20 then .ok .critical
    else if s.nice = -20 + (20 - -20 : Int).tdiv 4 then .ok .high
    else if s.nice = -20 + (20 - -20 : Int).tdiv 2 then .ok .normal
    else if s.nice = -20 + (3 * (20 - -20) : Int).tdiv 4 then .ok .low
    else if s.nice = 20 then .ok .background
    else .ok .normal

end Ecl.Priority
