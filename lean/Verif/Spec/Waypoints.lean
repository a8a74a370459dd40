import Verif.Model.Manipulator

/-! # Segments between waypoints -/
set_option autoImplicit false

namespace Ecl.Spec
open Ecl.Manip

/-- Joint `j` moves from `a` to `b` between the waypoints and its nominal rate is `r`. -/
def Moves (w next : WayPoint) (j : ℕ) (a b r : ℝ) : Prop :=
  w.angles[j]? = some a ∧ next.angles[j]? = some b ∧ w.nominal[j]? = some r

/-- In the time `t` every joint reaches the next waypoint at its nominal rate. -/
def LongEnough (w next : WayPoint) (t : ℝ) : Prop := ∀ j a b r, Moves w next j a b r → |b - a| ≤ r * t

/-- Some joint needs all of the time `t`. -/
def Needed (w next : WayPoint) (t : ℝ) : Prop := ∃ j a b r, Moves w next j a b r ∧ r ≠ 0 ∧ |b - a| = r * t

/-- `w` and `next` are the ends of segment `i`. -/
def Segment (ws : List WayPoint) (i : ℕ) (w next : WayPoint) : Prop := ws[i]? = some w ∧ ws[i + 1]? = some next

/-- The waypoint fits a trajectory of this dimension. -/
def Fits (dim : ℕ) (w : WayPoint) : Prop := w.angles.length = dim ∧ w.nominal.length = dim ∧ w.rates.length = dim

end Ecl.Spec
