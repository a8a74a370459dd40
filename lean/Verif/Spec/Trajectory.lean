import Verif.Spec.Waypoints

/-! # What a user configures at the ends of a trajectory -/
set_option autoImplicit false

namespace Ecl.Spec
open Ecl.Manip

/-- The rate configured for a joint, zero if the waypoint's rates were never set. -/
def configuredRate (w : WayPoint) (j : ℕ) : ℝ := if w.ratesConfigured then w.rates.getD j 0 else 0

/-- Every waypoint but the last: its nominal rates are positive. -/
def RatesPositive (ws : List WayPoint) : Prop :=
  ∀ (i : ℕ) (w : WayPoint), ws[i]? = some w → i + 1 < ws.length → ∀ r ∈ w.nominal, 0 < r

/-- `ws'` are the waypoints `ws` at the same angles, with durations at least as long. -/
def Stretched (ws ws' : List WayPoint) : Prop :=
  ws'.length = ws.length ∧ ∀ (i : ℕ) (w : WayPoint), ws[i]? = some w →
    ∃ w', ws'[i]? = some w' ∧ w'.angles = w.angles ∧ w.duration ≤ w'.duration

/-- Waypoints an interpolation can work with: enough of them, positive nominal rates, and in every segment
either a duration or a joint that moves. -/
def Usable (minimum : ℕ) (ws : List WayPoint) : Prop :=
  minimum ≤ ws.length ∧ RatesPositive ws ∧
  ∀ (i : ℕ) (w next : WayPoint), Segment ws i w next → 0 < w.duration ∨ ∃ j a b r, Moves w next j a b r ∧ a ≠ b

end Ecl.Spec
