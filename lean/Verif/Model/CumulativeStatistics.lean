import Mathlib.Data.Real.Basic

/-!
# `CumulativeStatistics` (`ecl_statistics/include/ecl/statistics/cumulative_statistics.hpp`)

Exact real arithmetic; the floating point counter is a natural number here.
-/
set_option autoImplicit false

namespace Ecl.CumStat

/-- The members (`cumulative_statistics.hpp:92-94`). -/
structure State where
  n : ℕ
  oldMean : ℝ
  oldVariance : ℝ
  newMean : ℝ
  newVariance : ℝ

/-- The constructor (`43`): only the counter is initialised, the other members hold whatever was in
memory. -/
def make (garbage : State) : State := { garbage with n := 0 }

/-- `clear()` (`45`): only the counter is reset. -/
def clear (s : State) : State := { s with n := 0 }

/-- `push_back` (`55-71`). -/
noncomputable def pushBack (s : State) (x : ℝ) : State :=
  let s := { s with n := s.n + 1 }
  if s.n = 1 then { s with oldMean := x, newMean := x, oldVariance := 0 }
  else
    let newMean := s.oldMean + (x - s.oldMean) / s.n
    let newVariance := s.oldVariance + (x - s.oldMean) * (x - newMean)
    { s with
      newMean := newMean
      newVariance := newVariance
      oldMean := newMean
      oldVariance := newVariance }

/-- `size()` (`77`), `mean()` (`83`), `variance()` (`89`). -/
def size (s : State) : ℝ := s.n
/-- `mean()` (`cumulative_statistics.hpp:83`). -/
noncomputable def mean (s : State) : ℝ := if s.n > 0 then s.newMean else 0
/-- `variance()` (`cumulative_statistics.hpp:89`). -/
noncomputable def variance (s : State) : ℝ := if s.n > 1 then s.newVariance / (s.n - 1) else 0

/-- A call that changes the object. (`cumulative_statistics.hpp:45,55`.) -/
inductive Op where
  | push (x : ℝ)
  | clear

/-- One such call (`cumulative_statistics.hpp:45,55-71`). -/
noncomputable def apply (s : State) : Op → State
  | .push x => pushBack s x
  | .clear => clear s

/-- The object after a history of calls on a fresh one. (The constructor and calls of
`cumulative_statistics.hpp:43-71`.) -/
noncomputable def run (garbage : State) (ops : List Op) : State := ops.foldl apply (make garbage)

end Ecl.CumStat
