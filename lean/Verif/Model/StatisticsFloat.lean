import Verif.Model.CumulativeStatistics

/-!
# `CumulativeStatistics` in floating point arithmetic (`ecl_statistics/include/ecl/statistics/cumulative_statistics.hpp`)

`fl` rounds to the type `T` of the data, which is also that of the counter.  Every operation is one of `T` (the
casts of the code change nothing).  Overflow, infinities, NaN and subnormal numbers are not modelled.
-/
set_option autoImplicit false

namespace Ecl.CumStatFloat

/-- The members (`cumulative_statistics.hpp:92-94`). -/
structure State where
  n : ℝ
  oldMean : ℝ
  oldVariance : ℝ
  newMean : ℝ
  newVariance : ℝ

/-- The constructor (`43`) and `clear()` (`45`): the other members keep what was in memory. -/
def clear (s : State) : State := { s with n := 0 }

/-- `push_back` (`55-71`). -/
noncomputable def pushBack (fl : ℝ → ℝ) (s : State) (x : ℝ) : State :=
  let n := fl (s.n + 1)
  if n = 1 then { s with n := n, oldMean := x, newMean := x, oldVariance := 0 }
  else
    let newMean := fl (s.oldMean + fl (fl (x - s.oldMean) / n))
    let newVariance := fl (s.oldVariance + fl (fl (x - s.oldMean) * fl (x - newMean)))
    { n := n, oldMean := newMean, oldVariance := newVariance, newMean := newMean, newVariance := newVariance }

/-- `size()` (`77`), `mean()` (`83`), `variance()` (`89`). -/
def size (s : State) : ℝ := s.n
/-- `mean()` (`83`). -/
noncomputable def mean (s : State) : ℝ := if s.n > 0 then s.newMean else 0
/-- `variance()` (`89`). -/
noncomputable def variance (fl : ℝ → ℝ) (s : State) : ℝ := if s.n > 1 then fl (s.newVariance / fl (s.n - 1)) else 0

/-- The object after a history of calls on a fresh one (the calls are those of `CumStat.Op`).
(`cumulative_statistics.hpp:45-89`.) -/
noncomputable def run (fl : ℝ → ℝ) (garbage : State) (ops : List CumStat.Op) : State :=
  ops.foldl (fun s op => match op with | .push x => pushBack fl s x | .clear => clear s) (clear garbage)

end Ecl.CumStatFloat
