import Verif.Model.CumulativeStatistics

/-! # Mean and unbiased variance of a list of values -/
set_option autoImplicit false

namespace Ecl.Spec

/-- The arithmetic mean (0 for no data). -/
noncomputable def average (l : List ℝ) : ℝ := l.sum / l.length

/-- The sum of squared deviations from the mean. -/
noncomputable def deviation (l : List ℝ) : ℝ := (l.map fun x => (x - average l) ^ 2).sum

/-- The unbiased sample variance (0 for less than two values). -/
noncomputable def sampleVariance (l : List ℝ) : ℝ := if l.length ≤ 1 then 0 else deviation l / (l.length - 1)

/-- The values pushed since the last clear. -/
def sinceClear (ops : List CumStat.Op) : List ℝ :=
  ops.foldl (fun acc op => match op with | .push x => acc ++ [x] | .clear => []) []

end Ecl.Spec
