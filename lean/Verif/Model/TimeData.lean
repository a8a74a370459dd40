import Verif.Model.Time
import Verif.Core.CReal
import Mathlib.Analysis.SpecialFunctions.Pow.Real
import Mathlib.Data.Real.Sqrt

/-!
# Model of timestamps from and to `double`, and of `TimeData`

A `double` is its value; infinities and NaN are not represented (but see `average`), exponents are not
limited.  Every operation on `double`s is the exact one followed by the rounding `fl`, a parameter.
-/
set_option autoImplicit false

namespace Ecl.Time

/-- `TimeStampBase(const double&)` and `stamp(const double&)`:
`ecl_time/src/lib/timestamp_base.cpp:27-31`, `46-50`. -/
noncomputable def fromDouble (fl : ℝ → ℝ) (v : ℝ) : Outcome Ts := do
  let s ← castLong v
  let n ← castLong (fl (fl (v - fl s) * fl 1000000000))
  .ok ⟨s, n⟩

/-- `operator double()`: `ecl_time/include/ecl/time/timestamp_base.hpp:134`. -/
noncomputable def toDouble (fl : ℝ → ℝ) (t : Ts) : ℝ :=
  fl (fl t.sec + fl (fl t.nsec * fl (1 / 10 ^ 9)))

/-- The first loop of `average` (`ecl_time/src/lib/time_data.cpp:27-30`). -/
noncomputable def sumOf (fl : ℝ → ℝ) (ds : List Ts) : ℝ :=
  ds.foldl (fun sum d => fl (sum + toDouble fl d)) 0

/-- `average()`: `ecl_time/src/lib/time_data.cpp:26-32`.  Without data the quotient 0/0 is NaN, whose
conversion to `long` is undefined. -/
noncomputable def average (fl : ℝ → ℝ) (ds : List Ts) : Outcome Ts :=
  if ds.length = 0 then .ub else fromDouble fl (fl (sumOf fl ds / fl ds.length))

/-- The loop of `stdDev` and `variance` (`ecl_time/src/lib/time_data.cpp:36-40`, `46-50`). -/
noncomputable def squares (fl : ℝ → ℝ) (avg : Ts) (ds : List Ts) : ℝ :=
  ds.foldl (fun sum d => fl (sum + fl (fl (toDouble fl d - toDouble fl avg) *
    fl (toDouble fl d - toDouble fl avg)))) 0

/-- `stdDev()`: `ecl_time/src/lib/time_data.cpp:34-42`. -/
noncomputable def stdDev (fl : ℝ → ℝ) (ds : List Ts) : Outcome Ts := do
  let avg ← average fl ds
  fromDouble fl (fl (√(fl (squares fl avg ds / fl ds.length))))

/-- `variance()`: `ecl_time/src/lib/time_data.cpp:44-52`. -/
noncomputable def variance (fl : ℝ → ℝ) (ds : List Ts) : Outcome Ts := do
  let avg ← average fl ds
  fromDouble fl (fl (squares fl avg ds / fl ds.length))

/-- The calls that change a `TimeData` object (`ecl_time/include/ecl/time/time_data.hpp:49-53`). -/
inductive DataOp where
  | push (d : Ts)
  | clear

/-- The durations a `TimeData` object holds after some calls. (`time_data.hpp:49-53`.) -/
def data : List DataOp → List Ts → List Ts
  | [], ds => ds
  | .push d :: ops, ds => data ops (ds ++ [d])
  | .clear :: ops, _ => data ops []

end Ecl.Time
