import Verif.Model.CubicSpline
import Verif.Model.InterpolationFloat

/-!
# Cubic splines with rounding (`ecl_geometry/include/ecl/geometry/cubic_spline.hpp`,
`ecl_geometry/src/lib/cubic_spline.cpp`, `ecl_geometry/src/lib/cubic_spline_blueprints.cpp`)

As `Model/CubicSpline.lean`, with every operation rounded by `fl` (to double); operations are not contracted (fused);
overflow and underflow are not modelled.  Comparisons and the search for the segment are exact and taken from there.
-/
set_option autoImplicit false

namespace Ecl.SplineFloat
open Ecl Ecl.Poly
open Ecl.CubicSpline (Spline Work segment withPoly at' beyond polynomials)

/-- `operator()` (`cubic_spline.cpp:29-36`). -/
noncomputable def value (fl : ℝ → ℝ) (mode : Mode) (s : Spline) (x : ℝ) : Outcome ℝ :=
  (segment mode s.domain x).bind (withPoly mode s fun c => PolyFloat.eval fl 3 c x)

/-- `derivative` (`cubic_spline.cpp:38-45`). -/
noncomputable def slope (fl : ℝ → ℝ) (mode : Mode) (s : Spline) (x : ℝ) : Outcome ℝ :=
  (segment mode s.domain x).bind (withPoly mode s fun c => PolyFloat.derivativeAt fl 3 c x)

/-- `dderivative` (`cubic_spline.cpp:47-54`). -/
noncomputable def curvature (fl : ℝ → ℝ) (mode : Mode) (s : Spline) (x : ℝ) : Outcome ℝ :=
  (segment mode s.domain x).bind (withPoly mode s fun c => PolyFloat.dderivativeAt fl 3 c x)

/-- One pass of the elimination loop (`cubic_spline_blueprints.cpp:61-66`, `101-106`). -/
noncomputable def forwardStep (fl : ℝ → ℝ) (x y : ℕ → ℝ) (i : ℕ) (w : Work) : Work :=
  let sig := fl (fl (x i - x (i - 1)) / fl (x (i + 1) - x (i - 1)))
  let p := fl (fl (sig * w.ydd (i - 1)) + 2)
  let ui := fl (fl (fl (y (i + 1) - y i) / fl (x (i + 1) - x i)) - fl (fl (y i - y (i - 1)) / fl (x i - x (i - 1))))
  { ydd := Function.update w.ydd i (fl (fl (sig - 1) / p))
    u := Function.update w.u i
      (fl (fl (fl (fl (6 * ui) / fl (x (i + 1) - x (i - 1))) - fl (sig * w.u (i - 1))) / p)) }

/-- The elimination loop (`cubic_spline_blueprints.cpp:60-67`, `100-107`), `left` passes from `i` on. -/
noncomputable def forward (fl : ℝ → ℝ) (x y : ℕ → ℝ) : ℕ → ℕ → Work → Work
  | 0, _, w => w
  | left + 1, i, w => forward fl x y left (i + 1) (forwardStep fl x y i w)

/-- Back substitution (`cubic_spline_blueprints.cpp:74-76`, `114-116`) for `k` from `left - 1` down to 0. -/
noncomputable def backward (fl : ℝ → ℝ) (u : ℕ → ℝ) : ℕ → (ℕ → ℝ) → (ℕ → ℝ)
  | 0, ydd => ydd
  | k + 1, ydd => backward fl u k (Function.update ydd k (fl (fl (ydd k * ydd (k + 1)) + u k)))

/-- Second derivatives at the `n ≥ 2` knots, from the first row `(d0, u0)`, the coefficient `qn` and right hand side
`un` of the last row (`cubic_spline_blueprints.cpp:57-76`, `97-116`). -/
noncomputable def secondDerivatives (fl : ℝ → ℝ) (x y : ℕ → ℝ) (n : ℕ) (d0 u0 qn un : ℝ) : ℕ → ℝ :=
  let w0 : Work := { ydd := Function.update (fun _ => 0) 0 d0, u := Function.update (fun _ => 0) 0 u0 }
  let w := forward fl x y (n - 2) 1 w0
  let last := fl (fl (un - fl (qn * w.u (n - 2))) / fl (fl (qn * w.ydd (n - 2)) + 1))
  backward fl (Function.update w.u (n - 1) un) (n - 1) (Function.update w.ydd (n - 1) last)

/-- `C2CubicSpline` with end slopes (`cubic_spline_blueprints.cpp:42-77`): the second derivatives.  Both arrays are read
at every index of the first one. -/
noncomputable def clampedData (fl : ℝ → ℝ) (mode : Mode) (xs ys : List ℝ) (yd0 ydf : ℝ) : Outcome (ℕ → ℝ) :=
  if xs.length < 2 ∨ ys.length < 2 then .throw .outOfRange
  else if mode = .debug ∧ xs.length ≠ ys.length then .throw .outOfRange
  else if ys.length < xs.length then .ub
  else
    let x := at' xs
    let y := at' ys
    let n := xs.length
    .ok (secondDerivatives fl x y n (-0.5)
      (fl (fl (3 / fl (x 1 - x 0)) * fl (fl (fl (y 1 - y 0) / fl (x 1 - x 0)) - yd0))) 0.5
      (fl (fl (3 / fl (x (n - 1) - x (n - 2))) *
        fl (ydf - fl (fl (y (n - 1) - y (n - 2)) / fl (x (n - 1) - x (n - 2)))))))

/-- `C2CubicSpline` without end slopes (`cubic_spline_blueprints.cpp:83-117`). -/
noncomputable def naturalData (fl : ℝ → ℝ) (mode : Mode) (xs ys : List ℝ) : Outcome (ℕ → ℝ) :=
  if xs.length < 2 ∨ ys.length < 2 then .throw .outOfRange
  else if mode = .debug ∧ xs.length ≠ ys.length then .throw .outOfRange
  else if ys.length < xs.length then .ub
  else .ok (secondDerivatives fl (at' xs) (at' ys) xs.length 0 0 0 0)

/-- `C2CubicSpline::apply` (`cubic_spline_blueprints.cpp:125-134`). -/
noncomputable def applyC2 (fl : ℝ → ℝ) (xs ys : List ℝ) (ydd : ℕ → ℝ) : Outcome Spline :=
  (polynomials (fun i => PolyFloat.cubicSecondDerivativeInterpolation fl (at' xs i) (at' ys i) (ydd i)
    (at' xs (i + 1)) (at' ys (i + 1)) (ydd (i + 1))) (xs.length - 1) 0).bind fun ps =>
      .ok { domain := xs, polys := ps }

/-- `CubicSpline::Natural` (`cubic_spline_blueprints.cpp:187-189`) handed to the constructor of `CubicSpline`. -/
noncomputable def natural (fl : ℝ → ℝ) (mode : Mode) (xs ys : List ℝ) : Outcome Spline :=
  (naturalData fl mode xs ys).bind (applyC2 fl xs ys)

/-- `CubicSpline::ContinuousDerivatives` (`cubic_spline_blueprints.cpp:191-194`). -/
noncomputable def clamped (fl : ℝ → ℝ) (mode : Mode) (xs ys : List ℝ) (yd0 ydf : ℝ) : Outcome Spline :=
  (clampedData fl mode xs ys yd0 ydf).bind (applyC2 fl xs ys)

/-- Loop of the heuristic (`cubic_spline_blueprints.cpp:152-157`), `left` passes from `i` on. -/
noncomputable def heuristicLoop (fl : ℝ → ℝ) (x y : ℕ → ℝ) : ℕ → ℕ → (ℕ → ℝ) → (ℕ → ℝ)
  | 0, _, yd => yd
  | left + 1, i, yd =>
    let before := fl (fl (y i - y (i - 1)) / fl (x i - x (i - 1)))
    let after := fl (fl (y (i + 1) - y i) / fl (x (i + 1) - x i))
    heuristicLoop fl x y left (i + 1) (Function.update yd i (fl (fl (before + after) / 2)))

/-- `DerivativeHeuristicCubicSpline` (`cubic_spline_blueprints.cpp:141-159`): slopes at the knots.  An empty array is
indexed at 0. -/
noncomputable def heuristicData (fl : ℝ → ℝ) (mode : Mode) (xs ys : List ℝ) (yd0 ydf : ℝ) : Outcome (ℕ → ℝ) :=
  if mode = .debug ∧ xs.length ≠ ys.length then .throw .outOfRange
  else if xs.length = 0 ∨ (1 < xs.length ∧ ys.length < xs.length) then beyond mode
  else
    let yd := heuristicLoop fl (at' xs) (at' ys) (xs.length - 2) 1 (Function.update (fun _ => 0) 0 yd0)
    .ok (Function.update yd (xs.length - 1) ydf)

/-- `DerivativeHeuristicCubicSpline::apply` (`cubic_spline_blueprints.cpp:167-176`). -/
noncomputable def applyHeuristic (fl : ℝ → ℝ) (xs ys : List ℝ) (yd : ℕ → ℝ) : Outcome Spline :=
  (polynomials (fun i => PolyFloat.cubicDerivativeInterpolation fl (at' xs i) (at' ys i) (yd i)
    (at' xs (i + 1)) (at' ys (i + 1)) (yd (i + 1))) (xs.length - 1) 0).bind fun ps =>
      .ok { domain := xs, polys := ps }

/-- `CubicSpline::DerivativeHeuristic` (`cubic_spline_blueprints.cpp:196-199`). -/
noncomputable def heuristic (fl : ℝ → ℝ) (mode : Mode) (xs ys : List ℝ) (yd0 ydf : ℝ) : Outcome Spline :=
  (heuristicData fl mode xs ys yd0 ydf).bind (applyHeuristic fl xs ys)

end Ecl.SplineFloat
