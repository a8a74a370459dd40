import Verif.Model.CubicSpline
import Mathlib.Analysis.SpecialFunctions.Trigonometric.DerivHyp

/-!
# Tension splines (`ecl_geometry/src/lib/tension_function.cpp`, `tension_spline.cpp`,
`tension_spline_blueprints.cpp`)

Exact real arithmetic, `sinh` and `cosh` are the real functions.  Working arrays as in
`Model/CubicSpline.lean`.
-/
set_option autoImplicit false

namespace Ecl.TensionSpline
open Ecl Ecl.CubicSpline

/-- `TensionFunction` (`tension_function.hpp:202-204`): end points, end values, second derivatives at
the ends. -/
structure Func where
  x0 : ℝ
  xf : ℝ
  y0 : ℝ
  yf : ℝ
  z0 : ℝ
  zf : ℝ

/-- `TensionFunction::operator()` (`tension_function.cpp:45-52`). -/
noncomputable def Func.value (f : Func) (tau x : ℝ) : ℝ :=
  let h := f.xf - f.x0
  (f.z0 * Real.sinh (tau * (f.xf - x)) + f.zf * Real.sinh (tau * (x - f.x0))) / (tau * tau * Real.sinh (tau * h))
    + (f.y0 - f.z0 / (tau * tau)) * (f.xf - x) / h
    + (f.yf - f.zf / (tau * tau)) * (x - f.x0) / h

/-- `TensionFunction::derivative` (`26-34`). -/
noncomputable def Func.slope (f : Func) (tau x : ℝ) : ℝ :=
  let h := f.xf - f.x0
  (-1 * tau * f.z0 * Real.cosh (tau * (f.xf - x)) + tau * f.zf * Real.cosh (tau * (x - f.x0))) /
      (tau * tau * Real.sinh (tau * h))
    + -1 * (f.y0 - f.z0 / (tau * tau)) / h
    + (f.yf - f.zf / (tau * tau)) / h

/-- `TensionFunction::dderivative` (`37-43`). -/
noncomputable def Func.curvature (f : Func) (tau x : ℝ) : ℝ :=
  let h := f.xf - f.x0
  (tau * tau * f.z0 * Real.sinh (tau * (f.xf - x)) + tau * tau * f.zf * Real.sinh (tau * (x - f.x0))) /
    (tau * tau * Real.sinh (tau * h))

/-- `TensionSecondDerivativeInterpolation::apply` (`68-77`). -/
def interpolation (xi yi zi xf yf zf : ℝ) : Func :=
  { x0 := xi, xf := xf, y0 := yi, yf := yf, z0 := zi, zf := zf }

/-- `TensionSpline`. (Members read at `tension_spline.cpp:29-54`.) -/
structure Spline where
  domain : List ℝ
  functions : List Func
  tension : ℝ

/-- Read access to the function of a segment. (`tension_spline.cpp:29-54`.) -/
def withFunc (mode : Mode) (s : Spline) (f : Func → ℝ) (index : ℕ) : Outcome ℝ :=
  match s.functions[index]? with
  | some c => .ok (f c)
  | none => beyond mode

/-- `operator()` (`tension_spline.cpp:29-36`). -/
noncomputable def value (mode : Mode) (s : Spline) (x : ℝ) : Outcome ℝ :=
  (segment mode s.domain x).bind (withFunc mode s fun f => f.value s.tension x)

/-- `derivative` (`38-45`). -/
noncomputable def slope (mode : Mode) (s : Spline) (x : ℝ) : Outcome ℝ :=
  (segment mode s.domain x).bind (withFunc mode s fun f => f.slope s.tension x)

/-- `dderivative` (`47-54`). -/
noncomputable def curvature (mode : Mode) (s : Spline) (x : ℝ) : Outcome ℝ :=
  (segment mode s.domain x).bind (withFunc mode s fun f => f.curvature s.tension x)

/-- The arrays `h`, `a`, `beta`, `gamma` (`tension_spline_blueprints.cpp:64-69`), entry `i`. -/
noncomputable def hAt (x : ℕ → ℝ) (i : ℕ) : ℝ := x (i + 1) - x i
/-- (`64-69`.) -/
noncomputable def aAt (tau : ℝ) (x : ℕ → ℝ) (i : ℕ) : ℝ :=
  1 / hAt x i - tau / Real.sinh (tau * hAt x i)
/-- (`64-69`.) -/
noncomputable def betaAt (tau : ℝ) (x : ℕ → ℝ) (i : ℕ) : ℝ :=
  tau * (Real.cosh (tau * hAt x i) / Real.sinh (tau * hAt x i)) - 1 / hAt x i
/-- (`64-69`.) -/
noncomputable def gammaAt (tau : ℝ) (x y : ℕ → ℝ) (i : ℕ) : ℝ :=
  tau * tau * (y (i + 1) - y i) / hAt x i

/-- The arrays `u` and `v`. (`tension_spline_blueprints.cpp:41-96`.) -/
structure Work where
  u : ℕ → ℝ
  v : ℕ → ℝ

/-- Elimination loop (`84-87`), `left` passes from `i` on. -/
noncomputable def forward (a beta gamma : ℕ → ℝ) : ℕ → ℕ → Work → Work
  | 0, _, w => w
  | left + 1, i, w =>
    forward a beta gamma left (i + 1)
      { u := Function.update w.u i (beta i + beta (i - 1) - a (i - 1) * a (i - 1) / w.u (i - 1))
        v := Function.update w.v i (gamma i - gamma (i - 1) - a (i - 1) * w.v (i - 1) / w.u (i - 1)) }

/-- Back substitution (`92-94`) for `i` from `left` down to 1. -/
noncomputable def backward (a : ℕ → ℝ) (w : Work) : ℕ → (ℕ → ℝ) → (ℕ → ℝ)
  | 0, z => z
  | i + 1, z => backward a w i (Function.update z (i + 1) ((w.v (i + 1) - a (i + 1) * z (i + 2)) / w.u (i + 1)))

/-- `C2TensionSpline` (`41-96`): the second derivatives.  With fewer than three points the arrays `u`,
`v`, `beta`, `gamma` (or, for fewer than two, `yddot_data` or `h`) are accessed behind their ends. -/
noncomputable def data (mode : Mode) (xs ys : List ℝ) (tau : ℝ) : Outcome (ℕ → ℝ) :=
  if mode = .debug ∧ xs.length ≠ ys.length then .throw .outOfRange
  else if xs.length < 3 ∨ ys.length < xs.length then beyond mode
  else
    let x := at' xs
    let y := at' ys
    let n := xs.length - 1
    let a := aAt tau x
    let beta := betaAt tau x
    let gamma := gammaAt tau x y
    let w0 : Work := { u := Function.update (fun _ => 0) 1 (beta 1 + beta 0)
                       v := Function.update (fun _ => 0) 1 (gamma 1 - gamma 0) }
    let w := forward a beta gamma (n - 2) 2 w0
    let z0 := Function.update (Function.update (fun _ => 0) 0 0) n 0
    .ok (Function.update (backward a w (n - 1) z0) 0 0)

/-- `C2TensionSpline::apply` (`104-114`), with the constructor of `TensionSpline`. -/
noncomputable def natural (mode : Mode) (xs ys : List ℝ) (tau : ℝ) : Outcome Spline :=
  (data mode xs ys tau).bind fun z =>
    .ok { domain := xs
          functions := (List.range (xs.length - 1)).map fun i =>
            interpolation (at' xs i) (at' ys i) (z i) (at' xs (i + 1)) (at' ys (i + 1)) (z (i + 1))
          tension := tau }

end Ecl.TensionSpline
