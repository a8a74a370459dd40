import Verif.Model.Polynomial

/-!
# Cubic splines (`ecl_geometry/include/ecl/geometry/cubic_spline.hpp`,
`ecl_geometry/src/lib/cubic_spline.cpp`, `ecl_geometry/src/lib/cubic_spline_blueprints.cpp`)

Exact real arithmetic.  The input arrays are lists; the working arrays of the constructors are
functions on indices whose entries are all written before they are read (their initial content is
irrelevant, 0 here).
-/
set_option autoImplicit false

namespace Ecl.CubicSpline
open Ecl Ecl.Poly

/-- `CubicSpline` (`cubic_spline.hpp:234-238`). -/
structure Spline where
  domain : List ℝ
  polys : List (Coeffs ℝ)

/-- Access behind the end of an `Array` (`array_dynamic_no_mem_check.hpp:409-427`): checked in debug
builds only. -/
def beyond {α : Type _} (mode : Mode) : Outcome α :=
  match mode with
  | .debug => .throw .outOfRange
  | .release => .ub

/-- `while ( x > discretised_domain[index+1] ) ++index;` on the part of the array from `index+1` on. -/
noncomputable def findFrom (mode : Mode) (x : ℝ) : List ℝ → ℕ → Outcome ℕ
  | [], _ => beyond mode
  | d :: ds, index => if x > d then findFrom mode x ds (index + 1) else .ok index

/-- Domain check of a debug build and search for the segment (`cubic_spline.cpp:30-34`, `39-43`,
`48-52`; the same text in `tension_spline.cpp:30-34` and `smooth_linear_spline.cpp:113-117`).
`front()` and `back()` of an empty array throw in a debug build. -/
noncomputable def segment (mode : Mode) (domain : List ℝ) (x : ℝ) : Outcome ℕ :=
  match mode, domain.head?, domain.getLast? with
  | .debug, some f, some b =>
    if x ≥ f ∧ x ≤ b then findFrom .debug x (domain.drop 1) 0 else .throw .outOfRange
  | .debug, _, _ => .throw .outOfRange
  | .release, _, _ => findFrom .release x (domain.drop 1) 0

/-- Read access to the polynomial of a segment. (`cubic_spline.cpp:35, 44, 53`.) -/
def withPoly (mode : Mode) (s : Spline) (f : Coeffs ℝ → ℝ) (index : ℕ) : Outcome ℝ :=
  match s.polys[index]? with
  | some c => .ok (f c)
  | none => beyond mode

/-- `operator()` (`cubic_spline.cpp:29-36`). -/
noncomputable def value (mode : Mode) (s : Spline) (x : ℝ) : Outcome ℝ :=
  (segment mode s.domain x).bind (withPoly mode s fun c => eval 3 c x)

/-- `derivative` (`38-45`). -/
noncomputable def slope (mode : Mode) (s : Spline) (x : ℝ) : Outcome ℝ :=
  (segment mode s.domain x).bind (withPoly mode s fun c => eval 2 (derivative 3 c) x)

/-- `dderivative` (`47-54`). -/
noncomputable def curvature (mode : Mode) (s : Spline) (x : ℝ) : Outcome ℝ :=
  (segment mode s.domain x).bind (withPoly mode s fun c => eval 1 (derivative 2 (derivative 3 c)) x)

/-- Working arrays of the elimination: `yddot_data` and `u`. (`cubic_spline_blueprints.cpp:51-76`,
`91-116`.) -/
structure Work where
  ydd : ℕ → ℝ
  u : ℕ → ℝ

/-- One pass of the elimination loop (`cubic_spline_blueprints.cpp:61-66`, `101-106`). -/
noncomputable def forwardStep (x y : ℕ → ℝ) (i : ℕ) (w : Work) : Work :=
  let sig := (x i - x (i - 1)) / (x (i + 1) - x (i - 1))
  let p := sig * w.ydd (i - 1) + 2
  let ui := (y (i + 1) - y i) / (x (i + 1) - x i) - (y i - y (i - 1)) / (x i - x (i - 1))
  { ydd := Function.update w.ydd i ((sig - 1) / p)
    u := Function.update w.u i ((6 * ui / (x (i + 1) - x (i - 1)) - sig * w.u (i - 1)) / p) }

/-- The elimination loop (`60-67`, `100-107`), `left` passes from `i` on. -/
noncomputable def forward (x y : ℕ → ℝ) : ℕ → ℕ → Work → Work
  | 0, _, w => w
  | left + 1, i, w => forward x y left (i + 1) (forwardStep x y i w)

/-- Back substitution (`74-76`, `114-116`) for `k` from `left - 1` down to 0. -/
noncomputable def backward (u : ℕ → ℝ) : ℕ → (ℕ → ℝ) → (ℕ → ℝ)
  | 0, ydd => ydd
  | k + 1, ydd => backward u k (Function.update ydd k (ydd k * ydd (k + 1) + u k))

/-- Second derivatives at the `n ≥ 2` knots, from the first row `(d0, u0)`, the coefficient `qn` and
right hand side `un` of the last row (`57-76`, `97-116`). -/
noncomputable def secondDerivatives (x y : ℕ → ℝ) (n : ℕ) (d0 u0 qn un : ℝ) : ℕ → ℝ :=
  let w0 : Work := { ydd := Function.update (fun _ => 0) 0 d0, u := Function.update (fun _ => 0) 0 u0 }
  let w := forward x y (n - 2) 1 w0
  let last := (un - qn * w.u (n - 2)) / (qn * w.ydd (n - 2) + 1)
  backward (Function.update w.u (n - 1) un) (n - 1) (Function.update w.ydd (n - 1) last)

/-- Access to an array as a function. (`operator[]` of `array_dynamic_no_mem_check.hpp:409-427`
within bounds.) -/
def at' (l : List ℝ) : ℕ → ℝ := fun i => l.getD i 0

/-- `C2CubicSpline` with end slopes (`42-77`): the second derivatives.  Both arrays are read at every
index of the first one. -/
noncomputable def clampedData (mode : Mode) (xs ys : List ℝ) (yd0 ydf : ℝ) : Outcome (ℕ → ℝ) :=
  if xs.length < 2 ∨ ys.length < 2 then .throw .outOfRange
  else if mode = .debug ∧ xs.length ≠ ys.length then .throw .outOfRange
  else if ys.length < xs.length then .ub
  else
    let x := at' xs
    let y := at' ys
    let n := xs.length
    .ok (secondDerivatives x y n (-0.5)
      ((3 / (x 1 - x 0)) * ((y 1 - y 0) / (x 1 - x 0) - yd0)) 0.5
      ((3 / (x (n - 1) - x (n - 2))) * (ydf - (y (n - 1) - y (n - 2)) / (x (n - 1) - x (n - 2)))))

/-- `C2CubicSpline` without end slopes (`83-117`). -/
noncomputable def naturalData (mode : Mode) (xs ys : List ℝ) : Outcome (ℕ → ℝ) :=
  if xs.length < 2 ∨ ys.length < 2 then .throw .outOfRange
  else if mode = .debug ∧ xs.length ≠ ys.length then .throw .outOfRange
  else if ys.length < xs.length then .ub
  else .ok (secondDerivatives (at' xs) (at' ys) xs.length 0 0 0 0)

/-- The polynomials of the segments `i`, `i+1`, ..., each made by a blueprint (`129-133`, `171-175`). -/
noncomputable def polynomials (mk : ℕ → Outcome (Coeffs ℝ)) : ℕ → ℕ → Outcome (List (Coeffs ℝ))
  | 0, _ => .ok []
  | left + 1, i => (mk i).bind fun c => (polynomials mk left (i + 1)).bind fun cs => .ok (c :: cs)

/-- `C2CubicSpline::apply` (`125-134`). -/
noncomputable def applyC2 (xs ys : List ℝ) (ydd : ℕ → ℝ) : Outcome Spline :=
  (polynomials (fun i => cubicSecondDerivativeInterpolation (at' xs i) (at' ys i) (ydd i)
    (at' xs (i + 1)) (at' ys (i + 1)) (ydd (i + 1))) (xs.length - 1) 0).bind fun ps =>
      .ok { domain := xs, polys := ps }

/-- `CubicSpline::Natural` (`187-189`) handed to the constructor of `CubicSpline`. -/
noncomputable def natural (mode : Mode) (xs ys : List ℝ) : Outcome Spline :=
  (naturalData mode xs ys).bind (applyC2 xs ys)

/-- `CubicSpline::ContinuousDerivatives` (`191-194`). -/
noncomputable def clamped (mode : Mode) (xs ys : List ℝ) (yd0 ydf : ℝ) : Outcome Spline :=
  (clampedData mode xs ys yd0 ydf).bind (applyC2 xs ys)

/-- Loop of the heuristic (`152-157`), `left` passes from `i` on. -/
noncomputable def heuristicLoop (x y : ℕ → ℝ) : ℕ → ℕ → (ℕ → ℝ) → (ℕ → ℝ)
  | 0, _, yd => yd
  | left + 1, i, yd =>
    let before := (y i - y (i - 1)) / (x i - x (i - 1))
    let after := (y (i + 1) - y i) / (x (i + 1) - x i)
    heuristicLoop x y left (i + 1) (Function.update yd i ((before + after) / 2))

/-- `DerivativeHeuristicCubicSpline` (`141-159`): slopes at the knots.  An empty array is
indexed at 0. -/
noncomputable def heuristicData (mode : Mode) (xs ys : List ℝ) (yd0 ydf : ℝ) : Outcome (ℕ → ℝ) :=
  if mode = .debug ∧ xs.length ≠ ys.length then .throw .outOfRange
  else if xs.length = 0 ∨ (1 < xs.length ∧ ys.length < xs.length) then beyond mode
  else
    let yd := heuristicLoop (at' xs) (at' ys) (xs.length - 2) 1 (Function.update (fun _ => 0) 0 yd0)
    .ok (Function.update yd (xs.length - 1) ydf)

/-- `DerivativeHeuristicCubicSpline::apply` (`167-176`). -/
noncomputable def applyHeuristic (xs ys : List ℝ) (yd : ℕ → ℝ) : Outcome Spline :=
  (polynomials (fun i => cubicDerivativeInterpolation (at' xs i) (at' ys i) (yd i)
    (at' xs (i + 1)) (at' ys (i + 1)) (yd (i + 1))) (xs.length - 1) 0).bind fun ps =>
      .ok { domain := xs, polys := ps }

/-- `CubicSpline::DerivativeHeuristic` (`196-199`). -/
noncomputable def heuristic (mode : Mode) (xs ys : List ℝ) (yd0 ydf : ℝ) : Outcome Spline :=
  (heuristicData mode xs ys yd0 ydf).bind (applyHeuristic xs ys)

end Ecl.CubicSpline
