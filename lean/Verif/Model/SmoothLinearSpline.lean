import Verif.Model.CubicSpline

/-!
# Smooth linear splines (`ecl_geometry/src/lib/smooth_linear_spline.cpp`)

Exact real arithmetic.
-/
set_option autoImplicit false

namespace Ecl.SmoothLinear
open Ecl Ecl.Poly Ecl.CubicSpline

/-- `SmoothLinearSpline`: `discretised_domain`, `segments`, `corners`.
(`smooth_linear_spline.hpp`, members read at `smooth_linear_spline.cpp:112-149`.) -/
structure Spline where
  domain : List ℝ
  segments : List (Coeffs ℝ)
  corners : List (Coeffs ℝ)

/-- A corner: the two entries of the domain and the quintic. (`smooth_linear_spline.cpp:63-108`.) -/
structure Corner where
  left : ℝ
  right : ℝ
  poly : Coeffs ℝ

/-- `segments[i]` (`53-55`). -/
noncomputable def lineAt (x y : ℕ → ℝ) (i : ℕ) : Coeffs ℝ :=
  linearInterpolation (x i) (y i) (x (i + 1)) (y (i + 1))

/-- `x_l` of attempt `j` at corner `i` (`71-75`). -/
noncomputable def leftEnd (x : ℕ → ℝ) (i j : ℕ) : ℝ :=
  if i = 1 then x i - (j : ℝ) * (x i - x (i - 1)) / 5 else x i - (j : ℝ) * (x i - x (i - 1)) / 10

/-- `x_r` of attempt `j` at corner `i` of `n` segments (`76-80`). -/
noncomputable def rightEnd (x : ℕ → ℝ) (n i j : ℕ) : ℝ :=
  if i = n - 1 then x i + (j : ℝ) * (x (i + 1) - x i) / 5 else x i + (j : ℝ) * (x (i + 1) - x i) / 10

/-- The quintic of attempt `j` at corner `i` (`81-86`). -/
noncomputable def attempt (x y : ℕ → ℝ) (n i j : ℕ) : Outcome (Coeffs ℝ) :=
  let xl := leftEnd x i j
  let xr := rightEnd x n i j
  let before := lineAt x y (i - 1)
  let after := lineAt x y i
  quinticInterpolation xl (eval 1 before xl) (derivativeAt 1 before xl) 0
    xr (eval 1 after xr) (derivativeAt 1 after xr) 0

/-- The bound on the second derivative of a corner (`87-88`). -/
def Within (amax xl xr : ℝ) (c : Coeffs ℝ) : Prop :=
  |maximumCubic xl xr (derivative 4 (derivative 5 c))| < |amax| ∧
  |minimumCubic xl xr (derivative 4 (derivative 5 c))| < |amax|

open Classical in
/-- The loop over `j` (`69-107`), `left` passes from `j` on; in the last one (`j == 5`) a quintic that is
not within the bound throws. -/
noncomputable def tries (x y : ℕ → ℝ) (amax : ℝ) (n i : ℕ) : ℕ → ℕ → Outcome Corner
  | 0, _ => .throw .constructorError
  | left + 1, j =>
    (attempt x y n i j).bind fun c =>
      if Within amax (leftEnd x i j) (rightEnd x n i j) c then
        .ok { left := leftEnd x i j, right := rightEnd x n i j, poly := c }
      else tries x y amax n i left (j + 1)

open Classical in
/-- Corner `i` (`63-108`). -/
noncomputable def corner (x y : ℕ → ℝ) (amax : ℝ) (n i : ℕ) : Outcome Corner :=
  let before := lineAt x y (i - 1)
  let after := lineAt x y i
  if before 1 = after 1 then
    .ok { left := x i, right := x i, poly := ofList [before 0, before 1, 0, 0, 0, 0] }
  else tries x y amax n i 5 1

/-- The loop over the corners (`62-109`), `left` passes from `i` on. -/
noncomputable def cornerLoop (x y : ℕ → ℝ) (amax : ℝ) (n : ℕ) : ℕ → ℕ → Outcome (List Corner)
  | 0, _ => .ok []
  | left + 1, i =>
    (corner x y amax n i).bind fun c => (cornerLoop x y amax n left (i + 1)).bind fun cs => .ok (c :: cs)

/-- The constructor (`30-110`).  With fewer than two points `n-1` or `n` wraps around and a huge array
is requested; the outcome (failed allocation, or access behind the end) is not modelled further. -/
noncomputable def construct (xs ys : List ℝ) (amax : ℝ) : Outcome Spline :=
  if xs.length ≠ ys.length then .throw .outOfRange
  else if xs.length < 2 then .ub
  else
    let n := xs.length - 1
    (cornerLoop (at' xs) (at' ys) amax n (n - 1) 1).bind fun cs =>
      .ok { domain := at' xs 0 :: (cs.flatMap fun c => [c.left, c.right]) ++ [at' xs n]
            segments := (List.range n).map (lineAt (at' xs) (at' ys))
            corners := cs.map Corner.poly }

/-- Evaluation by a line or a quintic, according to the parity of the index (`118-122`, `131-135`,
`144-148`). -/
def withPiece (mode : Mode) (s : Spline) (line quintic : Coeffs ℝ → ℝ) (index : ℕ) : Outcome ℝ :=
  if index % 2 = 0 then
    match s.segments[index / 2]? with
    | some c => .ok (line c)
    | none => beyond mode
  else
    match s.corners[(index - 1) / 2]? with
    | some c => .ok (quintic c)
    | none => beyond mode

/-- `operator()` (`112-123`). -/
noncomputable def value (mode : Mode) (s : Spline) (x : ℝ) : Outcome ℝ :=
  (segment mode s.domain x).bind (withPiece mode s (fun c => eval 1 c x) (fun c => eval 5 c x))

/-- `derivative` (`125-136`). -/
noncomputable def slope (mode : Mode) (s : Spline) (x : ℝ) : Outcome ℝ :=
  (segment mode s.domain x).bind (withPiece mode s (fun c => derivativeAt 1 c x) (fun c => derivativeAt 5 c x))

/-- `dderivative` (`138-149`). -/
noncomputable def curvature (mode : Mode) (s : Spline) (x : ℝ) : Outcome ℝ :=
  (segment mode s.domain x).bind (withPiece mode s (fun c => dderivativeAt 1 c x) (fun c => dderivativeAt 5 c x))

end Ecl.SmoothLinear
