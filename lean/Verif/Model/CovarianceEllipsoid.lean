import Verif.Model.Angle
import Mathlib.LinearAlgebra.CrossProduct
import Mathlib.Analysis.SpecialFunctions.Sqrt

/-!
# `CovarianceEllipsoid` (`ecl_statistics/src/lib/covariance_ellipsoid.cpp`)

Exact real arithmetic; the `float` and the `double` version have the same text.  The square root of a
negative number (NaN in C) is 0 here; it does not occur for positive definite matrices.
-/
set_option autoImplicit false

namespace Ecl.Ellipsoid
open Real Ecl.Angle

/-- The members of the planar class (`covariance_ellipsoid.hpp:179-180`, `400-401`); the axes are the
columns. -/
structure Ellipse where
  l0 : ℝ
  l1 : ℝ
  axes : Mat2

/-- The default constructor (`covariance_ellipsoid.cpp:38-41`, `134-137`). -/
def unit : Ellipse := { l0 := 1, l1 := 1, axes := ⟨1, 0, 0, 1⟩ }

/-- The axes before they are normalised (`67-86`, `163-182`). -/
noncomputable def rawAxes (a b c d l0 l1 : ℝ) : Mat2 :=
  if c ≠ 0 then { m00 := l0 * l0 - d, m10 := c, m01 := l1 * l1 - d, m11 := c }
  else if b ≠ 0 then { m00 := b, m10 := l0 * l0 - a, m01 := b, m11 := l1 * l1 - a }
  else if a > d then ⟨1, 0, 0, 1⟩
  else ⟨0, 1, 1, 0⟩

/-- Eigen's `normalize()` of both columns (`90-91`, `186-187`). -/
noncomputable def normalizeColumns (m : Mat2) : Mat2 :=
  let n0 := sqrt (m.m00 * m.m00 + m.m10 * m.m10)
  let n1 := sqrt (m.m01 * m.m01 + m.m11 * m.m11)
  { m00 := m.m00 / n0, m10 := m.m10 / n0, m01 := m.m01 / n1, m11 := m.m11 / n1 }

/-- `compute` (`46-92`, `142-188`); the constructor calls it (`43-45`, `139-141`). -/
noncomputable def compute (m : Mat2) : Ellipse :=
  let a := m.m00
  let b := m.m01
  let c := m.m10
  let d := m.m11
  let tmp := sqrt ((a + d) * (a + d) / 4 - a * d + b * c)
  let l0 := sqrt ((a + d) / 2 + tmp)
  let l1 := sqrt ((a + d) / 2 - tmp)
  { l0 := l0, l1 := l1, axes := normalizeColumns (rawAxes a b c d l0 l1) }

/-- `rotation()` (`94-96`, `190-192`). -/
noncomputable def rotation (e : Ellipse) : ℝ := atan2 e.axes.m10 e.axes.m00

/-- `intercepts()` (`98-129`, `194-225`).  Where the cosine of the angle is 0 the tangent is not modelled
(it is a huge number in C and 0 here). -/
noncomputable def intercepts (e : Ellipse) : ℝ × ℝ :=
  let angle := rotation e
  let t := atan2 (-(e.l0 / e.l1) * tan angle) 1
  let x := |e.l0 * cos t * cos angle - e.l1 * sin t * sin angle|
  let t := atan2 (e.l0 / e.l1) (tan angle)
  let y := |e.l0 * cos t * sin angle + e.l1 * sin t * sin angle|
  (x, y)

/-! ## Three dimensions -/

/-- The members of the spatial class (`covariance_ellipsoid.hpp:277-278`, `498-499`): three lengths and
three columns. -/
structure Ellipsoid3 where
  len : Fin 3 → ℝ
  axis : Fin 3 → Fin 3 → ℝ

/-- Eigen's `normalize()` of a column. (Eigen, called from `covariance_ellipsoid.hpp` and not in
/repo.) -/
noncomputable def normalize3 (v : Fin 3 → ℝ) : Fin 3 → ℝ := (sqrt (v ⬝ᵥ v))⁻¹ • v

/-- `compute` (`240-263`, `273-296`).  The eigenvalues and eigenvectors found by Eigen's solver are
parameters: `vals i` and the column `vecs i`. -/
noncomputable def compute3 (vals : Fin 3 → ℝ) (vecs : Fin 3 → Fin 3 → ℝ) (sort : Bool) : Ellipsoid3 :=
  let len := fun i => sqrt (vals i)
  if sort then
    let c0 := normalize3 (vecs 0)
    let c1 := normalize3 (vecs 1)
    let c2 := normalize3 (vecs 2)
    let cc := crossProduct c0 c1
    if cc ⬝ᵥ c2 < 0 then { len := ![len 1, len 0, len 2], axis := ![c1, c0, c2] }
    else { len := len, axis := ![c0, c1, c2] }
  else { len := len, axis := vecs }

end Ecl.Ellipsoid
