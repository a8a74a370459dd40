import Mathlib.Data.Matrix.Mul
import Mathlib.Data.Real.Basic
import Mathlib.LinearAlgebra.Matrix.Determinant.Basic

/-! # Eigenvectors of a symmetric 2x2 matrix `[a b; b d]`, its ellipse -/
set_option autoImplicit false

namespace Ecl.Spec

/-- `(u, v)` is mapped to `k` times itself. -/
def Eigen2 (a b d k u v : ℝ) : Prop := a * u + b * v = k * u ∧ b * u + d * v = k * v

/-- `k` makes the determinant of the matrix minus `k` vanish. -/
def Eigenvalue2 (a b d k : ℝ) : Prop := (a - k) * (d - k) - b * b = 0

/-- Positive definite: every vector but 0 has a positive value. -/
def PosDef2 (a b d : ℝ) : Prop := ∀ u v : ℝ, (u, v) ≠ (0, 0) → 0 < a * u * u + 2 * b * u * v + d * v * v

/-- `(x, y)` is on the ellipse of the covariance: the inverse matrix gives it the value 1. -/
def OnEllipse (a b d x y : ℝ) : Prop := (d * x * x - 2 * b * x * y + a * y * y) / (a * d - b * b) = 1

/-- `v` is an eigenvector of a 3x3 matrix. -/
def Eigen3 (m : Matrix (Fin 3) (Fin 3) ℝ) (k : ℝ) (v : Fin 3 → ℝ) : Prop := m.mulVec v = k • v

/-- Three vectors are right-handed. -/
def RightHanded (v : Fin 3 → Fin 3 → ℝ) : Prop := 0 < Matrix.det (Matrix.of v)

end Ecl.Spec
