import Verif.Core.Outcome
import Mathlib.Algebra.Polynomial.Derivative
import Mathlib.Data.Real.Basic

/-! # Cubic splines as families of polynomials, and calls that follow them up to rounding -/
set_option autoImplicit false

namespace Ecl.Spec
open Polynomial

/-- One cubic for each interval, through the points at both ends of it. -/
def PiecesThrough (xs ys : List ℝ) (P : ℕ → ℝ[X]) : Prop :=
  ∀ (i : ℕ) (hx : i + 1 < xs.length) (hy : i + 1 < ys.length),
    (P i).natDegree ≤ 3 ∧ (P i).eval xs[i] = ys[i] ∧ (P i).eval xs[i + 1] = ys[i + 1]

/-- Neighbouring pieces have the same slope where they meet. -/
def SlopesMeet (xs : List ℝ) (P : ℕ → ℝ[X]) : Prop :=
  ∀ (i : ℕ) (hx : i + 2 < xs.length), (P i).derivative.eval xs[i + 1] = (P (i + 1)).derivative.eval xs[i + 1]

/-- Neighbouring pieces have the same second derivative where they meet. -/
def CurvaturesMeet (xs : List ℝ) (P : ℕ → ℝ[X]) : Prop :=
  ∀ (i : ℕ) (hx : i + 2 < xs.length),
    (P i).derivative.derivative.eval xs[i + 1] = (P (i + 1)).derivative.derivative.eval xs[i + 1]

/-- `R` bounds the second differences of the data: six times the slopes of two neighbouring chords over the distance of
their outer ends. -/
def DifferencesWithin (xs ys : List ℝ) (R : ℝ) : Prop :=
  0 ≤ R ∧ ∀ (i : ℕ) (hx : i + 2 < xs.length) (hy : i + 2 < ys.length),
    6 * (|(ys[i + 2] - ys[i + 1]) / (xs[i + 2] - xs[i + 1])| + |(ys[i + 1] - ys[i]) / (xs[i + 1] - xs[i])|) /
      (xs[i + 2] - xs[i]) ≤ R

/-- On every interval the three calls answer, with the value, slope and second derivative of its piece up to units
`2^-53` of the data; `r` is the distance from zero in lengths of the interval. -/
def Follows (value slope curvature : ℝ → Outcome ℝ) (xs ys : List ℝ) (P : ℕ → ℝ[X]) (R : ℝ) : Prop :=
  ∀ (i : ℕ) (hx : i + 1 < xs.length) (hy : i + 1 < ys.length) (x : ℝ), i = 0 ∨ xs[i] < x → xs[i] ≤ x → x ≤ xs[i + 1] →
    ∃ v d c, value x = .ok v ∧ slope x = .ok d ∧ curvature x = .ok c ∧
      ∀ r, 1 ≤ r → |x| + |xs[i]| ≤ r * (xs[i + 1] - xs[i]) →
        |v - (P i).eval x| ≤
          28 / 2 ^ 53 * (r ^ 3 * (2 * |ys[i]| + |ys[i + 1]| + 10 * R * (xs[i + 1] - xs[i]) ^ 2)) ∧
        |d - (P i).derivative.eval x| ≤
          28 / 2 ^ 53 * (r ^ 2 * ((|ys[i]| + |ys[i + 1]|) / (xs[i + 1] - xs[i]) + 19 * R * (xs[i + 1] - xs[i]))) ∧
        |c - (P i).derivative.derivative.eval x| ≤ 28 / 2 ^ 53 * (r * (23 * R))

/-- Likewise value and slope of a spline whose slopes are within `G`. -/
def FollowsOnce (value slope : ℝ → Outcome ℝ) (xs ys : List ℝ) (P : ℕ → ℝ[X]) (G : ℝ) : Prop :=
  ∀ (i : ℕ) (hx : i + 1 < xs.length) (hy : i + 1 < ys.length) (x : ℝ), i = 0 ∨ xs[i] < x → xs[i] ≤ x → x ≤ xs[i + 1] →
    ∃ v d, value x = .ok v ∧ slope x = .ok d ∧
      ∀ r, 1 ≤ r → |x| + |xs[i]| ≤ r * (xs[i + 1] - xs[i]) →
        |v - (P i).eval x| ≤
          26 / 2 ^ 53 * (r ^ 3 * (|ys[i]| + 5 * |ys[i + 1] - ys[i]| + 7 * G * (xs[i + 1] - xs[i]))) ∧
        |d - (P i).derivative.eval x| ≤
          26 / 2 ^ 53 * (r ^ 2 * (12 * |ys[i + 1] - ys[i]| / (xs[i + 1] - xs[i]) + 14 * G))

end Ecl.Spec
