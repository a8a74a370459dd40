import Verif.Lemmas.CovarianceEllipsoid
import Mathlib.LinearAlgebra.Matrix.DotProduct

/-! # C66, C80: covariance ellipses -/
set_option autoImplicit false
set_option linter.unusedSimpArgs false

namespace Ecl.Props
open Ecl Ecl.Ellipsoid Ecl.Angle Ecl.Spec Real

/-- **C66.** For a symmetric positive definite matrix the squares of the lengths are exactly its
eigenvalues, in decreasing order and positive, and the columns are orthonormal eigenvectors for them. -/
theorem C66_ellipse (a b d : ℝ) (h : PosDef2 a b d) :
    let e := compute ⟨a, b, b, d⟩
    0 < e.l1 ∧ e.l1 ≤ e.l0 ∧
    (∀ k, Eigenvalue2 a b d k ↔ k = e.l0 ^ 2 ∨ k = e.l1 ^ 2) ∧
    Eigen2 a b d (e.l0 ^ 2) e.axes.m00 e.axes.m10 ∧ Eigen2 a b d (e.l1 ^ 2) e.axes.m01 e.axes.m11 ∧
    e.axes.m00 ^ 2 + e.axes.m10 ^ 2 = 1 ∧ e.axes.m01 ^ 2 + e.axes.m11 ^ 2 = 1 ∧
    e.axes.m00 * e.axes.m01 + e.axes.m10 * e.axes.m11 = 0 := by
  intro e
  have L := lens_compute h
  have U := compute_unit h
  refine ⟨L.p1, L.le, ?_, ?_, ?_, ?_, ?_, U.orth⟩
  · intro k
    have : (a - k) * (d - k) - b * b = (k - e.l0 ^ 2) * (k - e.l1 ^ 2) := by
      have hs : e.l0 * e.l0 + e.l1 * e.l1 = a + d := L.sum
      have hp : (e.l0 * e.l0) * (e.l1 * e.l1) = a * d - b * b := L.prod
      linear_combination (-1 : ℝ) * hp + k * hs
    unfold Eigenvalue2
    rw [this, mul_eq_zero, sub_eq_zero, sub_eq_zero]
  · have := U.e0; rwa [← pow_two] at this
  · have := U.e1; rwa [← pow_two] at this
  · have := U.u0; rwa [← pow_two, ← pow_two] at this
  · have := U.u1; rwa [← pow_two, ← pow_two] at this

/-- **C66.** `rotation()` is the angle of the major axis. -/
theorem C66_rotation (a b d : ℝ) (h : PosDef2 a b d) :
    let e := compute ⟨a, b, b, d⟩
    cos (rotation e) = e.axes.m00 ∧ sin (rotation e) = e.axes.m10 :=
  cos_sin_atan2 (compute_unit h).u0

/-- The matrix of the project's own test is positive definite. -/
example : PosDef2 3 1 5 := by
  intro u v huv
  have : 3 * u * u + 2 * 1 * u * v + 5 * v * v = (u + v) ^ 2 + 2 * u ^ 2 + 4 * v ^ 2 := by ring
  rw [this]
  by_cases hu : u = 0
  · have hv : v ≠ 0 := fun hv => huv (by rw [hu, hv])
    have := pow_pos (abs_pos.2 hv) 2
    rw [sq_abs] at this
    nlinarith [sq_nonneg (u + v), sq_nonneg u]
  · have := pow_pos (abs_pos.2 hu) 2
    rw [sq_abs] at this
    nlinarith [sq_nonneg (u + v), sq_nonneg v]

/-- **C66.** The default ellipse has the lengths, and as axes orthonormal eigenvectors, of the unit matrix; its
major axis is the x axis. -/
theorem C66_default :
    unit.l0 = 1 ∧ unit.l1 = 1 ∧ Eigen2 1 0 1 (unit.l0 ^ 2) unit.axes.m00 unit.axes.m10 ∧
    Eigen2 1 0 1 (unit.l1 ^ 2) unit.axes.m01 unit.axes.m11 ∧ rotation unit = 0 ∧
    unit.axes.m00 * unit.axes.m11 - unit.axes.m01 * unit.axes.m10 = 1 := by
  refine ⟨rfl, rfl, ?_, ?_, ?_, ?_⟩
  · simp [unit, Eigen2]
  · simp [unit, Eigen2]
  · have : (⟨1, 0⟩ : ℂ) = 1 := rfl
    simp [unit, rotation, atan2, this]
  · simp [unit]

/-- **C66.** The ellipse computed from the unit matrix is not the default one: its major axis is the y axis. -/
theorem C66_computed_unit : rotation (compute ⟨1, 0, 0, 1⟩) = π / 2 := by
  have h0 : (⟨0, 1⟩ : ℂ) = Complex.I := rfl
  simp [rotation, compute, normalizeColumns, rawAxes, atan2, h0]

/-- **C66.** Three dimensions, given the solver's eigenvalues and independent eigenvectors: each axis is an
eigenvector for the square of its length, and with `sort` the axes have length one and are
right-handed. -/
theorem C66_spatial (m : Matrix (Fin 3) (Fin 3) ℝ) (vals : Fin 3 → ℝ) (vecs : Fin 3 → Fin 3 → ℝ) (sort : Bool)
    (hv : ∀ i, 0 ≤ vals i) (he : ∀ i, Eigen3 m (vals i) (vecs i)) (hi : Matrix.det (Matrix.of vecs) ≠ 0) :
    let e := compute3 vals vecs sort
    (∀ i, Eigen3 m (e.len i ^ 2) (e.axis i)) ∧
    (sort = true → (∀ i, e.axis i ⬝ᵥ e.axis i = 1) ∧ RightHanded e.axis) := by
  intro e
  have hpos : ∀ i, 0 < vecs i ⬝ᵥ vecs i := by
    intro i
    have h0 : 0 ≤ vecs i ⬝ᵥ vecs i := Finset.sum_nonneg fun j _ => mul_self_nonneg _
    rcases h0.lt_or_eq with h | h
    · exact h
    · exfalso
      apply hi
      have hz : vecs i = 0 := dotProduct_self_eq_zero.1 h.symm
      exact Matrix.det_eq_zero_of_row_eq_zero i (fun j => by simp [hz])
  have hn : ∀ i, 0 < (sqrt (vecs i ⬝ᵥ vecs i))⁻¹ := fun i => inv_pos.2 (sqrt_pos.2 (hpos i))
  have hs : ∀ i, sqrt (vals i) ^ 2 = vals i := fun i => sq_sqrt (hv i)
  have hen : ∀ i, Eigen3 m (vals i) (normalize3 (vecs i)) := by
    intro i
    unfold Eigen3 normalize3
    rw [Matrix.mulVec_smul, he i, smul_comm]
  have hu : ∀ i, normalize3 (vecs i) ⬝ᵥ normalize3 (vecs i) = 1 := by
    intro i
    unfold normalize3
    rw [dotProduct_smul, smul_dotProduct, smul_eq_mul, smul_eq_mul]
    have h1 := mul_self_sqrt (hpos i).le
    have h2 := (sqrt_pos.2 (hpos i)).ne'
    field_simp
    rw [pow_two, h1]
  set c := fun i => normalize3 (vecs i) with hc
  have hdet : Matrix.det (Matrix.of ![c 0, c 1, c 2]) ≠ 0 := by
    have : Matrix.det (Matrix.of ![c 0, c 1, c 2]) =
        (sqrt (vecs 0 ⬝ᵥ vecs 0))⁻¹ * (sqrt (vecs 1 ⬝ᵥ vecs 1))⁻¹ * (sqrt (vecs 2 ⬝ᵥ vecs 2))⁻¹ * Matrix.det (Matrix.of vecs) := by
      rw [Matrix.det_fin_three, Matrix.det_fin_three]
      simp [hc, normalize3]
      ring
    rw [this]
    exact mul_ne_zero (mul_ne_zero (mul_ne_zero (hn 0).ne' (hn 1).ne') (hn 2).ne') hi
  have htr : ∀ x y z : Fin 3 → ℝ, crossProduct x y ⬝ᵥ z = Matrix.det (Matrix.of ![x, y, z]) := by
    intro x y z
    rw [Matrix.det_fin_three, cross_apply]
    simp [dotProduct, Fin.sum_univ_three]
    ring
  have hswap : Matrix.det (Matrix.of ![c 1, c 0, c 2]) = -Matrix.det (Matrix.of ![c 0, c 1, c 2]) := by
    rw [Matrix.det_fin_three, Matrix.det_fin_three]; simp; ring
  cases sort with
  | false =>
    refine ⟨fun i => ?_, fun h => by simp at h⟩
    simp only [e, compute3, Bool.false_eq_true, if_false, hs]
    exact he i
  | true =>
    by_cases hlt : crossProduct (c 0) (c 1) ⬝ᵥ c 2 < 0
    · have ee : e = { len := ![sqrt (vals 1), sqrt (vals 0), sqrt (vals 2)], axis := ![c 1, c 0, c 2] } := by
        simp only [e, compute3, if_true]
        rw [if_pos hlt]
      rw [ee]
      refine ⟨?_, fun _ => ⟨?_, ?_⟩⟩
      · intro i
        fin_cases i
        · show Eigen3 m (sqrt (vals 1) ^ 2) (c 1); rw [hs]; exact hen 1
        · show Eigen3 m (sqrt (vals 0) ^ 2) (c 0); rw [hs]; exact hen 0
        · show Eigen3 m (sqrt (vals 2) ^ 2) (c 2); rw [hs]; exact hen 2
      · intro i
        fin_cases i
        · exact hu 1
        · exact hu 0
        · exact hu 2
      · show 0 < Matrix.det (Matrix.of ![c 1, c 0, c 2])
        rw [hswap, ← htr]; linarith
    · have ee : e = { len := fun i => sqrt (vals i), axis := ![c 0, c 1, c 2] } := by
        simp only [e, compute3, if_true]
        rw [if_neg hlt]
      rw [ee]
      refine ⟨?_, fun _ => ⟨?_, ?_⟩⟩
      · intro i
        show Eigen3 m (sqrt (vals i) ^ 2) _
        rw [hs]
        fin_cases i
        · exact hen 0
        · exact hen 1
        · exact hen 2
      · intro i
        fin_cases i
        · exact hu 0
        · exact hu 1
        · exact hu 2
      · show 0 < Matrix.det (Matrix.of ![c 0, c 1, c 2])
        rw [htr] at hlt
        exact lt_of_le_of_ne (not_lt.1 hlt) hdet.symm

/-- The major axis is not upright. -/
private theorem major_not_upright {a b d l c s θ : ℝ} (_h : PosDef2 a b d) (hb : b ≠ 0 ∨ d < a) (_hc : cos θ = c)
    (_hs : sin θ = s) (v0 : a * cos θ + b * sin θ = l * cos θ) (v1 : b * cos θ + d * sin θ = l * sin θ)
    (hl : a ≤ l) : cos θ ≠ 0 := by
  intro h0
  have hcs := sin_sq_add_cos_sq θ
  rw [h0] at v0 v1 hcs
  have hs0 : sin θ ≠ 0 := by intro h1; rw [h1] at hcs; norm_num at hcs
  have hb0 : b = 0 := by
    have : b * sin θ = 0 := by linarith
    rcases mul_eq_zero.1 this with h1 | h1
    · exact h1
    · exact absurd h1 hs0
  have hd0 : d = l := by
    have : (d - l) * sin θ = 0 := by linarith
    rcases mul_eq_zero.1 this with h1 | h1
    · linarith
    · exact absurd h1 hs0
  rcases hb with hb | hb
  · exact hb hb0
  · linarith

private theorem polar_atan2 {x y : ℝ} (hy : 0 < y) : ∃ r : ℝ, 0 < r ∧ r ^ 2 = x ^ 2 + y ^ 2 ∧
    r * cos (atan2 y x) = x ∧ r * sin (atan2 y x) = y := by
  have hz : (⟨x, y⟩ : ℂ) ≠ 0 := by
    intro h; have := congrArg Complex.im h; simp at this; exact hy.ne' this
  have hr : 0 < ‖(⟨x, y⟩ : ℂ)‖ := norm_pos_iff.2 hz
  refine ⟨‖(⟨x, y⟩ : ℂ)‖, hr, ?_, ?_, ?_⟩
  · rw [← Complex.normSq_eq_norm_sq, Complex.normSq_mk]; ring
  · rw [atan2, Complex.cos_arg hz]; field_simp
  · rw [atan2, Complex.sin_arg]; field_simp

private theorem posDef_of {a b d : ℝ} (ha : 0 < a) (hdet : 0 < a * d - b * b) : PosDef2 a b d := by
  intro u v huv
  have key : a * (a * u * u + 2 * b * u * v + d * v * v) = (a * u + b * v) ^ 2 + (a * d - b * b) * v ^ 2 := by ring
  have : 0 < a * (a * u * u + 2 * b * u * v + d * v * v) := by
    rw [key]
    by_cases hv : v = 0
    · have hu : u ≠ 0 := fun hu => huv (by rw [hu, hv])
      subst hv
      have : 0 < (a * u + b * 0) ^ 2 := by
        have : a * u + b * 0 ≠ 0 := by simp [ha.ne', hu]
        positivity
      positivity
    · have : 0 < (a * d - b * b) * v ^ 2 := by positivity
      positivity
  exact (mul_pos_iff_of_pos_left ha).1 this

/-- **C80.** The x intercept is the distance from the centre to the ellipse along the x axis, unless the
major axis is the y axis (where the tangent has a pole). -/
theorem C80_x_partial (a b d : ℝ) (h : PosDef2 a b d) (hb : b ≠ 0 ∨ d < a) :
    let p := (intercepts (compute ⟨a, b, b, d⟩)).1
    0 ≤ p ∧ OnEllipse a b d p 0 := by
  intro p
  refine ⟨abs_nonneg _, ?_⟩
  obtain ⟨hc, hs⟩ := C66_rotation a b d h
  have L := lens_compute h
  have U := compute_unit h
  obtain ⟨ha, hd, hdet⟩ := posDef_coeffs h
  set e := compute ⟨a, b, b, d⟩ with he
  set θ := rotation e with hθ
  have hpd : p = |e.l0 * cos (atan2 (-(e.l0 / e.l1) * tan θ) 1) * cos θ -
    e.l1 * sin (atan2 (-(e.l0 / e.l1) * tan θ) 1) * sin θ| := rfl
  have hl0 : 0 < e.l0 := L.p0
  have hl1 : 0 < e.l1 := L.p1
  have hprod : (e.l0 * e.l0) * (e.l1 * e.l1) = a * d - b * b := L.prod
  have hsum : e.l0 * e.l0 + e.l1 * e.l1 = a + d := L.sum
  obtain ⟨v0, v1⟩ := U.e0
  rw [← hc, ← hs] at v0 v1
  have hcs := sin_sq_add_cos_sq θ
  have hcos : cos θ ≠ 0 := by
    intro h0
    rw [h0] at v0 v1 hcs
    have hs0 : sin θ ≠ 0 := by intro h1; rw [h1] at hcs; norm_num at hcs
    have hb0 : b = 0 := by
      have : b * sin θ = 0 := by linarith
      rcases mul_eq_zero.1 this with h1 | h1
      · exact h1
      · exact absurd h1 hs0
    have hd0 : d = e.l0 * e.l0 := by
      have : (d - e.l0 * e.l0) * sin θ = 0 := by linarith
      rcases mul_eq_zero.1 this with h1 | h1
      · linarith
      · exact absurd h1 hs0
    rcases hb with hb | hb
    · exact hb hb0
    · have h1 : a ≤ e.l0 * e.l0 := L.ge.1
      linarith
  obtain ⟨k1, k2, k3⟩ := cos_sin_atan2_one (-(e.l0 / e.l1) * tan θ)
  set t := atan2 (-(e.l0 / e.l1) * tan θ) 1 with ht
  have htan : tan θ = sin θ / cos θ := tan_eq_sin_div_cos θ
  -- the quadratic value of the second coordinate direction
  have hdd : d = e.l0 * e.l0 * sin θ ^ 2 + e.l1 * e.l1 * cos θ ^ 2 := by
    linear_combination sin θ * v1 - cos θ * v0 - cos θ ^ 2 * hsum - d * hcs
  have hinner : e.l0 * cos t * cos θ - e.l1 * sin t * sin θ = e.l0 * cos t / cos θ := by
    rw [k3, htan]; field_simp; linear_combination hcs
  have hpp : p * p = (e.l0 * cos t / cos θ) * (e.l0 * cos t / cos θ) := by
    rw [hpd, hinner]; exact abs_mul_abs_self _
  have hp2 : d * (p * p) = a * d - b * b := by
    rw [hpp]
    have k2' : cos t * cos t * (e.l1 ^ 2 * cos θ ^ 2 + e.l0 ^ 2 * sin θ ^ 2) = e.l1 ^ 2 * cos θ ^ 2 := by
      rw [htan] at k2; field_simp at k2; linear_combination k2
    rw [← hprod]
    field_simp
    rw [hdd]
    linear_combination k2'
  unfold OnEllipse
  rw [div_eq_one_iff_eq hdet.ne']
  linear_combination hp2

/-- The y intercept is wrong: `sin(angle)` stands where `cos(angle)` should, so for a diagonal matrix with
the larger variance in x it is always 0, which is not on the ellipse. -/
theorem C80_y_zero (a d : ℝ) (hd : 0 < d) (hda : d < a) :
    (intercepts (compute ⟨a, 0, 0, d⟩)).2 = 0 ∧ ¬ OnEllipse a 0 d 0 0 := by
  constructor
  · have hr : rotation (compute ⟨a, 0, 0, d⟩) = 0 := by
      unfold rotation compute rawAxes normalizeColumns
      simp [hda, atan2]
      have : (⟨1, 0⟩ : ℂ) = 1 := rfl
      rw [this, Complex.arg_one]
    unfold intercepts
    simp [hr]
  · unfold OnEllipse; simp

/-- **C80.** What the y intercept is instead: the true distance times `|s (s + c)|`, where `(c, s)` is the
direction of the major axis. -/
theorem C80_y_value (a b d : ℝ) (h : PosDef2 a b d) (hb : b ≠ 0 ∨ d < a) :
    let e := compute ⟨a, b, b, d⟩
    let y := (intercepts e).2
    0 ≤ y ∧ a * y ^ 2 = (a * d - b * b) * (e.axes.m10 * (e.axes.m10 + e.axes.m00)) ^ 2 := by
  intro e y
  refine ⟨abs_nonneg _, ?_⟩
  obtain ⟨hc, hs⟩ := C66_rotation a b d h
  have L := lens_compute h
  have U := compute_unit h
  change cos (rotation e) = e.axes.m00 at hc
  change sin (rotation e) = e.axes.m10 at hs
  set θ := rotation e with hθ
  have hyd : y = |e.l0 * cos (atan2 (e.l0 / e.l1) (tan θ)) * sin θ +
    e.l1 * sin (atan2 (e.l0 / e.l1) (tan θ)) * sin θ| := rfl
  have hl0 : 0 < e.l0 := L.p0
  have hl1 : 0 < e.l1 := L.p1
  have hprod : (e.l0 * e.l0) * (e.l1 * e.l1) = a * d - b * b := L.prod
  have hsum : e.l0 * e.l0 + e.l1 * e.l1 = a + d := L.sum
  obtain ⟨v0, v1⟩ : Eigen2 a b d (e.l0 * e.l0) e.axes.m00 e.axes.m10 := U.e0
  rw [← hc, ← hs] at v0 v1
  have hcs := sin_sq_add_cos_sq θ
  have hcos : cos θ ≠ 0 := major_not_upright h hb hc hs v0 v1 L.ge.1
  have htan : tan θ = sin θ / cos θ := tan_eq_sin_div_cos θ
  obtain ⟨r, hr, r1, r2, r3⟩ : ∃ r : ℝ, 0 < r ∧ r ^ 2 = tan θ ^ 2 + (e.l0 / e.l1) ^ 2 ∧
      r * cos (atan2 (e.l0 / e.l1) (tan θ)) = tan θ ∧ r * sin (atan2 (e.l0 / e.l1) (tan θ)) = e.l0 / e.l1 :=
    polar_atan2 (div_pos hl0 hl1)
  set t := atan2 (e.l0 / e.l1) (tan θ) with ht
  have haa : a = e.l0 * e.l0 * cos θ ^ 2 + e.l1 * e.l1 * sin θ ^ 2 := by
    linear_combination cos θ * v0 - sin θ * v1 - sin θ ^ 2 * hsum - a * hcs
  have hyy : y ^ 2 = (sin θ * (e.l0 * cos t + e.l1 * sin t)) ^ 2 := by
    rw [hyd, sq_abs]; ring
  have hin : r * (e.l0 * cos t + e.l1 * sin t) = e.l0 * (tan θ + 1) := by
    have : r * (e.l0 * cos t + e.l1 * sin t) = e.l0 * (r * cos t) + e.l1 * (r * sin t) := by ring
    rw [this, r2, r3]; field_simp
  have h2 : r ^ 2 * y ^ 2 = sin θ ^ 2 * e.l0 ^ 2 * (tan θ + 1) ^ 2 := by
    rw [hyy]
    have : r ^ 2 * (sin θ * (e.l0 * cos t + e.l1 * sin t)) ^ 2 =
        sin θ ^ 2 * (r * (e.l0 * cos t + e.l1 * sin t)) ^ 2 := by ring
    rw [this, hin]; ring
  rw [r1, htan] at h2
  field_simp at h2
  rw [← hc, ← hs, ← hprod, haa]
  linear_combination h2

/-- **C80.** So the y intercept is right exactly when both variances are equal and the correlation is
positive. -/
theorem C80_y_iff (a b d : ℝ) (h : PosDef2 a b d) (hb : b ≠ 0 ∨ d < a) :
    OnEllipse a b d 0 (intercepts (compute ⟨a, b, b, d⟩)).2 ↔ a = d ∧ 0 < b := by
  obtain ⟨-, hy⟩ := C80_y_value a b d h hb
  obtain ⟨hc, hs⟩ := C66_rotation a b d h
  have L := lens_compute h
  have U := compute_unit h
  obtain ⟨-, -, hdet⟩ := posDef_coeffs h
  set e := compute ⟨a, b, b, d⟩ with he
  change cos (rotation e) = e.axes.m00 at hc
  change sin (rotation e) = e.axes.m10 at hs
  obtain ⟨v0, v1⟩ : Eigen2 a b d (e.l0 * e.l0) e.axes.m00 e.axes.m10 := U.e0
  have hge : a ≤ e.l0 * e.l0 := L.ge.1
  have hcos : cos (rotation e) ≠ 0 :=
    major_not_upright h hb hc hs (by rw [hc, hs]; exact v0) (by rw [hc, hs]; exact v1) hge
  have hcs := sin_sq_add_cos_sq (rotation e)
  rw [hc] at hcos
  rw [hc, hs] at hcs
  set c := e.axes.m00
  set s := e.axes.m10
  have h1 : OnEllipse a b d 0 (intercepts e).2 ↔ (s * (s + c)) ^ 2 = 1 := by
    unfold OnEllipse
    rw [div_eq_one_iff_eq hdet.ne']
    constructor
    · intro hh
      have : (a * d - b * b) * (s * (s + c)) ^ 2 = (a * d - b * b) * 1 := by rw [← hy]; linear_combination hh
      exact mul_left_cancel₀ hdet.ne' this
    · intro hh
      rw [hh] at hy
      linear_combination hy
  rw [h1]
  have h2 : (s * (s + c)) ^ 2 = 1 ↔ s = c := by
    constructor
    · intro hh
      have h3 : (c * (s - c)) * (2 * s ^ 2 + s * c + c ^ 2) = 0 := by
        linear_combination hh - (s ^ 2 + c ^ 2 + 1) * hcs
      have h4 : 0 < 2 * s ^ 2 + s * c + c ^ 2 := by nlinarith [mul_self_nonneg (s + c), mul_self_nonneg s]
      rcases mul_eq_zero.1 h3 with h5 | h5
      · rcases mul_eq_zero.1 h5 with h6 | h6
        · exact absurd h6 hcos
        · linarith
      · exact absurd h5 h4.ne'
    · intro hh
      rw [hh] at hcs ⊢
      have : c * (c + c) = 1 := by linarith
      rw [this]; norm_num
  rw [h2]
  constructor
  · intro hh
    rw [hh] at v0 v1
    have e1 : a + b = e.l0 * e.l0 := mul_right_cancel₀ hcos (by linarith)
    have e2 : b + d = e.l0 * e.l0 := mul_right_cancel₀ hcos (by linarith)
    refine ⟨by linarith, ?_⟩
    have hb0 : 0 ≤ b := by linarith
    rcases hb with hb | hb
    · exact lt_of_le_of_ne hb0 (Ne.symm hb)
    · linarith
  · rintro ⟨hd, hb0⟩
    subst hd
    have h3 : (a - e.l0 * e.l0 - b) * (c - s) = 0 := by linear_combination v0 - v1
    rcases mul_eq_zero.1 h3 with h4 | h4
    · linarith
    · linarith

/-- Equal variances and a positive correlation, and the same with a negative one. -/
example : OnEllipse 2 1 2 0 (intercepts (compute ⟨2, 1, 1, 2⟩)).2 ∧
    ¬ OnEllipse 2 (-1) 2 0 (intercepts (compute ⟨2, -1, -1, 2⟩)).2 := by
  constructor
  · rw [C80_y_iff 2 1 2 (posDef_of (by norm_num) (by norm_num)) (.inl (by norm_num))]; norm_num
  · rw [C80_y_iff 2 (-1) 2 (posDef_of (by norm_num) (by norm_num)) (.inl (by norm_num))]; norm_num

theorem C80_fails_y :
    ¬ (∀ a b d : ℝ, PosDef2 a b d → OnEllipse a b d 0 (intercepts (compute ⟨a, b, b, d⟩)).2) := by
  intro h
  have := h 4 0 1 (by
    intro u v huv
    by_cases hu : u = 0
    · have hv : v ≠ 0 := fun hv => huv (by rw [hu, hv])
      have := mul_self_pos.2 hv
      nlinarith [mul_self_nonneg u]
    · have := mul_self_pos.2 hu
      nlinarith [mul_self_nonneg v])
  rw [(C80_y_zero 4 1 (by norm_num) (by norm_num)).1] at this
  exact (C80_y_zero 4 1 (by norm_num) (by norm_num)).2 this

end Ecl.Props
