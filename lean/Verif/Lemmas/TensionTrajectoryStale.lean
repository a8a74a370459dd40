import Verif.Lemmas.TensionTrajectoryJump
import Mathlib.Analysis.Calculus.Deriv.MeanValue

/-! # A tension spline trajectory whose leading quintics are out of date -/
set_option autoImplicit false
set_option linter.unusedSimpArgs false

namespace Ecl.TensionTrajectory
open Ecl Ecl.Poly Ecl.Manip Ecl.TensionSpline Ecl.Spec
open Ecl.SmoothLinear (Within)
open Ecl.LinearTrajectory (Kept Ready kept_refl kept_trans kept_get stretchOne configureEnds smooth_congr)
open Ecl.CubicSpline (at')

/-- One joint at 0, 1, 0, 0, 0, to arrive with rate `R`; the last segment takes `D`. -/
noncomputable def kicked (R D : ℝ) : List WayPoint :=
  [⟨[0], [0], [1], 1, true⟩, ⟨[1], [0], [1], 1, true⟩, ⟨[0], [0], [1], 1, true⟩, ⟨[0], [0], [1], D, true⟩, ⟨[0], [R], [1], 0, true⟩]

theorem kicked_init (mode : Mode) (R : ℝ) : initialiseDurations mode 1 (kicked R 1) = .ok (kicked R 1) true := by
  cases mode <;> simp [initialiseDurations, kicked, segmentLoop, jointLoop, Arr.get, Arr.rawGet, assertThrow, raiseDuration,
    List.range_succ, bind, Outcome.bind] <;> norm_num

theorem kicked_fits (R D : ℝ) : ∀ w ∈ kicked R D, Fits 1 w := by
  intro w hw
  simp only [kicked, List.mem_cons, List.not_mem_nil, or_false] at hw
  rcases hw with rfl | rfl | rfl | rfl | rfl <;> exact ⟨rfl, rfl, rfl⟩

theorem kicked_get {R D : ℝ} (hD : 0 < D) : ∀ (i : ℕ) (w : WayPoint), (kicked R D)[i]? = some w → i + 1 < (kicked R D).length →
    0 < w.duration ∧ w.nominal = [1] := by
  intro i w hw hi
  simp only [kicked, List.length_cons, List.length_nil] at hi
  have : i = 0 ∨ i = 1 ∨ i = 2 ∨ i = 3 := by omega
  rcases this with rfl | rfl | rfl | rfl <;> simp [kicked] at hw <;> subst hw <;> first | exact ⟨hD, rfl⟩ | exact ⟨one_pos, rfl⟩

theorem kicked_usable {R D : ℝ} (hD : 0 < D) : Usable 5 (kicked R D) := by
  refine ⟨by simp [kicked], ?_, ?_⟩
  · intro i w hw hi r hr
    rw [(kicked_get hD i w hw hi).2] at hr
    simp at hr; rw [hr]; norm_num
  · intro i w next hs
    exact Or.inl (kicked_get hD i w hs.1 (List.getElem?_eq_some_iff.1 hs.2).1).1

theorem kicked_ready {R D : ℝ} (hD : 0 < D) : Ready 1 (kicked R D) :=
  ⟨by simp [kicked], kicked_fits R D, fun i w hw hi => by
    obtain ⟨h1, h2⟩ := kicked_get hD i w hw hi
    refine ⟨h1, fun r hr => ?_⟩
    rw [h2] at hr
    simp at hr; rw [hr]; norm_num⟩

theorem kicked_durations (R D : ℝ) : durations (kicked R D) = [1, 1, 1, D] := by simp [durations, kicked]
theorem kicked_values (R D : ℝ) : jointValues (kicked R D) 0 = [0, 1, 0, 0, 0] := by simp [jointValues, kicked, at']
theorem kicked_length (R D : ℝ) : (kicked R D).length = 5 := by simp [kicked]

theorem kicked_stretch (R D : ℝ) : (kicked R D).modify ((kicked R D).length - 2) (stretchOne (11 / 10)) = kicked R (D * (11 / 10)) := by
  simp [kicked, stretchOne, List.modify, List.modifyTailIdx, List.modifyTailIdx.go, List.modifyHead]

/-- The spline does not depend on the rate. -/
theorem kicked_splined {mode : Mode} {tau t R R' D : ℝ} {s : TensionSpline.Spline} (h : Splined mode tau t (kicked R D) 0 s) :
    Splined mode tau t (kicked R' D) 0 s := by
  unfold Splined at *
  rw [kicked_durations, kicked_values, kicked_length] at *
  exact h

/-! ## The spline -/

/-- The equations for the accelerations at the knots. -/
structure Knotted (D : ℝ) (z : ℕ → ℝ) : Prop where
  first : z 0 = 0
  last : z 4 = 0
  row0 : (betaAt 1 (fun i => (i : ℝ)) 0 + betaAt 1 (fun i => (i : ℝ)) 0) * z 1 + aAt 1 (fun i => (i : ℝ)) 0 * z 2 = -2
  row1 : aAt 1 (fun i => (i : ℝ)) 0 * z 1 + (betaAt 1 (fun i => (i : ℝ)) 0 + betaAt 1 (fun i => (i : ℝ)) 0) * z 2 +
    aAt 1 (fun i => (i : ℝ)) 0 * z 3 = 1
  row2 : aAt 1 (fun i => (i : ℝ)) 0 * z 2 + (betaAt 1 (fun i => (i : ℝ)) 0 + betaAt 1 (fun i => (i : ℝ) * D) 0) * z 3 = 0

theorem kicked_knots (start R D : ℝ) :
    at' (knotTimes start (durations (kicked R D))) 0 = start ∧ at' (knotTimes start (durations (kicked R D))) 1 = start + 1 ∧
    at' (knotTimes start (durations (kicked R D))) 2 = start + 2 ∧ at' (knotTimes start (durations (kicked R D))) 3 = start + 3 ∧
    at' (knotTimes start (durations (kicked R D))) 4 = start + 3 + D := by
  rw [kicked_durations]
  refine ⟨?_, ?_, ?_, ?_, ?_⟩ <;> simp [knotTimes, at'] <;> ring

theorem kicked_solved {mode : Mode} {start R D : ℝ} (hD : 0 < D) {s : TensionSpline.Spline} (h : Splined mode 1 start (kicked R D) 0 s) :
    ∃ z, Knotted D z ∧
      (∀ x, start ≤ x → x ≤ start + 1 → value mode s x =
        .ok (z 1 * Real.sinh (x - start) / Real.sinh 1 + (1 - z 1) * (x - start))) ∧
      (∀ u, 0 ≤ u → u < D → value mode s (start + 3 + D - u) = .ok (z 3 * Real.sinh u / Real.sinh D - z 3 * u / D) ∧
        slope mode s (start + 3 + D - u) = .ok (-(z 3 * Real.cosh u / Real.sinh D) + z 3 / D)) := by
  obtain ⟨z, hz⟩ := h
  rw [kicked_length] at hz
  obtain ⟨k0, k1, k2, k3, k4⟩ := kicked_knots start R D
  have h0 : hAt (at' (knotTimes start (durations (kicked R D)))) 0 = 1 := by rw [hAt, k1, k0]; ring
  have h1 : hAt (at' (knotTimes start (durations (kicked R D)))) 1 = 1 := by rw [hAt, k2, k1]; ring
  have h2 : hAt (at' (knotTimes start (durations (kicked R D)))) 2 = 1 := by rw [hAt, k3, k2]; ring
  have h3 : hAt (at' (knotTimes start (durations (kicked R D)))) 3 = D := by rw [hAt, k4, k3]; ring
  have ea : ∀ i, hAt (at' (knotTimes start (durations (kicked R D)))) i = 1 →
      aAt 1 (at' (knotTimes start (durations (kicked R D)))) i = aAt 1 (fun i => (i : ℝ)) 0 ∧
      betaAt 1 (at' (knotTimes start (durations (kicked R D)))) i = betaAt 1 (fun i => (i : ℝ)) 0 := by
    intro i hi; simp [aAt, betaAt, hi]; simp [hAt]
  have eb : betaAt 1 (at' (knotTimes start (durations (kicked R D)))) 3 = betaAt 1 (fun i => (i : ℝ) * D) 0 := by
    simp [betaAt, h3]; simp [hAt]
  have r0 := hz.row 0 (by norm_num)
  have r1 := hz.row 1 (by norm_num)
  have r2 := hz.row 2 (by norm_num)
  have z4 : z 4 = 0 := hz.last
  norm_num at r0 r1 r2
  rw [(ea 0 h0).1, (ea 0 h0).2, (ea 1 h1).1, (ea 1 h1).2, gammaAt, gammaAt, h0, h1, kicked_values, hz.first] at r0
  rw [(ea 1 h1).1, (ea 1 h1).2, (ea 2 h2).1, (ea 2 h2).2, gammaAt, gammaAt, h1, h2, kicked_values] at r1
  rw [(ea 2 h2).1, (ea 2 h2).2, eb, gammaAt, gammaAt, h2, h3, kicked_values, z4] at r2
  simp [at'] at r0 r1 r2
  refine ⟨z, ⟨hz.first, z4, ?_, r1, r2⟩, ?_, ?_⟩
  · linarith
  · intro x x0 x1
    have := hz.value 0 (by norm_num) x (by rw [k0, show 5 - 3 + 1 + 1 = 4 from rfl, k4]; constructor <;> linarith)
      (by rw [k1]; exact x1) (Or.inl rfl)
    rw [this]
    simp only [pieceOf, interpolation, Func.value, hz.first, kicked_values, k0, k1]
    simp [at']
  · intro u u0 u1
    have hx : start + 3 + D - u ∈ Set.Icc (at' (knotTimes start (durations (kicked R D))) 0)
        (at' (knotTimes start (durations (kicked R D))) (5 - 3 + 1 + 1)) := by
      rw [k0, show 5 - 3 + 1 + 1 = 4 from rfl, k4]; constructor <;> linarith
    have a1 := hz.value 3 (by norm_num) _ hx (by rw [k4]; linarith) (Or.inr (by rw [k3]; linarith))
    have a2 := hz.slope 3 (by norm_num) _ hx (by rw [k4]; linarith) (Or.inr (by rw [k3]; linarith))
    rw [a1, a2]
    simp only [pieceOf, interpolation, Func.value, Func.slope, kicked_values, k3, k4, z4]
    simp [at']
    constructor <;> ring

/-- The accelerations at the knots are bounded, however long the last segment takes. -/
theorem Knotted.bound : ∃ M : ℝ, 0 < M ∧ ∀ D z, 0 < D → Knotted D z → |z 3| ≤ M := by
  have ap : 0 < aAt 1 (fun i => (i : ℝ)) 0 := a_pos one_pos (by simp [hAt])
  have ab : aAt 1 (fun i => (i : ℝ)) 0 < betaAt 1 (fun i => (i : ℝ)) 0 := a_lt_beta one_pos (by simp [hAt])
  refine ⟨2 / (betaAt 1 (fun i => (i : ℝ)) 0 - aAt 1 (fun i => (i : ℝ)) 0), by have := sub_pos.2 ab; positivity, ?_⟩
  intro D z hD K
  have bp : 0 < betaAt 1 (fun i => (i : ℝ) * D) 0 := by
    have h1 : 0 < aAt 1 (fun i => (i : ℝ) * D) 0 := a_pos one_pos (by simpa [hAt] using hD)
    have h2 : aAt 1 (fun i => (i : ℝ) * D) 0 < betaAt 1 (fun i => (i : ℝ) * D) 0 := a_lt_beta one_pos (by simpa [hAt] using hD)
    linarith
  have r0 := K.row0
  have r1 := K.row1
  have r2 := K.row2
  generalize aAt 1 (fun i => (i : ℝ)) 0 = a at *
  generalize betaAt 1 (fun i => (i : ℝ)) 0 = b at *
  generalize betaAt 1 (fun i => (i : ℝ) * D) 0 = c at *
  rw [le_div_iff₀ (sub_pos.2 ab)]
  have q0 : (b + b) * |z 1| ≤ 2 + a * |z 2| := by
    have : (b + b) * z 1 = -2 - a * z 2 := by linarith
    calc (b + b) * |z 1| = |(b + b) * z 1| := by rw [abs_mul, abs_of_pos (by linarith : 0 < b + b)]
      _ = |-2 - a * z 2| := by rw [this]
      _ ≤ |(-2 : ℝ)| + |a * z 2| := abs_sub _ _
      _ = 2 + a * |z 2| := by rw [abs_mul, abs_of_pos ap]; norm_num
  have q1 : (b + b) * |z 2| ≤ 1 + a * |z 1| + a * |z 3| := by
    have : (b + b) * z 2 = 1 - a * z 1 - a * z 3 := by linarith
    calc (b + b) * |z 2| = |(b + b) * z 2| := by rw [abs_mul, abs_of_pos (by linarith : 0 < b + b)]
      _ = |1 - a * z 1 - a * z 3| := by rw [this]
      _ ≤ |1 - a * z 1| + |a * z 3| := abs_sub _ _
      _ ≤ |(1 : ℝ)| + |a * z 1| + |a * z 3| := by linarith [abs_sub (1 : ℝ) (a * z 1)]
      _ = 1 + a * |z 1| + a * |z 3| := by rw [abs_mul, abs_mul, abs_of_pos ap]; norm_num
  have q2 : b * |z 3| ≤ a * |z 2| := by
    have : (b + c) * z 3 = - (a * z 2) := by linarith
    have h : (b + c) * |z 3| = a * |z 2| := by
      calc (b + c) * |z 3| = |(b + c) * z 3| := by rw [abs_mul, abs_of_pos (by linarith : 0 < b + c)]
        _ = a * |z 2| := by rw [this, abs_neg, abs_mul, abs_of_pos ap]
    nlinarith [abs_nonneg (z 3)]
  have p1 := abs_nonneg (z 1)
  have p2 := abs_nonneg (z 2)
  have p3 := abs_nonneg (z 3)
  -- `|z 3| ≤ |z 2|`
  have m3 : |z 3| ≤ |z 2| := by
    have : b * |z 3| ≤ b * |z 2| := q2.trans (mul_le_mul_of_nonneg_right ab.le p2)
    exact le_of_mul_le_mul_left this (by linarith)
  rcases le_total (|z 1|) (|z 2|) with h | h
  · nlinarith
  · nlinarith

/-- Two such splines with different last segments do not have the same acceleration at the second knot. -/
theorem beta_lt {D : ℝ} (h : 1 < D) : betaAt 1 (fun i => (i : ℝ)) 0 < betaAt 1 (fun i => (i : ℝ) * D) 0 := by
  have key : StrictMonoOn (fun h : ℝ => Real.cosh h / Real.sinh h - 1 / h) (Set.Ici 1) := by
    apply strictMonoOn_of_deriv_pos (convex_Ici 1)
    · intro x hx
      have hx0 : (0 : ℝ) < x := lt_of_lt_of_le one_pos hx
      have hs := Real.sinh_pos_iff.2 hx0
      exact ((Real.continuous_cosh.continuousAt.div Real.continuous_sinh.continuousAt hs.ne').sub
        (continuousAt_const.div continuousAt_id hx0.ne')).continuousWithinAt
    · intro x hx
      rw [interior_Ici] at hx
      have hx0 : (0 : ℝ) < x := one_pos.trans hx
      have hs := Real.sinh_pos_iff.2 hx0
      have hd : HasDerivAt (fun h : ℝ => Real.cosh h / Real.sinh h - 1 / h)
          ((Real.sinh x * Real.sinh x - Real.cosh x * Real.cosh x) / Real.sinh x ^ 2 - (0 * x - 1 * 1) / x ^ 2) x :=
        ((Real.hasDerivAt_cosh x).div (Real.hasDerivAt_sinh x) hs.ne').sub ((hasDerivAt_const x 1).div (hasDerivAt_id x) hx0.ne')
      rw [hd.deriv]
      have e : Real.sinh x * Real.sinh x - Real.cosh x * Real.cosh x = -1 := by
        have := Real.cosh_sq x; nlinarith
      rw [e]
      have hl := Real.self_lt_sinh_iff.2 hx0
      have : (1 : ℝ) / Real.sinh x ^ 2 < 1 / x ^ 2 := by
        apply one_div_lt_one_div_of_lt (by positivity)
        nlinarith
      have e2 : (-1 : ℝ) / Real.sinh x ^ 2 - (0 * x - 1 * 1) / x ^ 2 = 1 / x ^ 2 - 1 / Real.sinh x ^ 2 := by ring
      rw [e2]
      linarith
  have := key (Set.mem_Ici.2 le_rfl) (Set.mem_Ici.2 h.le) h
  simpa [betaAt, hAt] using this

theorem Knotted.differ {D : ℝ} {z z' : ℕ → ℝ} (h : 1 < D) (K : Knotted 1 z) (K' : Knotted D z') : z 1 ≠ z' 1 := by
  intro e1
  have ap : 0 < aAt 1 (fun i => (i : ℝ)) 0 := a_pos one_pos (by simp [hAt])
  have ab : aAt 1 (fun i => (i : ℝ)) 0 < betaAt 1 (fun i => (i : ℝ)) 0 := a_lt_beta one_pos (by simp [hAt])
  have hb := beta_lt h
  have r0 := K.row0
  have r1 := K.row1
  have r2 := K.row2
  have s0 := K'.row0
  have s1 := K'.row1
  have s2 := K'.row2
  simp only [mul_one] at r2
  generalize aAt 1 (fun i => (i : ℝ)) 0 = a at *
  generalize betaAt 1 (fun i => (i : ℝ)) 0 = b at *
  generalize betaAt 1 (fun i => (i : ℝ) * D) 0 = c at *
  rw [← e1] at s0 s1
  have e2 : z 2 = z' 2 := by
    have : a * (z 2 - z' 2) = 0 := by linear_combination r0 - s0
    have := (mul_eq_zero.1 this).resolve_left ap.ne'
    linarith
  rw [← e2] at s1 s2
  have e3 : z 3 = z' 3 := by
    have : a * (z 3 - z' 3) = 0 := by linear_combination r1 - s1
    have := (mul_eq_zero.1 this).resolve_left ap.ne'
    linarith
  rw [← e3] at s2
  have h3 : z 3 = 0 := by
    have : (c - b) * z 3 = 0 := by linear_combination s2 - r2
    exact (mul_eq_zero.1 this).resolve_left (by linarith)
  rw [h3] at r2
  have h2 : z 2 = 0 := (mul_eq_zero.1 (by linear_combination r2 : a * z 2 = 0)).resolve_left ap.ne'
  rw [h3, h2] at r1
  rw [h2] at r0
  have : 0 < z 1 := by
    by_contra hn
    have := mul_nonpos_of_nonneg_of_nonpos ap.le (not_lt.1 hn)
    linarith
  nlinarith

theorem sinh_tenth : Real.sinh (1 / 10) / Real.sinh 1 ≠ 1 / 10 := by
  have hs : ∀ n : ℕ, (n : ℝ) * Real.sinh (1 / 10) ≤ Real.sinh (n * (1 / 10)) := by
    intro n
    induction n with
    | zero => simp
    | succ n ih =>
      have := sinh_add_le (a := n * (1 / 10)) (b := 1 / 10) (by positivity) (by norm_num)
      push_cast
      rw [show ((n : ℝ) + 1) * (1 / 10) = n * (1 / 10) + 1 / 10 by ring]
      linarith
  have p : 0 < Real.sinh (1 / 10) := Real.sinh_pos_iff.2 (by norm_num)
  have h5 := hs 5
  have h2 : Real.sinh 1 = 2 * Real.sinh (5 * (1 / 10)) * Real.cosh (5 * (1 / 10)) := by
    rw [← Real.sinh_two_mul]; norm_num
  have hc : 1 < Real.cosh (5 * (1 / 10)) := Real.one_lt_cosh.2 (by norm_num)
  push_cast at h5
  intro e
  have ps : 0 < Real.sinh 1 := Real.sinh_pos_iff.2 (by norm_num)
  rw [div_eq_iff ps.ne'] at e
  nlinarith

/-! ## The trailing quintic -/

theorem within_of_bound {amax xl xr : ℝ} {c : Coeffs ℝ} (h : xl ≤ xr) (hb : ∀ x ∈ Set.Icc xl xr, |dderivativeAt 5 c x| < |amax|) :
    Within amax xl xr c := by
  obtain ⟨x, hx, e⟩ := (Props.C55_maximum_cubic (derivative 4 (derivative 5 c)) xl xr h).1
  obtain ⟨y, hy, e'⟩ := (Props.C55_minimum_cubic (derivative 4 (derivative 5 c)) xl xr h).1
  constructor
  · rw [← e]; exact hb x hx
  · rw [← e']; exact hb y hy

/-- The acceleration of a quintic between states without acceleration, in terms of the share `u` of the time. -/
theorem quintic_second {xl xr y v w R u : ℝ} {c : Coeffs ℝ} (h : xl < xr) (hc : quinticInterpolation xl v w 0 xr y R 0 = .ok c) :
    dderivativeAt 5 c (xl + u * (xr - xl)) = ((60 * u - 180 * u ^ 2 + 120 * u ^ 3) * ((y - v) / (xr - xl)) -
      (36 * u - 96 * u ^ 2 + 60 * u ^ 3) * w - (24 * u - 84 * u ^ 2 + 60 * u ^ 3) * R) / (xr - xl) := by
  obtain ⟨c', hc', h0, h1, h2⟩ := shiftUnlessZero_spec (K := ℝ) (n := 5) (by omega)
    (ofList [v, w, 0 / 2, (20 * (y - v) - (8 * R + 12 * w) * (xr - xl) - (3 * 0 - 0) * (xr - xl) * (xr - xl)) / (2 * ((xr - xl) * (xr - xl) * (xr - xl))),
      (30 * (v - y) + (14 * R + 16 * w) * (xr - xl) + (-2 * 0 + 3 * 0) * (xr - xl) * (xr - xl)) / (2 * ((xr - xl) * (xr - xl) * (xr - xl) * (xr - xl))),
      (12 * (y - v) - (6 * R + 6 * w) * (xr - xl) - (0 - 0) * (xr - xl) * (xr - xl)) / (2 * ((xr - xl) * (xr - xl) * (xr - xl) * (xr - xl) * (xr - xl)))]) xl
  have e : quinticInterpolation xl v w 0 xr y R 0 = .ok c' := hc'
  rw [hc] at e
  cases e
  have hd : 0 < xr - xl := by linarith
  rw [h2, add_sub_cancel_left]
  set H := xr - xl with hH
  simp [dderivativeAt, Poly.derivative, eval, evalLoop, ofList]
  field_simp
  ring

/-- The share of the time. -/
theorem share {xl xr x : ℝ} (h : xl < xr) (hx : x ∈ Set.Icc xl xr) : ∃ u, x = xl + u * (xr - xl) ∧ 0 ≤ u ∧ u ≤ 1 := by
  have hd : 0 < xr - xl := by linarith
  refine ⟨(x - xl) / (xr - xl), by rw [div_mul_cancel₀ _ hd.ne']; ring, div_nonneg (by linarith [hx.1]) hd.le, ?_⟩
  rw [div_le_one hd]; linarith [hx.2]

/-- A quintic between states without acceleration accelerates little if it has much time. -/
theorem quintic_gentle {xl xr y v w R : ℝ} {c : Coeffs ℝ} (h : 1 ≤ xr - xl) (hc : quinticInterpolation xl v w 0 xr y R 0 = .ok c) :
    ∀ x ∈ Set.Icc xl xr, |dderivativeAt 5 c x| ≤ 360 * (|y - v| + |w| + |R|) / (xr - xl) := by
  intro x hx
  have hd : 0 < xr - xl := by linarith
  obtain ⟨u, e, u0, u1⟩ := share (by linarith) hx
  rw [e, quintic_second (by linarith) hc]
  set H := xr - xl with hH
  rw [abs_div, abs_of_pos hd]
  refine div_le_div_of_nonneg_right ?_ hd.le
  have uu : u ^ 2 ≤ 1 := by nlinarith
  have uuu : u ^ 3 ≤ 1 := by nlinarith [mul_nonneg u0 u0]
  have v2 : 0 ≤ u ^ 2 := by positivity
  have v3 : 0 ≤ u ^ 3 := by positivity
  have b1 : |60 * u - 180 * u ^ 2 + 120 * u ^ 3| ≤ 360 := by rw [abs_le]; constructor <;> linarith
  have b2 : |36 * u - 96 * u ^ 2 + 60 * u ^ 3| ≤ 360 := by rw [abs_le]; constructor <;> linarith
  have b3 : |24 * u - 84 * u ^ 2 + 60 * u ^ 3| ≤ 360 := by rw [abs_le]; constructor <;> linarith
  have hy : |(y - v) / H| ≤ |y - v| := by
    rw [abs_div, abs_of_pos hd]
    exact div_le_self (abs_nonneg _) h
  calc |(60 * u - 180 * u ^ 2 + 120 * u ^ 3) * ((y - v) / H) - (36 * u - 96 * u ^ 2 + 60 * u ^ 3) * w - (24 * u - 84 * u ^ 2 + 60 * u ^ 3) * R|
      ≤ |(60 * u - 180 * u ^ 2 + 120 * u ^ 3) * ((y - v) / H) - (36 * u - 96 * u ^ 2 + 60 * u ^ 3) * w| +
        |(24 * u - 84 * u ^ 2 + 60 * u ^ 3) * R| := abs_sub _ _
    _ ≤ |(60 * u - 180 * u ^ 2 + 120 * u ^ 3) * ((y - v) / H)| + |(36 * u - 96 * u ^ 2 + 60 * u ^ 3) * w| +
        |(24 * u - 84 * u ^ 2 + 60 * u ^ 3) * R| := by gcongr; exact abs_sub _ _
    _ ≤ 360 * |y - v| + 360 * |w| + 360 * |R| := by
      rw [abs_mul, abs_mul, abs_mul]
      gcongr
    _ = 360 * (|y - v| + |w| + |R|) := by ring

/-- A quintic that has to gain more than it may does not keep the limit. -/
theorem quintic_harsh {xl xr y v w R L : ℝ} {c : Coeffs ℝ} (h : xl < xr) (h1 : xr - xl ≤ 1)
    (hc : quinticInterpolation xl v w 0 xr y R 0 = .ok c) (hL : 0 ≤ L) (hR : L < R - w) : ¬ Within L xl xr c := by
  intro hw
  have hb := SmoothLinear.bound_of_within h.le hw
  obtain ⟨c', hc', a1, a2, a3, a4, a5, a6⟩ := Props.C53_quintic xl v w 0 xr y R 0 h.ne
  rw [hc] at hc'
  cases hc'
  obtain ⟨x, hx, e⟩ := exists_hasDerivAt_eq_slope (fun t => derivativeAt 5 c t) (fun t => dderivativeAt 5 c t) h
    (fun t _ => (SmoothLinear.hasDerivAt_derivativeAt 5 c t).continuousAt.continuousWithinAt)
    (fun t _ => SmoothLinear.hasDerivAt_derivativeAt 5 c t)
  simp only [a2, a5] at e
  have hv := hb x ⟨hx.1.le, hx.2.le⟩
  rw [e, abs_of_nonneg hL] at hv
  have hv := (le_abs_self _).trans hv
  rw [div_le_iff₀ (sub_pos.2 h)] at hv
  nlinarith

/-! ## The loops -/

theorem kicked_sum (R D : ℝ) : (durations (kicked R D)).sum = 3 + D := by rw [kicked_durations]; simp; ring

theorem coth_le {D : ℝ} (h : 1 ≤ D) : Real.cosh (D / 10) ≤ 2 * Real.sinh D := by
  have h1 : Real.cosh (D / 10) ≤ Real.cosh D := Real.cosh_le_cosh.2 (by rw [abs_of_nonneg (by linarith), abs_of_nonneg (by linarith)]; linarith)
  have h2 : Real.exp (-D) ≤ Real.exp D / 3 := by
    have e : Real.exp D = Real.exp (-D) * Real.exp (2 * D) := by rw [← Real.exp_add]; ring_nf
    have h3 := Real.add_one_le_exp (2 * D)
    have h4 := Real.exp_pos (-D)
    nlinarith
  rw [Real.cosh_eq D] at h1
  rw [Real.sinh_eq D]
  linarith

/-- For a long last segment the first attempt at the end succeeds. -/
theorem kicked_late (mode : Mode) (start R : ℝ) {L : ℝ} (hL : 0 < L) : ∃ D0 : ℝ, ∀ D, D0 ≤ D → 1 ≤ D → ∀ qs passes,
    ∃ tr, trailingLoop mode 1 [L] 1 start qs (passes + 1) (kicked R D) = some (.ok tr) ∧ tr.waypoints = kicked R D := by
  obtain ⟨M, hM, hb⟩ := Knotted.bound
  refine ⟨max 5 (5 * (360 * (2 * M + 3 * M + |R|) + 1) / L), fun D h0 h1 qs passes => ?_⟩
  rw [max_le_iff] at h0
  obtain ⟨h5, hbig⟩ := h0
  have hD : 0 < D := by linarith
  have hr := kicked_ready (R := R) hD
  have hlen := kicked_length R D
  obtain ⟨ss, eg, hs⟩ := generate_spec mode start hr (by omega) (tau := 1) one_pos
  have hw : wp (kicked R D) ((kicked R D).length - 2) = ⟨[0], [0], [1], D, true⟩ := by rw [hlen]; rfl
  have hw' : wp (kicked R D) ((kicked R D).length - 1) = ⟨[0], [R], [1], 0, true⟩ := by rw [hlen]; rfl
  obtain ⟨s, y, yd, c, g, hsp, hy, hyd, hc, hq⟩ := trailingQuintic_total mode hr (by omega) (t := D / 10) (by positivity)
    (by rw [hw]; show D / 10 ≤ D / 2; linarith) hs (j := 0) one_pos
  obtain ⟨z, K, -, hend⟩ := kicked_solved hD hsp
  obtain ⟨e1, e2⟩ := hend (D / 10) (by positivity) (by linarith)
  have hz := hb D z hD K
  rw [kicked_sum, ← add_assoc] at hy hyd hc hq
  rw [e1] at hy
  rw [e2] at hyd
  have hy := Outcome.ok.inj hy
  have hyd := Outcome.ok.inj hyd
  have hsD := Real.sinh_pos_iff.2 hD
  have by1 : |y| ≤ 2 * M := by
    rw [← hy]
    have a1 : |z 3 * Real.sinh (D / 10) / Real.sinh D| ≤ M := by
      rw [abs_div, abs_mul, abs_of_pos hsD, abs_of_pos (Real.sinh_pos_iff.2 (by positivity)), div_le_iff₀ hsD]
      exact mul_le_mul hz (Real.sinh_le_sinh.2 (by linarith)) (Real.sinh_nonneg_iff.2 (by positivity)) hM.le
    have a2 : |z 3 * (D / 10) / D| ≤ M := by
      rw [show z 3 * (D / 10) / D = z 3 / 10 by field_simp, abs_div]
      norm_num
      linarith [abs_nonneg (z 3)]
    exact (abs_sub _ _).trans (by linarith)
  have by2 : |yd| ≤ 3 * M := by
    rw [← hyd]
    have a1 : |-(z 3 * Real.cosh (D / 10) / Real.sinh D)| ≤ 2 * M := by
      rw [abs_neg, abs_div, abs_mul, abs_of_pos hsD, abs_of_pos (Real.cosh_pos _), div_le_iff₀ hsD]
      calc |z 3| * Real.cosh (D / 10) ≤ M * (2 * Real.sinh D) := mul_le_mul hz (coth_le h1) (Real.cosh_pos _).le hM.le
        _ = 2 * M * Real.sinh D := by ring
    have a2 : |z 3 / D| ≤ M := by
      rw [abs_div, abs_of_pos hD]
      exact (div_le_self (abs_nonneg _) h1).trans hz
    exact (abs_add_le _ _).trans (by linarith)
  have hwithin : Within L (start + 3 + D - D / 10) (start + 3 + D + D / 10) c := by
    refine within_of_bound (by linarith) fun x hx => ?_
    have hg := quintic_gentle (by linarith) hc x hx
    refine hg.trans_lt ?_
    rw [hw', show start + 3 + D + D / 10 - (start + 3 + D - D / 10) = D / 5 by ring, abs_of_pos hL, div_lt_iff₀ (by positivity)]
    rw [div_le_iff₀ hL] at hbig
    have e0 : |at' ([0] : List ℝ) 0 - y| ≤ 2 * M := by
      rw [show at' ([0] : List ℝ) 0 = 0 from rfl, zero_sub, abs_neg]; exact by1
    have e3 : at' ([R] : List ℝ) 0 = R := rfl
    simp only [e3]
    nlinarith
  have hquint : quintics [L] (trailingQuintic mode (wp (kicked R D) ((kicked R D).length - 1)) ss (start + (durations (kicked R D)).sum)
      ((wp (kicked R D) ((kicked R D).length - 2)).duration / 10)) (List.range 1) = .ok (some [c]) := by
    rw [hw, kicked_sum, ← add_assoc]
    show quintics [L] _ [0] = _
    rw [quintics]
    simp only
    rw [hq]
    simp only [Outcome.bind, quintics]
    rw [if_pos (show Within (at' [L] 0) _ _ c from hwithin)]
    rfl
  exact trailingLoop_now mode one_pos start hr eg hs hquint qs passes

/-- From any duration on the loop ends, with a last segment at least as long. -/
theorem kicked_ends (mode : Mode) (start R : ℝ) {L : ℝ} (hL : 0 < L) (qs : List (Coeffs ℝ)) {D0 : ℝ}
    (hlate : ∀ D, D0 ≤ D → 1 ≤ D → ∀ qs passes, ∃ tr, trailingLoop mode 1 [L] 1 start qs (passes + 1) (kicked R D) = some (.ok tr) ∧
      tr.waypoints = kicked R D) :
    ∀ (n : ℕ) (D : ℝ), 1 ≤ D → D0 ≤ D * (11 / 10) ^ n →
      ∃ tr D', trailingLoop mode 1 [L] 1 start qs (n + 1) (kicked R D) = some (.ok tr) ∧ tr.waypoints = kicked R D' ∧ D ≤ D' := by
  intro n
  induction n with
  | zero =>
    intro D h1 h0
    obtain ⟨tr, e, w⟩ := hlate D (by simpa using h0) h1 qs 0
    exact ⟨tr, D, e, w, le_refl _⟩
  | succ n ih =>
    intro D h1 h0
    have hD : 0 < D := by linarith
    have hr := kicked_ready (R := R) hD
    have hlen := kicked_length R D
    obtain ⟨ss, eg, hs⟩ := generate_spec mode start hr (by omega) (tau := 1) one_pos
    obtain ⟨s0, g0, hs0⟩ := made_get hs one_pos
    obtain ⟨o, e, -⟩ := attempts_spec (attempt := trailingAttempt mode 1 [L] (kicked R D) ss)
      (fun i h1 h5 => by
        obtain ⟨t, r, h, -⟩ := trailingAttempt_spec mode one_pos [L] hr (by omega) hs h1 h5
        exact ⟨_, h⟩) 5 1 (le_refl 1) (le_refl 6)
    rw [trailingLoop, show 2 * start / 2 = start by ring, eg]
    simp only
    rw [e]
    cases o with
    | none =>
      obtain ⟨tr, D', a, b, c⟩ := ih (D * (11 / 10)) (by linarith) (by rw [pow_succ] at h0; linarith)
      refine ⟨tr, D', ?_, b, by linarith⟩
      simp only
      rw [kicked_stretch]
      exact a
    | some p =>
      simp only [Outcome.bind]
      rw [Arr_get_some mode g0]
      exact ⟨_, D, rfl, rfl, le_refl _⟩

/-- With a large rate all attempts fail at first. -/
theorem kicked_first (mode : Mode) (start : ℝ) {L : ℝ} (hL : 0 < L) : ∃ R, ∀ (qs : List (Coeffs ℝ)) (passes : ℕ),
    trailingLoop mode 1 [L] 1 start qs (passes + 1) (kicked R 1) = trailingLoop mode 1 [L] 1 start qs passes (kicked R (11 / 10)) := by
  obtain ⟨ss0, -, hs0⟩ := generate_spec mode start (kicked_ready (R := 0) one_pos) (by rw [kicked_length]; norm_num) (tau := 1) one_pos
  obtain ⟨s, -, hsp⟩ := made_get hs0 one_pos
  have hr0 := kicked_ready (R := 0) one_pos
  obtain ⟨Y, hY⟩ : ∃ Y, ∀ x ∈ Set.Icc start (start + 4), ∀ v, slope mode s x = .ok v → |v| ≤ Y := by
    obtain ⟨z, hz⟩ := hsp
    obtain ⟨f, f', f'', h1, h2, h3, h4⟩ := hz.smooth one_pos
    obtain ⟨-, -, k3, k4, -⟩ := knots_spec hr0 start
    rw [kicked_sum] at k4
    rw [k3, kicked_length, show 5 - 3 + 2 = 5 - 1 by norm_num, ← kicked_length 0 1, k4,
      show start + (3 + 1) = start + 4 by ring] at h1 h3
    obtain ⟨Y, hY⟩ := isCompact_Icc.exists_bound_of_continuousOn (f := f') fun x hx => (h3 x hx).continuousWithinAt
    refine ⟨Y, fun x hx v hv => ?_⟩
    rw [(h1 x hx).2.1] at hv
    rw [← Outcome.ok.inj hv]
    exact hY x hx
  refine ⟨L + Y + 1, fun qs passes => ?_⟩
  have hr := kicked_ready (R := L + Y + 1) one_pos
  have hlen := kicked_length (L + Y + 1) 1
  obtain ⟨ss, eg, hs⟩ := generate_spec mode start hr (by omega) (tau := 1) one_pos
  have hfail : ∀ i, 1 ≤ i → i ≤ 5 → ∃ t, trailingAttempt mode 1 [L] (kicked (L + Y + 1) 1) ss i = .ok (t, none) := by
    intro i i1 i5
    obtain ⟨t, r, h, t0, t1, hq⟩ := trailingAttempt_spec mode one_pos [L] hr (by omega) hs i1 i5
    cases r with
    | none => exact ⟨t, h⟩
    | some qs =>
      exfalso
      obtain ⟨c, -, s', y, yd, hs', hy, hyd, hc, hw⟩ := made_get (hq qs rfl) one_pos
      have hw1 : wp (kicked (L + Y + 1) 1) ((kicked (L + Y + 1) 1).length - 2) = ⟨[0], [0], [1], 1, true⟩ := by rw [hlen]; rfl
      have hw2 : wp (kicked (L + Y + 1) 1) ((kicked (L + Y + 1) 1).length - 1) = ⟨[0], [L + Y + 1], [1], 0, true⟩ := by rw [hlen]; rfl
      rw [hw1] at t1
      rw [hw2] at hc
      rw [kicked_sum] at hyd hc hw
      have := (kicked_splined (R' := 0) hs').unique hsp
      subst this
      have hyv := hY _ (by simp only at t1; constructor <;> linarith) yd hyd
      have hyl := (abs_le.1 hyv).2
      refine quintic_harsh (by linarith) (by simp only at t1; linarith) hc hL.le ?_ hw
      show L < L + Y + 1 - yd
      linarith
  have hnone : attempts (trailingAttempt mode 1 [L] (kicked (L + Y + 1) 1) ss) 5 1 = .ok none := by
    obtain ⟨t1, f1⟩ := hfail 1 (by norm_num) (by norm_num)
    obtain ⟨t2, f2⟩ := hfail 2 (by norm_num) (by norm_num)
    obtain ⟨t3, f3⟩ := hfail 3 (by norm_num) (by norm_num)
    obtain ⟨t4, f4⟩ := hfail 4 (by norm_num) (by norm_num)
    obtain ⟨t5, f5⟩ := hfail 5 (by norm_num) (by norm_num)
    simp [attempts, f1, f2, f3, f4, f5, Outcome.bind]
  rw [trailingLoop, show 2 * start / 2 = start by ring, eg]
  simp only
  rw [hnone]
  simp only
  rw [kicked_stretch, one_mul]

theorem kicked_configured (R D : ℝ) : configureEnds (kicked R D) = kicked R D := by
  show configureEnds ((⟨[0], [0], [1], 1, true⟩ : WayPoint) :: [⟨[1], [0], [1], 1, true⟩, ⟨[0], [0], [1], 1, true⟩, ⟨[0], [0], [1], D, true⟩] ++
    [⟨[0], [R], [1], 0, true⟩]) = _
  rw [LinearTrajectory.configureEnds_eq]
  rfl

/-- The position jumps where the leading quintic ends. -/
theorem kicked_jumps (mode : Mode) : ∃ (R L : ℝ) (passes : ℕ) (tr : Trajectory), 0 < L ∧
    tensionSplineInterpolation mode 1 [L] 1 passes (kicked R 1) = some (.ok tr) ∧ ¬ Unbroken (tr.value mode 0) 0 tr.duration := by
  have l0 : 3 ≤ (kicked 0 1).length := by rw [kicked_length]; norm_num
  have hr0 := kicked_ready (R := 0) one_pos
  obtain ⟨A1, hA1⟩ := splines_bounded mode (tau := 1) one_pos 0 hr0 l0
  obtain ⟨ss, eg, A2, hA2⟩ := leading_large mode (tau := 1) one_pos hr0 l0
  obtain ⟨L, hLdef⟩ : ∃ L, L = max 1 (max A1 A2) + 1 := ⟨_, rfl⟩
  have hL1 : A1 < L := by rw [hLdef]; linarith [le_max_left A1 A2, le_max_right 1 (max A1 A2)]
  have hL2 : A2 < L := by rw [hLdef]; linarith [le_max_right A1 A2, le_max_right 1 (max A1 A2)]
  have hL : 0 < L := by rw [hLdef]; linarith [le_max_left 1 (max A1 A2)]
  have hj : ∀ {A : ℝ}, A < L → ∀ j < 1, A < at' [L] j := by
    intro A h j hj
    obtain rfl : j = 0 := by omega
    exact h
  obtain ⟨qs, hqs⟩ := hA2 [L] (hj hL2)
  have e0 : (wp (kicked 0 1) 0).duration / 10 = 1 / 10 := rfl
  rw [e0] at eg hqs
  obtain ⟨R, hR⟩ := kicked_first mode (1 / 10) hL
  obtain ⟨D0, hD0⟩ := kicked_late mode (1 / 10) R hL
  obtain ⟨n, hn⟩ := pow_unbounded_of_one_lt D0 (by norm_num : (1 : ℝ) < 11 / 10)
  have hp : (0 : ℝ) < (11 / 10) ^ n := by positivity
  obtain ⟨tr, D', htr, hw, hD'⟩ := kicked_ends mode (1 / 10) R hL qs hD0 n (11 / 10) (by norm_num) (by linarith)
  have hr := kicked_ready (R := R) one_pos
  have l1 : 3 ≤ (kicked R 1).length := by rw [kicked_length]; norm_num
  have k1 : knotLoop mode 1 [L] 1 (n + 1 + 1) (kicked R 1) = some (.ok (kicked R 1)) := by
    refine knotLoop_now mode one_pos one_pos hr l1 (B := A1) ?_ [L] (hj hL1) _
    intro j hj s hs x x0 x1
    obtain rfl : j = 0 := by omega
    refine hA1 0 one_pos s (kicked_splined hs) x x0 ?_
    rw [kicked_sum] at x1 ⊢
    exact x1
  have k2 : leadingLoop mode 1 [L] 1 (n + 1 + 1) (configureEnds (kicked R 1)) = some (.ok (kicked R 1, 1 / 10, qs)) := by
    rw [kicked_configured]
    refine leadingLoop_now mode (ss := ss) ?_ ?_ _
    · rw [← eg]
      unfold generate
      show splineLoop _ _ _ _ [0] = splineLoop _ _ _ _ [0]
      simp only [splineLoop, kicked_values, kicked_durations]
      rfl
    · exact hqs
  have k3 : trailingLoop mode 1 [L] 1 (1 / 10) qs (n + 1 + 1) (kicked R 1) = some (.ok tr) := by rw [hR]; exact htr
  obtain ⟨hb, t, Ld⟩ := built one_pos one_pos hr l1 k1 k2 k3
  refine ⟨R, L, n + 1 + 1, tr, hL, ?_, ?_⟩
  · rw [interpolate_build mode [L] 1 _ (kicked_usable one_pos) (kicked_init mode R)]
    exact hb
  · intro hu
    obtain ⟨p, q, s, P⟩ := Ld.parts one_pos
    have h1 := Ld.value_meets one_pos P hu
    obtain ⟨s0, hs0, h2, -⟩ := P.lead.joins (by norm_num)
    rw [Ld.finished.first, ← h2] at h1
    have hsp := P.spline
    rw [hw] at hsp
    obtain ⟨z, K, v, -⟩ := kicked_solved one_pos hs0
    obtain ⟨z', K', v', -⟩ := kicked_solved (by linarith) hsp
    rw [v _ (by norm_num) (by norm_num), v' _ (by norm_num) (by norm_num)] at h1
    have h1 := Outcome.ok.inj h1
    refine K.differ (by linarith) K' ?_
    have hsn := sinh_tenth
    have e : (2 * (1 / 10) - 1 / 10 : ℝ) = 1 / 10 := by norm_num
    rw [e] at h1
    have h3 : (z 1 - z' 1) * (Real.sinh (1 / 10) / Real.sinh 1 - 1 / 10) = 0 := by linear_combination -h1
    have := (mul_eq_zero.1 h3).resolve_right (sub_ne_zero.2 hsn)
    linarith

end Ecl.TensionTrajectory
