import Verif.Lemmas.TensionTrajectoryStale

/-! # A tension spline trajectory whose middle part breaks the limit -/
set_option autoImplicit false
set_option linter.unusedSimpArgs false

namespace Ecl.TensionTrajectory
open Ecl Ecl.Poly Ecl.Manip Ecl.TensionSpline Ecl.Spec
open Ecl.SmoothLinear (Within)
open Ecl.LinearTrajectory (Kept Ready kept_refl kept_trans kept_get stretchOne configureEnds smooth_congr)
open Ecl.CubicSpline (at')

/-- One joint that moves with rate 1 from 0 to 303, to arrive with rate 2; the last segment takes `D`. -/
noncomputable def straight (D : ℝ) : List WayPoint :=
  [⟨[0], [0], [1], 300, true⟩, ⟨[300], [0], [1], 1, true⟩, ⟨[301], [0], [1], 1, true⟩, ⟨[302], [0], [1], D, true⟩,
    ⟨[303], [2], [1], 0, true⟩]

theorem straight_init (mode : Mode) : initialiseDurations mode 1 (straight 1) = .ok (straight 1) true := by
  cases mode <;> simp [initialiseDurations, straight, segmentLoop, jointLoop, Arr.get, Arr.rawGet, assertThrow, raiseDuration,
    List.range_succ, bind, Outcome.bind] <;> norm_num

theorem straight_fits (D : ℝ) : ∀ w ∈ straight D, Fits 1 w := by
  intro w hw
  simp only [straight, List.mem_cons, List.not_mem_nil, or_false] at hw
  rcases hw with rfl | rfl | rfl | rfl | rfl <;> exact ⟨rfl, rfl, rfl⟩

theorem straight_get {D : ℝ} (hD : 0 < D) : ∀ (i : ℕ) (w : WayPoint), (straight D)[i]? = some w → i + 1 < (straight D).length →
    0 < w.duration ∧ w.nominal = [1] := by
  intro i w hw hi
  simp only [straight, List.length_cons, List.length_nil] at hi
  have : i = 0 ∨ i = 1 ∨ i = 2 ∨ i = 3 := by omega
  rcases this with rfl | rfl | rfl | rfl <;> simp [straight] at hw <;> subst hw <;>
    first | exact ⟨hD, rfl⟩ | exact ⟨one_pos, rfl⟩ | exact ⟨by norm_num, rfl⟩

theorem straight_usable {D : ℝ} (hD : 0 < D) : Usable 5 (straight D) := by
  refine ⟨by simp [straight], ?_, ?_⟩
  · intro i w hw hi r hr
    rw [(straight_get hD i w hw hi).2] at hr
    simp at hr; rw [hr]; norm_num
  · intro i w next hs
    exact Or.inl (straight_get hD i w hs.1 (List.getElem?_eq_some_iff.1 hs.2).1).1

theorem straight_ready {D : ℝ} (hD : 0 < D) : Ready 1 (straight D) :=
  ⟨by simp [straight], straight_fits D, fun i w hw hi => by
    obtain ⟨h1, h2⟩ := straight_get hD i w hw hi
    refine ⟨h1, fun r hr => ?_⟩
    rw [h2] at hr
    simp at hr; rw [hr]; norm_num⟩

theorem straight_durations (D : ℝ) : durations (straight D) = [300, 1, 1, D] := by simp [durations, straight]
theorem straight_values (D : ℝ) : jointValues (straight D) 0 = [0, 300, 301, 302, 303] := by simp [jointValues, straight, at']
theorem straight_length (D : ℝ) : (straight D).length = 5 := by simp [straight]
theorem straight_sum (D : ℝ) : (durations (straight D)).sum = 302 + D := by rw [straight_durations]; simp; ring

theorem straight_stretch (D : ℝ) : (straight D).modify ((straight D).length - 2) (stretchOne (11 / 10)) = straight (D * (11 / 10)) := by
  simp [straight, stretchOne, List.modify, List.modifyTailIdx, List.modifyTailIdx.go, List.modifyHead]

theorem straight_configured (D : ℝ) : configureEnds (straight D) = straight D := by
  show configureEnds ((⟨[0], [0], [1], 300, true⟩ : WayPoint) :: [⟨[300], [0], [1], 1, true⟩, ⟨[301], [0], [1], 1, true⟩,
    ⟨[302], [0], [1], D, true⟩] ++ [⟨[303], [2], [1], 0, true⟩]) = _
  rw [LinearTrajectory.configureEnds_eq]
  rfl

/-! ## The spline -/

/-- The equations for the accelerations at the knots. -/
structure Bends (D : ℝ) (z : ℕ → ℝ) : Prop where
  first : z 0 = 0
  last : z 4 = 0
  row0 : (betaAt 1 (fun i => (i : ℝ) * 300) 0 + betaAt 1 (fun i => (i : ℝ)) 0) * z 1 + aAt 1 (fun i => (i : ℝ)) 0 * z 2 = 0
  row1 : aAt 1 (fun i => (i : ℝ)) 0 * z 1 + (betaAt 1 (fun i => (i : ℝ)) 0 + betaAt 1 (fun i => (i : ℝ)) 0) * z 2 +
    aAt 1 (fun i => (i : ℝ)) 0 * z 3 = 0
  row2 : aAt 1 (fun i => (i : ℝ)) 0 * z 2 + (betaAt 1 (fun i => (i : ℝ)) 0 + betaAt 1 (fun i => (i : ℝ) * D) 0) * z 3 = 1 / D - 1

theorem straight_knots (start D : ℝ) :
    at' (knotTimes start (durations (straight D))) 0 = start ∧ at' (knotTimes start (durations (straight D))) 1 = start + 300 ∧
    at' (knotTimes start (durations (straight D))) 2 = start + 301 ∧ at' (knotTimes start (durations (straight D))) 3 = start + 302 ∧
    at' (knotTimes start (durations (straight D))) 4 = start + 302 + D := by
  rw [straight_durations]
  refine ⟨?_, ?_, ?_, ?_, ?_⟩ <;> simp [knotTimes, at'] <;> ring

theorem straight_solved {mode : Mode} {start D : ℝ} (hD : 0 < D) {s : TensionSpline.Spline} (h : Splined mode 1 start (straight D) 0 s) :
    ∃ z, Bends D z ∧
      (∀ x, start ≤ x → x ≤ start + 300 →
        value mode s x = .ok (z 1 * Real.sinh (x - start) / Real.sinh 300 + (300 - z 1) * (x - start) / 300) ∧
        slope mode s x = .ok (z 1 * Real.cosh (x - start) / Real.sinh 300 + (300 - z 1) / 300)) ∧
      (∀ u, 0 ≤ u → u < D →
        value mode s (start + 302 + D - u) = .ok (303 - u / D + (z 3 * Real.sinh u / Real.sinh D - z 3 * u / D)) ∧
        slope mode s (start + 302 + D - u) = .ok (1 / D + (-(z 3 * Real.cosh u / Real.sinh D) + z 3 / D))) ∧
      curvature mode s (start + 302) = .ok (z 3) ∧
      (∀ B, (∀ i ≤ 4, |z i| ≤ B) → ∀ x, start ≤ x → x ≤ start + 302 + D → ∃ v, curvature mode s x = .ok v ∧ |v| ≤ B) := by
  obtain ⟨z, hz⟩ := h
  rw [straight_length] at hz
  obtain ⟨k0, k1, k2, k3, k4⟩ := straight_knots start D
  have h0 : hAt (at' (knotTimes start (durations (straight D)))) 0 = 300 := by rw [hAt, k1, k0]; ring
  have h1 : hAt (at' (knotTimes start (durations (straight D)))) 1 = 1 := by rw [hAt, k2, k1]; ring
  have h2 : hAt (at' (knotTimes start (durations (straight D)))) 2 = 1 := by rw [hAt, k3, k2]; ring
  have h3 : hAt (at' (knotTimes start (durations (straight D)))) 3 = D := by rw [hAt, k4, k3]; ring
  have ea : ∀ i, hAt (at' (knotTimes start (durations (straight D)))) i = 1 →
      aAt 1 (at' (knotTimes start (durations (straight D)))) i = aAt 1 (fun i => (i : ℝ)) 0 ∧
      betaAt 1 (at' (knotTimes start (durations (straight D)))) i = betaAt 1 (fun i => (i : ℝ)) 0 := by
    intro i hi; simp [aAt, betaAt, hi]; simp [hAt]
  have eb : betaAt 1 (at' (knotTimes start (durations (straight D)))) 3 = betaAt 1 (fun i => (i : ℝ) * D) 0 := by
    simp [betaAt, h3]; simp [hAt]
  have ec : betaAt 1 (at' (knotTimes start (durations (straight D)))) 0 = betaAt 1 (fun i => (i : ℝ) * 300) 0 := by
    simp [betaAt, h0]; simp [hAt]
  have r0 := hz.row 0 (by norm_num)
  have r1 := hz.row 1 (by norm_num)
  have r2 := hz.row 2 (by norm_num)
  have z4 : z 4 = 0 := hz.last
  norm_num at r0 r1 r2
  rw [ec, (ea 1 h1).1, (ea 1 h1).2, gammaAt, gammaAt, h0, h1, straight_values, hz.first] at r0
  rw [(ea 1 h1).1, (ea 1 h1).2, (ea 2 h2).1, (ea 2 h2).2, gammaAt, gammaAt, h1, h2, straight_values] at r1
  rw [(ea 2 h2).1, (ea 2 h2).2, eb, gammaAt, gammaAt, h2, h3, straight_values, z4] at r2
  simp [at'] at r0 r1 r2
  norm_num at r0 r1 r2
  have hs300 : Real.sinh 300 ≠ 0 := (Real.sinh_pos_iff.2 (by norm_num)).ne'
  refine ⟨z, ⟨hz.first, z4, ?_, ?_, ?_⟩, ?_, ?_, ?_, ?_⟩
  · linarith
  · linarith
  · rw [one_div]; linarith
  · intro x x0 x1
    have hx : x ∈ Set.Icc (at' (knotTimes start (durations (straight D))) 0)
        (at' (knotTimes start (durations (straight D))) (5 - 3 + 1 + 1)) := by
      rw [k0, show 5 - 3 + 1 + 1 = 4 from rfl, k4]; constructor <;> linarith
    have a1 := hz.value 0 (by norm_num) x hx (by rw [k1]; exact x1) (Or.inl rfl)
    have a2 := hz.slope 0 (by norm_num) x hx (by rw [k1]; exact x1) (Or.inl rfl)
    rw [a1, a2]
    simp only [pieceOf, interpolation, Func.value, Func.slope, hz.first, straight_values, k0, k1]
    simp [at']
  · intro u u0 u1
    have hx : start + 302 + D - u ∈ Set.Icc (at' (knotTimes start (durations (straight D))) 0)
        (at' (knotTimes start (durations (straight D))) (5 - 3 + 1 + 1)) := by
      rw [k0, show 5 - 3 + 1 + 1 = 4 from rfl, k4]; constructor <;> linarith
    have a1 := hz.value 3 (by norm_num) _ hx (by rw [k4]; linarith) (Or.inr (by rw [k3]; linarith))
    have a2 := hz.slope 3 (by norm_num) _ hx (by rw [k4]; linarith) (Or.inr (by rw [k3]; linarith))
    rw [a1, a2]
    simp only [pieceOf, interpolation, Func.value, Func.slope, straight_values, k3, k4, z4]
    simp [at']
    have hs := (Real.sinh_pos_iff.2 hD).ne'
    constructor <;> field_simp <;> ring
  · have := hz.at_knot_curvature one_pos 3 (by norm_num)
    rw [k3] at this
    exact this
  · intro B hB x x0 x1
    refine hz.bounded one_pos (B := B) (fun i hi => hB i hi) ⟨by rw [k0]; exact x0, ?_⟩
    show x ≤ at' _ 4
    rw [k4]; exact x1

theorem beta_le_one {h : ℝ} (hh : 0 < h) : betaAt 1 (fun i => (i : ℝ) * h) 0 ≤ 1 := by
  have e : betaAt 1 (fun i => (i : ℝ) * h) 0 = Real.cosh h / Real.sinh h - 1 / h := by simp [betaAt, hAt]
  have hs := Real.sinh_pos_iff.2 hh
  have h1 : Real.cosh h - Real.sinh h = Real.exp (-h) := by rw [Real.cosh_eq, Real.sinh_eq]; ring
  have h2 : h * Real.exp (-h) ≤ Real.sinh h := by
    rw [Real.sinh_eq]
    have e2 : Real.exp h = Real.exp (-h) * Real.exp (2 * h) := by rw [← Real.exp_add]; ring_nf
    have h3 := Real.add_one_le_exp (2 * h)
    have h4 := Real.exp_pos (-h)
    nlinarith
  have h3 : Real.cosh h / Real.sinh h - 1 ≤ 1 / h := by
    rw [div_sub_one hs.ne', h1, div_le_div_iff₀ hs hh]
    linarith
  rw [e]; linarith

theorem beta_pos {h : ℝ} (hh : 0 < h) : 0 < betaAt 1 (fun i => (i : ℝ) * h) 0 := by
  have h1 : 0 < aAt 1 (fun i => (i : ℝ) * h) 0 := a_pos one_pos (by simpa [hAt] using hh)
  have h2 : aAt 1 (fun i => (i : ℝ) * h) 0 < betaAt 1 (fun i => (i : ℝ) * h) 0 := a_lt_beta one_pos (by simpa [hAt] using hh)
  linarith

/-- The acceleration at the last inner knot: bounded, and not less than half of the change of slope there; without
this change there is no acceleration at all. -/
theorem Bends.bound : ∃ M : ℝ, 0 < M ∧ ∀ D z, 1 ≤ D → Bends D z → |z 3| ≤ M ∧ (1 - 1 / D) / 2 ≤ |z 3| ∧
    (D = 1 → ∀ i ≤ 4, z i = 0) := by
  have ap : 0 < aAt 1 (fun i => (i : ℝ)) 0 := a_pos one_pos (by simp [hAt])
  have ab : aAt 1 (fun i => (i : ℝ)) 0 < betaAt 1 (fun i => (i : ℝ)) 0 := a_lt_beta one_pos (by simp [hAt])
  have b1 : betaAt 1 (fun i => (i : ℝ)) 0 ≤ 1 := by simpa using beta_le_one one_pos
  have dp : 0 < betaAt 1 (fun i => (i : ℝ) * 300) 0 := beta_pos (by norm_num)
  refine ⟨1 / (betaAt 1 (fun i => (i : ℝ)) 0 - aAt 1 (fun i => (i : ℝ)) 0), by have := sub_pos.2 ab; positivity, ?_⟩
  intro D z hD K
  have cp : 0 < betaAt 1 (fun i => (i : ℝ) * D) 0 := beta_pos (by linarith)
  have c1 : betaAt 1 (fun i => (i : ℝ) * D) 0 ≤ 1 := beta_le_one (by linarith)
  have r0 := K.row0
  have r1 := K.row1
  have r2 := K.row2
  have z0 := K.first
  have z4 := K.last
  generalize aAt 1 (fun i => (i : ℝ)) 0 = a at *
  generalize betaAt 1 (fun i => (i : ℝ)) 0 = b at *
  generalize betaAt 1 (fun i => (i : ℝ) * D) 0 = c at *
  generalize betaAt 1 (fun i => (i : ℝ) * 300) 0 = d at *
  have bp : 0 < b := by linarith
  have q0 : (d + b) * |z 1| = a * |z 2| := by
    have : (d + b) * z 1 = -(a * z 2) := by linarith
    calc (d + b) * |z 1| = |(d + b) * z 1| := by rw [abs_mul, abs_of_pos (by linarith : 0 < d + b)]
      _ = a * |z 2| := by rw [this, abs_neg, abs_mul, abs_of_pos ap]
  have q1 : (b + b) * |z 2| ≤ a * |z 1| + a * |z 3| := by
    have : (b + b) * z 2 = - (a * z 1) - a * z 3 := by linarith
    calc (b + b) * |z 2| = |(b + b) * z 2| := by rw [abs_mul, abs_of_pos (by linarith : 0 < b + b)]
      _ = |-(a * z 1) - a * z 3| := by rw [this]
      _ ≤ |-(a * z 1)| + |a * z 3| := abs_sub _ _
      _ = a * |z 1| + a * |z 3| := by rw [abs_neg, abs_mul, abs_mul, abs_of_pos ap]
  have p1 := abs_nonneg (z 1)
  have p2 := abs_nonneg (z 2)
  have p3 := abs_nonneg (z 3)
  have m1 : |z 1| ≤ |z 2| := by
    have : b * |z 1| ≤ b * |z 2| := by nlinarith
    exact le_of_mul_le_mul_left this bp
  have m2 : |z 2| ≤ |z 3| := by
    have : b * |z 2| ≤ b * |z 3| := by nlinarith
    exact le_of_mul_le_mul_left this bp
  have g0 : 0 ≤ 1 - 1 / D := by
    have : 1 / D ≤ 1 := by rw [div_le_one (by linarith)]; exact hD
    linarith
  have g1 : 0 < 1 / D := by positivity
  -- the sign of the middle row
  have sgn : z 2 * z 3 ≤ 0 := by
    have s1 : a * (z 1 * z 2) * (d + b) = -(a * z 2) ^ 2 := by
      have : (d + b) * z 1 = -(a * z 2) := by linarith
      linear_combination (a * z 2) * this
    have s2 : a * (z 2 * z 3) = -(a * (z 1 * z 2)) - (b + b) * z 2 ^ 2 := by linear_combination z 2 * r1
    have s3 : a * (z 2 * z 3) * (d + b) ≤ 0 := by
      have s4 : a * (z 2 * z 3) * (d + b) = (a * z 2) ^ 2 - (b + b) * (d + b) * z 2 ^ 2 := by
        linear_combination (d + b) * s2 - s1
      rw [s4]
      have s5 : a ^ 2 ≤ (b + b) * (d + b) := by nlinarith
      nlinarith [sq_nonneg (z 2)]
    have s4 : (a * (d + b)) * (z 2 * z 3) ≤ 0 := by linarith
    by_contra hn
    exact absurd (mul_pos (mul_pos ap (by linarith : 0 < d + b)) (not_le.1 hn)) (not_lt.2 s4)
  have e3 : (b + c) * |z 3| = (1 - 1 / D) + a * |z 2| := by
    rcases le_total (z 3) 0 with h3 | h3
    · have h2 : 0 ≤ z 2 := by
        rcases h3.lt_or_eq with h | h
        · by_contra hn
          exact absurd (mul_pos_of_neg_of_neg (not_le.1 hn) h) (not_lt.2 sgn)
        · have : |z 2| ≤ 0 := by rw [h, abs_zero] at m2; exact m2
          rw [abs_nonpos_iff.1 this]
      rw [abs_of_nonpos h3, abs_of_nonneg h2]
      linarith
    · -- then everything is zero
      have h2 : z 2 ≤ 0 := by
        rcases h3.lt_or_eq with h | h
        · by_contra hn
          exact absurd (mul_pos (not_le.1 hn) h) (not_lt.2 sgn)
        · have : |z 2| ≤ 0 := by rw [← h, abs_zero] at m2; exact m2
          rw [abs_nonpos_iff.1 this]
      have h4 : a * |z 2| ≤ b * |z 3| := by nlinarith
      rw [abs_of_nonneg h3, abs_of_nonpos h2] at h4
      have h5 : c * z 3 ≤ 0 := by nlinarith
      have h6 : z 3 = 0 := le_antisymm (by by_contra hn; exact absurd (mul_pos cp (not_le.1 hn)) (not_lt.2 h5)) h3
      have h7 : z 2 = 0 := by
        rw [h6, abs_zero] at m2
        exact abs_nonpos_iff.1 m2
      rw [h6, h7] at r2
      rw [h6, h7]
      simp at r2 ⊢
      linarith
  refine ⟨?_, ?_, ?_⟩
  · rw [le_div_iff₀ (sub_pos.2 ab)]
    nlinarith
  · nlinarith [mul_nonneg ap.le p2]
  · intro hD1 i hi
    rw [hD1] at e3
    have h3 : |z 3| ≤ 0 := by
      have : c * |z 3| ≤ 0 := by nlinarith
      by_contra hn
      exact absurd (mul_pos cp (not_le.1 hn)) (not_lt.2 this)
    have h2 := m2.trans h3
    have h1 := m1.trans h2
    have : i = 0 ∨ i = 1 ∨ i = 2 ∨ i = 3 ∨ i = 4 := by omega
    rcases this with rfl | rfl | rfl | rfl | rfl
    · exact z0
    · exact abs_nonpos_iff.1 h1
    · exact abs_nonpos_iff.1 h2
    · exact abs_nonpos_iff.1 h3
    · exact z4

/-! ## The loops -/

/-- If the last segment takes long enough the first attempt succeeds. -/
theorem straight_late (mode : Mode) (start : ℝ) {L : ℝ} (hL : 0 < L) : ∃ D0 : ℝ, ∀ D, D0 ≤ D → 1 ≤ D → ∀ qs passes,
    ∃ tr, trailingLoop mode 1 [L] 1 start qs (passes + 1) (straight D) = some (.ok tr) ∧ tr.waypoints = straight D := by
  obtain ⟨M, hM, hb⟩ := Bends.bound
  refine ⟨max 5 (5 * (360 * ((2 * M + 1) + (3 * M + 1) + 2) + 1) / L), fun D h0 h1 qs passes => ?_⟩
  rw [max_le_iff] at h0
  obtain ⟨h5, hbig⟩ := h0
  have hD : 0 < D := by linarith
  have hr := straight_ready hD
  have hlen := straight_length D
  obtain ⟨ss, eg, hs⟩ := generate_spec mode start hr (by omega) (tau := 1) one_pos
  have hw : wp (straight D) ((straight D).length - 2) = ⟨[302], [0], [1], D, true⟩ := by rw [hlen]; rfl
  have hw' : wp (straight D) ((straight D).length - 1) = ⟨[303], [2], [1], 0, true⟩ := by rw [hlen]; rfl
  obtain ⟨s, y, yd, c, g, hsp, hy, hyd, hc, hq⟩ := trailingQuintic_total mode hr (by omega) (t := D / 10) (by positivity)
    (by rw [hw]; show D / 10 ≤ D / 2; linarith) hs (j := 0) one_pos
  obtain ⟨z, K, -, hend, -⟩ := straight_solved hD hsp
  obtain ⟨e1, e2⟩ := hend (D / 10) (by positivity) (by linarith)
  have hz := (hb D z h1 K).1
  rw [straight_sum, ← add_assoc] at hy hyd hc hq
  rw [e1] at hy
  rw [e2] at hyd
  have hy := Outcome.ok.inj hy
  have hyd := Outcome.ok.inj hyd
  have hsD := Real.sinh_pos_iff.2 hD
  have by1 : |303 - y| ≤ 2 * M + 1 := by
    rw [← hy]
    have a1 : |z 3 * Real.sinh (D / 10) / Real.sinh D| ≤ M := by
      rw [abs_div, abs_mul, abs_of_pos hsD, abs_of_pos (Real.sinh_pos_iff.2 (by positivity)), div_le_iff₀ hsD]
      exact mul_le_mul hz (Real.sinh_le_sinh.2 (by linarith)) (Real.sinh_nonneg_iff.2 (by positivity)) hM.le
    have a2 : |z 3 * (D / 10) / D| ≤ M := by
      rw [show z 3 * (D / 10) / D = z 3 / 10 by field_simp, abs_div]
      norm_num
      linarith [abs_nonneg (z 3)]
    have a3 : D / 10 / D = 1 / 10 := by field_simp
    rw [a3, abs_le]
    rw [abs_le] at a1 a2
    constructor <;> linarith [a1.1, a1.2, a2.1, a2.2]
  have by2 : |yd| ≤ 3 * M + 1 := by
    rw [← hyd]
    have a1 : |-(z 3 * Real.cosh (D / 10) / Real.sinh D)| ≤ 2 * M := by
      rw [abs_neg, abs_div, abs_mul, abs_of_pos hsD, abs_of_pos (Real.cosh_pos _), div_le_iff₀ hsD]
      calc |z 3| * Real.cosh (D / 10) ≤ M * (2 * Real.sinh D) := mul_le_mul hz (coth_le h1) (Real.cosh_pos _).le hM.le
        _ = 2 * M * Real.sinh D := by ring
    have a2 : |z 3 / D| ≤ M := by
      rw [abs_div, abs_of_pos hD]
      exact (div_le_self (abs_nonneg _) h1).trans hz
    have a3 : |1 / D| ≤ 1 := by
      rw [abs_of_pos (by positivity), div_le_one hD]; exact h1
    exact (abs_add_le _ _).trans (by linarith [abs_add_le (-(z 3 * Real.cosh (D / 10) / Real.sinh D)) (z 3 / D)])
  have hwithin : Within L (start + 302 + D - D / 10) (start + 302 + D + D / 10) c := by
    refine within_of_bound (by linarith) fun x hx => ?_
    have hg := quintic_gentle (by linarith) hc x hx
    refine hg.trans_lt ?_
    rw [hw', show start + 302 + D + D / 10 - (start + 302 + D - D / 10) = D / 5 by ring, abs_of_pos hL, div_lt_iff₀ (by positivity)]
    rw [div_le_iff₀ hL] at hbig
    have e0 : |at' ([303] : List ℝ) 0 - y| ≤ 2 * M + 1 := by1
    have e3 : |at' ([2] : List ℝ) 0| = 2 := by rw [show at' ([2] : List ℝ) 0 = 2 from rfl]; norm_num
    simp only [e3]
    nlinarith
  have hquint : quintics [L] (trailingQuintic mode (wp (straight D) ((straight D).length - 1)) ss (start + (durations (straight D)).sum)
      ((wp (straight D) ((straight D).length - 2)).duration / 10)) (List.range 1) = .ok (some [c]) := by
    rw [hw, straight_sum, ← add_assoc]
    show quintics [L] _ [0] = _
    rw [quintics]
    simp only
    rw [hq]
    simp only [Outcome.bind, quintics]
    rw [if_pos (show Within (at' [L] 0) _ _ c from hwithin)]
    rfl
  exact trailingLoop_now mode one_pos start hr eg hs hquint qs passes

/-- From any duration on the loop ends, with a last segment at least as long. -/
theorem straight_ends (mode : Mode) (start : ℝ) {L : ℝ} (hL : 0 < L) (qs : List (Coeffs ℝ)) {D0 : ℝ}
    (hlate : ∀ D, D0 ≤ D → 1 ≤ D → ∀ qs passes, ∃ tr, trailingLoop mode 1 [L] 1 start qs (passes + 1) (straight D) = some (.ok tr) ∧
      tr.waypoints = straight D) :
    ∀ (n : ℕ) (D : ℝ), 1 ≤ D → D0 ≤ D * (11 / 10) ^ n →
      ∃ tr D', trailingLoop mode 1 [L] 1 start qs (n + 1) (straight D) = some (.ok tr) ∧ tr.waypoints = straight D' ∧ D ≤ D' := by
  intro n
  induction n with
  | zero =>
    intro D h1 h0
    obtain ⟨tr, e, w⟩ := hlate D (by simpa using h0) h1 qs 0
    exact ⟨tr, D, e, w, le_refl _⟩
  | succ n ih =>
    intro D h1 h0
    have hD : 0 < D := by linarith
    have hr := straight_ready hD
    have hlen := straight_length D
    obtain ⟨ss, eg, hs⟩ := generate_spec mode start hr (by omega) (tau := 1) one_pos
    obtain ⟨s0, g0, hs0⟩ := made_get hs one_pos
    obtain ⟨o, e, -⟩ := attempts_spec (attempt := trailingAttempt mode 1 [L] (straight D) ss)
      (fun i h1 h5 => by
        obtain ⟨t, r, h, -⟩ := trailingAttempt_spec mode one_pos [L] hr (by omega) hs h1 h5
        exact ⟨_, h⟩) 5 1 (le_refl 1) (le_refl 6)
    rw [trailingLoop, show 2 * start / 2 = start by ring, eg]
    simp only
    rw [e]
    cases o with
    | none =>
      obtain ⟨tr, D', a, b, c⟩ := ih (D * (11 / 10)) (by linarith) (by rw [pow_succ] at h0; linarith)
      refine ⟨tr, D', ?_, b, by linarith⟩
      simp only
      rw [straight_stretch]
      exact a
    | some p =>
      simp only [Outcome.bind]
      rw [Arr_get_some mode g0]
      exact ⟨_, D, rfl, rfl, le_refl _⟩

/-- At first all attempts fail: at most a second is too short to gain the rate 1. -/
theorem straight_first (mode : Mode) (start : ℝ) {L : ℝ} (hL : 0 < L) (hL1 : L < 1) (qs : List (Coeffs ℝ)) (passes : ℕ) :
    trailingLoop mode 1 [L] 1 start qs (passes + 1) (straight 1) = trailingLoop mode 1 [L] 1 start qs passes (straight (11 / 10)) := by
  have hr := straight_ready one_pos
  have hlen := straight_length 1
  obtain ⟨M, -, hb⟩ := Bends.bound
  obtain ⟨ss, eg, hs⟩ := generate_spec mode start hr (by omega) (tau := 1) one_pos
  have hfail : ∀ i, 1 ≤ i → i ≤ 5 → ∃ t, trailingAttempt mode 1 [L] (straight 1) ss i = .ok (t, none) := by
    intro i i1 i5
    obtain ⟨t, r, h, t0, t1, hq⟩ := trailingAttempt_spec mode one_pos [L] hr (by omega) hs i1 i5
    cases r with
    | none => exact ⟨t, h⟩
    | some qs =>
      exfalso
      obtain ⟨c, -, s', y, yd, hs', hy, hyd, hc, hw⟩ := made_get (hq qs rfl) one_pos
      have hw1 : wp (straight 1) ((straight 1).length - 2) = ⟨[302], [0], [1], 1, true⟩ := by rw [hlen]; rfl
      have hw2 : wp (straight 1) ((straight 1).length - 1) = ⟨[303], [2], [1], 0, true⟩ := by rw [hlen]; rfl
      rw [hw1] at t1
      rw [hw2] at hc
      rw [straight_sum] at hyd hc hw
      simp only at t1
      obtain ⟨z, K, -, hend, -⟩ := straight_solved one_pos hs'
      have z3 := (hb 1 z (le_refl _) K).2.2 rfl 3 (by norm_num)
      have e2 := (hend t t0.le (by linarith)).2
      rw [← add_assoc, e2, z3] at hyd
      have hyd := Outcome.ok.inj hyd
      refine quintic_harsh (by linarith) (by linarith) hc hL.le ?_ hw
      show L < 2 - yd
      rw [← hyd]
      norm_num
      exact hL1
  have hnone : attempts (trailingAttempt mode 1 [L] (straight 1) ss) 5 1 = .ok none := by
    obtain ⟨t1, f1⟩ := hfail 1 (by norm_num) (by norm_num)
    obtain ⟨t2, f2⟩ := hfail 2 (by norm_num) (by norm_num)
    obtain ⟨t3, f3⟩ := hfail 3 (by norm_num) (by norm_num)
    obtain ⟨t4, f4⟩ := hfail 4 (by norm_num) (by norm_num)
    obtain ⟨t5, f5⟩ := hfail 5 (by norm_num) (by norm_num)
    simp [attempts, f1, f2, f3, f4, f5, Outcome.bind]
  rw [trailingLoop, show 2 * start / 2 = start by ring, eg]
  simp only
  rw [hnone]
  simp only
  rw [straight_stretch, one_mul]

/-- The quintic at the start keeps the limit. -/
theorem straight_lead (mode : Mode) : ∃ ss qs, generate mode 1 1 30 (straight 1) = .ok ss ∧
    quintics [1 / 30] (leadingQuintic mode (wp (straight 1) 0) ss 30) (List.range 1) = .ok (some qs) := by
  have hr := straight_ready one_pos
  have hlen := straight_length 1
  obtain ⟨M, -, hb⟩ := Bends.bound
  obtain ⟨ss, eg, hs⟩ := generate_spec mode 30 hr (by omega) (tau := 1) one_pos
  have hw : wp (straight 1) 0 = ⟨[0], [0], [1], 300, true⟩ := rfl
  obtain ⟨s, y, yd, c, g, hsp, hy, hyd, hc, hq⟩ := leadingQuintic_total mode hr (by omega) (t := 30) (by norm_num)
    (by rw [hw]; norm_num) hs (j := 0) one_pos
  obtain ⟨z, K, hbeg, -⟩ := straight_solved one_pos hsp
  have z1 := (hb 1 z (le_refl _) K).2.2 rfl 1 (by norm_num)
  obtain ⟨e1, e2⟩ := hbeg (2 * 30) (by norm_num) (by norm_num)
  rw [e1, z1] at hy
  rw [e2, z1] at hyd
  have hy : y = 30 := by rw [← Outcome.ok.inj hy]; norm_num
  have hyd : yd = 1 := by rw [← Outcome.ok.inj hyd]; norm_num
  have hwithin : Within (1 / 30) 0 (2 * 30) c := by
    refine within_of_bound (by norm_num) fun x hx => ?_
    obtain ⟨u, e, u0, u1⟩ := share (by norm_num) hx
    rw [e, quintic_second (by norm_num) hc, hw, hy, hyd]
    simp only [show at' ([0] : List ℝ) 0 = 0 from rfl]
    rw [show ((60 * u - 180 * u ^ 2 + 120 * u ^ 3) * ((30 - 0) / (2 * 30 - 0)) - (36 * u - 96 * u ^ 2 + 60 * u ^ 3) * 0 -
      (24 * u - 84 * u ^ 2 + 60 * u ^ 3) * 1) / (2 * 30 - 0) = (u - u ^ 2) / 10 by ring, abs_of_pos (by norm_num : (0 : ℝ) < 1 / 30), abs_lt]
    constructor <;> nlinarith [sq_nonneg (u - 1 / 2)]
  refine ⟨ss, [c], eg, ?_⟩
  show quintics [1 / 30] _ [0] = _
  rw [quintics]
  rw [hq]
  simp only [Outcome.bind, quintics]
  rw [if_pos (show Within (at' [1 / 30] 0) _ _ c from hwithin)]
  rfl

/-- The middle part breaks the limit: the loop for the end stretches the last segment, which bends the spline at the
waypoint before, and nothing looks at the spline any more. -/
theorem straight_breaks (mode : Mode) : ∃ (passes : ℕ) (tr : Trajectory) (x v : ℝ),
    tensionSplineInterpolation mode 1 [1 / 30] 1 passes (straight 1) = some (.ok tr) ∧
    0 ≤ x ∧ x ≤ tr.duration ∧ tr.acceleration mode 0 x = .ok v ∧ 1 / 30 < |v| := by
  have hL : (0 : ℝ) < 1 / 30 := by norm_num
  have hr := straight_ready one_pos
  have l1 : 3 ≤ (straight 1).length := by rw [straight_length]; norm_num
  obtain ⟨M, -, hM⟩ := Bends.bound
  obtain ⟨ss, qs, eg, hqs⟩ := straight_lead mode
  obtain ⟨D0, hD0⟩ := straight_late mode 30 hL
  obtain ⟨n, hn⟩ := pow_unbounded_of_one_lt D0 (by norm_num : (1 : ℝ) < 11 / 10)
  have hp : (0 : ℝ) < (11 / 10) ^ n := by positivity
  obtain ⟨tr, D', htr, hw, hD'⟩ := straight_ends mode 30 hL qs hD0 n (11 / 10) (by norm_num) (by linarith)
  have k1 : knotLoop mode 1 [1 / 30] 1 (n + 1 + 1) (straight 1) = some (.ok (straight 1)) := by
    refine knotLoop_now mode one_pos one_pos hr l1 (B := 0) ?_ [1 / 30] ?_ _
    · intro j hj s hs x x0 x1
      obtain rfl : j = 0 := by omega
      obtain ⟨z, K, -, -, -, hB⟩ := straight_solved one_pos hs
      have hz := (hM 1 z (le_refl _) K).2.2 rfl
      rw [straight_sum, ← add_assoc] at x1
      exact hB 0 (fun i hi => by rw [hz i hi, abs_zero]) x x0 x1
    · intro j hj
      obtain rfl : j = 0 := by omega
      exact hL
  have e30 : (wp (straight 1) 0).duration / 10 = 30 := by
    show (300 : ℝ) / 10 = 30
    norm_num
  have k2 : leadingLoop mode 1 [1 / 30] 1 (n + 1 + 1) (configureEnds (straight 1)) = some (.ok (straight 1, 30, qs)) := by
    rw [straight_configured]
    have := leadingLoop_now mode (ss := ss) (ws := straight 1) (d := 1) (tau := 1) (amax := [1 / 30]) (qs := qs) (by rw [e30]; exact eg)
      (by rw [e30]; exact hqs) (n + 1)
    rw [e30] at this
    exact this
  have k3 : trailingLoop mode 1 [1 / 30] 1 30 qs (n + 1 + 1) (straight 1) = some (.ok tr) := by
    rw [straight_first mode 30 hL (by norm_num)]; exact htr
  obtain ⟨hb, t, Ld⟩ := built one_pos one_pos hr l1 k1 k2 k3
  obtain ⟨p, q, s, P⟩ := Ld.parts one_pos
  obtain ⟨f0, f1, f2⟩ := Ld.first_lt
  have F := Ld.finished
  have hsp := P.spline
  rw [hw] at hsp
  obtain ⟨z, K, -, -, hc, -⟩ := straight_solved (by linarith) hsp
  have hz := (hM D' z (by linarith) K).2.1
  have h4 := F.half
  have h5 := F.second
  rw [hw] at h4 h5
  rw [straight_sum] at h5
  have h4 : t ≤ D' / 2 := h4
  have x2 : (30 + 302 : ℝ) ≤ tr.second := by rw [h5]; linarith
  refine ⟨n + 1 + 1, tr, 30 + 302, z 3, ?_, by norm_num, by linarith, ?_, ?_⟩
  · rw [interpolate_build mode [1 / 30] 1 _ (straight_usable one_pos) (straight_init mode)]
    exact hb
  · exact (evaluate_second _ _ P.hp P.hs P.hq f0 f2 (by rw [F.first]; norm_num) x2).trans hc
  · have : 1 / D' ≤ 10 / 11 := by
      rw [div_le_div_iff₀ (by linarith) (by norm_num)]; linarith
    linarith

end Ecl.TensionTrajectory
