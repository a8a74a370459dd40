import Verif.Lemmas.CubicSplineNear

/-! # C126: cubic splines in floating point -/
set_option autoImplicit false
set_option linter.unusedSimpArgs false

namespace Ecl.Props.C126
open Ecl Ecl.Spec Ecl.SplineFloat Ecl.Glue Ecl.Poly Polynomial
open Ecl.PolyFloat (Close)
open Ecl.CubicSpline (at' at_getElem knots_of_pairwise second_piece slope_piece)

theorem degree (c : Coeffs ℝ) : (toPoly 3 c).natDegree ≤ 3 := by
  unfold toPoly
  refine natDegree_sum_le_of_forall_le _ _ fun i hi => ?_
  have : i < 4 := Finset.mem_range.1 hi
  exact (natDegree_C_mul_X_pow_le _ _).trans (by omega)

/-- The exact pieces with given second derivatives. -/
theorem exact_pieces {x y M : ℕ → ℝ} {m : ℕ} (hk : Knots x (m + 1)) : ∃ P : ℕ → ℝ[X], ∀ i, i < m + 1 →
    (P i).natDegree ≤ 3 ∧ (P i).eval (x i) = y i ∧ (P i).eval (x (i + 1)) = y (i + 1) ∧
    (P i).derivative.eval (x i) = (y (i + 1) - y i) / (x (i + 1) - x i) - (x (i + 1) - x i) * (2 * M i + M (i + 1)) / 6 ∧
    (P i).derivative.eval (x (i + 1)) =
      (y (i + 1) - y i) / (x (i + 1) - x i) + (x (i + 1) - x i) * (M i + 2 * M (i + 1)) / 6 ∧
    (P i).derivative.derivative.eval (x i) = M i ∧ (P i).derivative.derivative.eval (x (i + 1)) = M (i + 1) := by
  have : ∀ i, ∃ Q : ℝ[X], i < m + 1 → Q.natDegree ≤ 3 ∧ Q.eval (x i) = y i ∧ Q.eval (x (i + 1)) = y (i + 1) ∧
    Q.derivative.eval (x i) = (y (i + 1) - y i) / (x (i + 1) - x i) - (x (i + 1) - x i) * (2 * M i + M (i + 1)) / 6 ∧
    Q.derivative.eval (x (i + 1)) =
      (y (i + 1) - y i) / (x (i + 1) - x i) + (x (i + 1) - x i) * (M i + 2 * M (i + 1)) / 6 ∧
    Q.derivative.derivative.eval (x i) = M i ∧ Q.derivative.derivative.eval (x (i + 1)) = M (i + 1) := by
    intro i
    by_cases hi : i < m + 1
    · obtain ⟨c, -, h1, h2, h3, h4, h5, h6⟩ := second_piece (yi := y i) (zi := M i) (yf := y (i + 1)) (zf := M (i + 1)) (hk i hi)
      refine ⟨toPoly 3 c, fun _ => ⟨degree c, ?_⟩⟩
      rw [← toPoly_derivative, ← toPoly_derivative]
      simp only [eval_toPoly]
      exact ⟨h1, h2, h3, h4, h5, h6⟩
    · exact ⟨0, fun h => absurd h hi⟩
  choose P hP using this
  exact ⟨P, hP⟩

/-- The exact pieces with given slopes. -/
theorem exact_pieces_slopes {x y M : ℕ → ℝ} {m : ℕ} (hk : Knots x (m + 1)) : ∃ P : ℕ → ℝ[X], ∀ i, i < m + 1 →
    (P i).natDegree ≤ 3 ∧ (P i).eval (x i) = y i ∧ (P i).eval (x (i + 1)) = y (i + 1) ∧
    (P i).derivative.eval (x i) = M i ∧ (P i).derivative.eval (x (i + 1)) = M (i + 1) := by
  have : ∀ i, ∃ Q : ℝ[X], i < m + 1 → Q.natDegree ≤ 3 ∧ Q.eval (x i) = y i ∧ Q.eval (x (i + 1)) = y (i + 1) ∧
    Q.derivative.eval (x i) = M i ∧ Q.derivative.eval (x (i + 1)) = M (i + 1) := by
    intro i
    by_cases hi : i < m + 1
    · obtain ⟨c, -, h1, h2, h3, h4⟩ := slope_piece (yi := y i) (zi := M i) (yf := y (i + 1)) (zf := M (i + 1)) (hk i hi)
      refine ⟨toPoly 3 c, fun _ => ⟨degree c, ?_⟩⟩
      rw [← toPoly_derivative]
      simp only [eval_toPoly]
      exact ⟨h1, h2, h3, h4⟩
    · exact ⟨0, fun h => absurd h hi⟩
  choose P hP using this
  exact ⟨P, hP⟩

variable {fl : ℝ → ℝ}

/-- The errors of the second derivatives and of the pieces together. -/
theorem total {v d c Q Q' Q'' P P' P'' yi yf wi wf h r R : ℝ} (hr : 1 ≤ r) (hh : 0 < h) (hwi : |wi| ≤ 5 * R)
    (hwf : |wf| ≤ 5 * R)
    (a0 : |v - Q| ≤ 28 / 2 ^ 53 * (r ^ 3 * (2 * |yi| + |yf| + (4 / 3 * |wi| + 1 / 3 * |wf|) * |h| ^ 2)))
    (a1 : |d - Q'| ≤ 28 / 2 ^ 53 * (r ^ 2 * ((|yf| + |yi|) / |h| + (13 / 6 * |wi| + 2 / 3 * |wf|) * |h|)))
    (a2 : |c - Q''| ≤ 28 / 2 ^ 53 * (r * (2 * |wi| + |wf|)))
    (b0 : |Q - P| ≤ 200 * (1 / 2 ^ 53 * R) * h ^ 2 / 6) (b1 : |Q' - P'| ≤ 2 / 3 * (200 * (1 / 2 ^ 53 * R)) * h)
    (b2 : |Q'' - P''| ≤ 200 * (1 / 2 ^ 53 * R)) :
    |v - P| ≤ 28 / 2 ^ 53 * (r ^ 3 * (2 * |yi| + |yf| + 10 * R * h ^ 2)) ∧
    |d - P'| ≤ 28 / 2 ^ 53 * (r ^ 2 * ((|yi| + |yf|) / h + 19 * R * h)) ∧
    |c - P''| ≤ 28 / 2 ^ 53 * (r * (23 * R)) := by
  have hR : 0 ≤ R := by linarith [abs_nonneg wi]
  rw [abs_of_pos hh] at a0 a1
  rw [add_comm |yf| |yi|] at a1
  have hu : (28 : ℝ) / 2 ^ 53 = 28 * (1 / 2 ^ 53) := by ring
  have hup := unit_pos
  rw [hu] at a0 a1 a2 ⊢
  generalize (1 : ℝ) / 2 ^ 53 = u at *
  have r2 : 1 ≤ r ^ 2 := one_le_pow₀ hr
  have r3 : 1 ≤ r ^ 3 := one_le_pow₀ hr
  have tri : ∀ a b e : ℝ, |a - e| ≤ |a - b| + |b - e| := fun a b e => abs_sub_le a b e
  have hRh2 : 0 ≤ R * h ^ 2 := by positivity
  have hRh : 0 ≤ R * h := by positivity
  have w1 : (4 / 3 * |wi| + 1 / 3 * |wf|) * h ^ 2 ≤ 25 / 3 * R * h ^ 2 :=
    mul_le_mul_of_nonneg_right (by linarith) (by positivity)
  have w2 : (13 / 6 * |wi| + 2 / 3 * |wf|) * h ≤ 85 / 6 * R * h :=
    mul_le_mul_of_nonneg_right (by linarith) hh.le
  have w3 : 2 * |wi| + |wf| ≤ 15 * R := by linarith
  refine ⟨(tri v Q P).trans ?_, (tri d Q' P').trans ?_, (tri c Q'' P'').trans ?_⟩
  · have k1 : 28 * u * (r ^ 3 * (2 * |yi| + |yf| + (4 / 3 * |wi| + 1 / 3 * |wf|) * h ^ 2)) ≤
        28 * u * (r ^ 3 * (2 * |yi| + |yf| + 25 / 3 * R * h ^ 2)) := by gcongr
    have k2 : u * (R * h ^ 2) ≤ u * (r ^ 3 * (R * h ^ 2)) :=
      mul_le_mul_of_nonneg_left (le_mul_of_one_le_left hRh2 r3) hup.le
    have k3 : 0 ≤ u * (r ^ 3 * (R * h ^ 2)) := by positivity
    linarith
  · have k1 : 28 * u * (r ^ 2 * ((|yi| + |yf|) / h + (13 / 6 * |wi| + 2 / 3 * |wf|) * h)) ≤
        28 * u * (r ^ 2 * ((|yi| + |yf|) / h + 85 / 6 * R * h)) := by gcongr
    have k2 : u * (R * h) ≤ u * (r ^ 2 * (R * h)) :=
      mul_le_mul_of_nonneg_left (le_mul_of_one_le_left hRh r2) hup.le
    have k3 : 0 ≤ u * (r ^ 2 * (R * h)) := by positivity
    linarith
  · have k1 : 28 * u * (r * (2 * |wi| + |wf|)) ≤ 28 * u * (r * (15 * R)) := by gcongr
    have k2 : u * R ≤ u * (r * R) := mul_le_mul_of_nonneg_left (le_mul_of_one_le_left hR hr) hup.le
    have k3 : 0 ≤ u * (r * R) := by positivity
    linarith

/-- A spline made from second derivatives near those of the pieces. -/
theorem applied (hfl : Rounds 53 fl) (mode : Mode) {xs ys : List ℝ} {m : ℕ} (hm : xs.length = m + 2)
    (hlen : xs.length = ys.length) (hk : Knots (at' xs) (m + 1)) (M' : ℕ → ℝ) :
    ∃ s, applyC2 fl xs ys M' = .ok s ∧ ∀ (M : ℕ → ℝ) (P : ℕ → ℝ[X]) (R : ℝ),
      (∀ i, i < m + 1 → (P i).natDegree ≤ 3 ∧ (P i).eval (at' xs i) = at' ys i ∧
        (P i).eval (at' xs (i + 1)) = at' ys (i + 1) ∧ (P i).derivative.derivative.eval (at' xs i) = M i ∧
        (P i).derivative.derivative.eval (at' xs (i + 1)) = M (i + 1)) →
      (∀ i, i ≤ m + 1 → |M' i| ≤ 5 * R) → (∀ i, i ≤ m + 1 → |M' i - M i| ≤ 200 * (1 / 2 ^ 53 * R)) →
      Follows (value fl mode s) (slope fl mode s) (curvature fl mode s) xs ys P R := by
  have piece := fun i (hi : i < m + 1) => C124_cubic_curvatures_partial hfl (at' xs i) (at' ys i) (M' i)
    (at' xs (i + 1)) (at' ys (i + 1)) (M' (i + 1)) (hk i hi).ne
  obtain ⟨ps, h1, h2⟩ := answers mode hm hk (mk := fun i => PolyFloat.cubicSecondDerivativeInterpolation fl (at' xs i) (at' ys i)
    (M' i) (at' xs (i + 1)) (at' ys (i + 1)) (M' (i + 1))) (fun j hj => by
      obtain ⟨c, hc, -⟩ := piece j hj
      exact ⟨c, hc⟩)
  refine ⟨⟨xs, ps⟩, by unfold applyC2; rw [h1]; rfl, ?_⟩
  intro M P R hP hM hnear i hx hy x hx3 hx1 hx2
  have hi : i < m + 1 := by omega
  obtain ⟨c, hc, Q, q0, q1, q2, q3, q4, hQ⟩ := piece i hi
  obtain ⟨p0, p1, p2, p3, p4⟩ := hP i hi
  have hlt := hk i hi
  have hb1 := hM i (by omega)
  have hb2 := hM (i + 1) (by omega)
  have hn1 := hnear i (by omega)
  have hn2 := hnear (i + 1) (by omega)
  have e1 : at' xs i = xs[i] := at_getElem (by omega)
  have e2 : at' xs (i + 1) = xs[i + 1] := at_getElem hx
  have e3 : at' ys i = ys[i] := at_getElem (by omega)
  have e4 : at' ys (i + 1) = ys[i + 1] := at_getElem hy
  rw [← e1] at hx1 hx3
  rw [← e2] at hx2
  rw [← e1, ← e2, ← e3, ← e4]
  have ans := h2 i c hi hc x hx1 hx2 hx3
  refine ⟨_, _, _, ans _, ans _, ans _, fun r hr hrx => ?_⟩
  have hpos := sub_pos.2 hlt
  obtain ⟨b0, b1, b2⟩ := pieces_near_curvatures (e := 200 * (1 / 2 ^ 53 * R)) q0 p0 hlt (q1.trans p1.symm) (q3.trans p2.symm)
    (by rw [q2, p3]; exact hn1) (by rw [q4, p4]; exact hn2) hx1 hx2
  obtain ⟨a0, a1, a2⟩ := hQ x r hr (by rw [abs_of_pos hpos]; exact hrx)
  exact total hr hpos hb1 hb2 a0 a1 a2 b0 b1 b2

/-- The conditions a cubic spline of class C² satisfies, from its second derivatives. -/
theorem smooth {xs ys : List ℝ} {m : ℕ} (hm : xs.length = m + 2) (hlen : xs.length = ys.length)
    {M : ℕ → ℝ} {P : ℕ → ℝ[X]} (hk : Knots (at' xs) (m + 1))
    (hM : ∀ i, i < m → (at' xs (i + 1) - at' xs i) * M i + 2 * (at' xs (i + 2) - at' xs i) * M (i + 1) +
      (at' xs (i + 2) - at' xs (i + 1)) * M (i + 2) =
        6 * ((at' ys (i + 2) - at' ys (i + 1)) / (at' xs (i + 2) - at' xs (i + 1)) -
          (at' ys (i + 1) - at' ys i) / (at' xs (i + 1) - at' xs i)))
    (hP : ∀ i, i < m + 1 → (P i).natDegree ≤ 3 ∧ (P i).eval (at' xs i) = at' ys i ∧
      (P i).eval (at' xs (i + 1)) = at' ys (i + 1) ∧
      (P i).derivative.eval (at' xs i) = (at' ys (i + 1) - at' ys i) / (at' xs (i + 1) - at' xs i) -
        (at' xs (i + 1) - at' xs i) * (2 * M i + M (i + 1)) / 6 ∧
      (P i).derivative.eval (at' xs (i + 1)) = (at' ys (i + 1) - at' ys i) / (at' xs (i + 1) - at' xs i) +
        (at' xs (i + 1) - at' xs i) * (M i + 2 * M (i + 1)) / 6 ∧
      (P i).derivative.derivative.eval (at' xs i) = M i ∧
      (P i).derivative.derivative.eval (at' xs (i + 1)) = M (i + 1)) :
    PiecesThrough xs ys P ∧ SlopesMeet xs P ∧ CurvaturesMeet xs P := by
  refine ⟨fun i hx hy => ?_, fun i hx => ?_, fun i hx => ?_⟩
  · obtain ⟨h1, h2, h3, -⟩ := hP i (by omega)
    rw [at_getElem (by omega), at_getElem (by omega)] at h2
    rw [at_getElem (by omega), at_getElem (by omega)] at h3
    exact ⟨h1, h2, h3⟩
  · obtain ⟨-, -, -, -, h1, -⟩ := hP i (by omega)
    obtain ⟨-, -, -, h2, -⟩ := hP (i + 1) (by omega)
    have e : at' xs (i + 1) = xs[i + 1] := at_getElem (by omega)
    rw [← e, h1, h2]
    have := hM i (by omega)
    simp only [show i + 1 + 1 = i + 2 by omega]
    linarith
  · obtain ⟨-, -, -, -, -, -, h1⟩ := hP i (by omega)
    obtain ⟨-, -, -, -, -, h2, -⟩ := hP (i + 1) (by omega)
    have e : at' xs (i + 1) = xs[i + 1] := at_getElem (by omega)
    rw [← e, h1, h2]

theorem sizes {xs ys : List ℝ} {m : ℕ} (hm : xs.length = m + 2) (hlen : xs.length = ys.length) {R : ℝ}
    (h : DifferencesWithin xs ys R) : ∀ i, i < m → SplineFloat.size (at' xs) (at' ys) i ≤ R := by
  intro i hi
  have := h.2 i (by omega) (by omega)
  unfold SplineFloat.size
  rw [at_getElem (xs := xs) (i := i) (by omega), at_getElem (xs := xs) (i := i + 1) (by omega),
    at_getElem (xs := xs) (i := i + 2) (by omega), at_getElem (xs := ys) (i := i) (by omega),
    at_getElem (xs := ys) (i := i + 1) (by omega), at_getElem (xs := ys) (i := i + 2) (by omega)]
  exact this

/-- A computed end row. -/
theorem end_close (hfl : Rounds 53 fl) {h a g : ℝ} (hh : h ≠ 0) :
    Close 53 9 (fl (fl (3 / fl h) * fl (fl (fl a / fl h) - g))) (3 / h * (a / h - g)) (3 / |h| * (|a / h| + |g|)) ∧
    Close 53 9 (fl (fl (3 / fl h) * fl (g - fl (fl a / fl h)))) (3 / h * (g - a / h)) (3 / |h| * (|a / h| + |g|)) := by
  have hp : 1 ≤ 53 := by norm_num
  have h1 : Close 53 1 (fl h) h |h| := (Close.exact h).round hfl hp
  have h3 := ((Close.exact (3 : ℝ)).div h1 hh (PolyFloat.small 1 (by norm_num))).round hfl hp
  rw [abs_of_pos (by norm_num : (0 : ℝ) < 3)] at h3
  have hq := ratio_close hfl a hh
  have hg : Close 53 4 g g |g| := (Close.exact g).more 4 (by norm_num)
  have k1 := (h3.mul ((hq.sub hg).round hfl hp)).round hfl hp
  have k2 := (h3.mul ((hg.sub hq).round hfl hp)).round hfl hp
  rw [add_comm |g|] at k2
  exact ⟨k1, k2⟩

/-- The errors of the slopes and of the pieces together. -/
theorem total_slopes {v d Q Q' P P' yi dy vi vf h r G : ℝ} (hr : 1 ≤ r) (hh : 0 < h) (hvi : |vi| ≤ 101 / 100 * G)
    (hvf : |vf| ≤ 101 / 100 * G)
    (a0 : |v - Q| ≤ 26 / 2 ^ 53 * (r ^ 3 * (|yi| + 5 * |dy| + (4 * |vi| + 2 * |vf|) * |h|)))
    (a1 : |d - Q'| ≤ 26 / 2 ^ 53 * (r ^ 2 * (12 * |dy| / |h| + 8 * |vi| + 5 * |vf|)))
    (b0 : |Q - P| ≤ 10 * (1 / 2 ^ 53) * G * h / 4) (b1 : |Q' - P'| ≤ 2 * (10 * (1 / 2 ^ 53) * G)) :
    |v - P| ≤ 26 / 2 ^ 53 * (r ^ 3 * (|yi| + 5 * |dy| + 7 * G * h)) ∧
    |d - P'| ≤ 26 / 2 ^ 53 * (r ^ 2 * (12 * |dy| / h + 14 * G)) := by
  have hG : 0 ≤ G := by linarith [abs_nonneg vi]
  rw [abs_of_pos hh] at a0 a1
  have hu : (26 : ℝ) / 2 ^ 53 = 26 * (1 / 2 ^ 53) := by ring
  have hup := unit_pos
  rw [hu] at a0 a1 ⊢
  generalize (1 : ℝ) / 2 ^ 53 = u at *
  have r2 : 1 ≤ r ^ 2 := one_le_pow₀ hr
  have r3 : 1 ≤ r ^ 3 := one_le_pow₀ hr
  have hGh : 0 ≤ G * h := by positivity
  have w1 : (4 * |vi| + 2 * |vf|) * h ≤ 606 / 100 * G * h := mul_le_mul_of_nonneg_right (by linarith) hh.le
  have w2 : 12 * |dy| / h + 8 * |vi| + 5 * |vf| ≤ 12 * |dy| / h + 1313 / 100 * G := by linarith
  refine ⟨(abs_sub_le v Q P).trans ?_, (abs_sub_le d Q' P').trans ?_⟩
  · have k1 : 26 * u * (r ^ 3 * (|yi| + 5 * |dy| + (4 * |vi| + 2 * |vf|) * h)) ≤
        26 * u * (r ^ 3 * (|yi| + 5 * |dy| + 606 / 100 * G * h)) := by gcongr
    have k2 : u * (G * h) ≤ u * (r ^ 3 * (G * h)) :=
      mul_le_mul_of_nonneg_left (le_mul_of_one_le_left hGh r3) hup.le
    have k3 : 0 ≤ u * (r ^ 3 * (G * h)) := by positivity
    linarith
  · have k1 : 26 * u * (r ^ 2 * (12 * |dy| / h + 8 * |vi| + 5 * |vf|)) ≤
        26 * u * (r ^ 2 * (12 * |dy| / h + 1313 / 100 * G)) := by gcongr
    have k2 : u * G ≤ u * (r ^ 2 * G) := mul_le_mul_of_nonneg_left (le_mul_of_one_le_left hG r2) hup.le
    have k3 : 0 ≤ u * (r ^ 2 * G) := by positivity
    linarith

/-- A spline made from slopes near those of the pieces. -/
theorem applied_slopes (hfl : Rounds 53 fl) (mode : Mode) {xs ys : List ℝ} {m : ℕ} (hm : xs.length = m + 2)
    (hk : Knots (at' xs) (m + 1)) (M' : ℕ → ℝ) :
    ∃ s, applyHeuristic fl xs ys M' = .ok s ∧ ∀ (M : ℕ → ℝ) (P : ℕ → ℝ[X]) (G : ℝ),
      (∀ i, i < m + 1 → (P i).natDegree ≤ 3 ∧ (P i).eval (at' xs i) = at' ys i ∧
        (P i).eval (at' xs (i + 1)) = at' ys (i + 1) ∧ (P i).derivative.eval (at' xs i) = M i ∧
        (P i).derivative.eval (at' xs (i + 1)) = M (i + 1)) →
      (∀ i, i ≤ m + 1 → |M' i| ≤ 101 / 100 * G) → (∀ i, i ≤ m + 1 → |M' i - M i| ≤ 10 * (1 / 2 ^ 53) * G) →
      FollowsOnce (value fl mode s) (slope fl mode s) xs ys P G := by
  have piece := fun i (hi : i < m + 1) => C124_cubic_slopes_partial hfl (at' xs i) (at' ys i) (M' i)
    (at' xs (i + 1)) (at' ys (i + 1)) (M' (i + 1)) (hk i hi).ne
  obtain ⟨ps, h1, h2⟩ := answers mode hm hk (mk := fun i => PolyFloat.cubicDerivativeInterpolation fl (at' xs i) (at' ys i)
    (M' i) (at' xs (i + 1)) (at' ys (i + 1)) (M' (i + 1))) (fun j hj => by
      obtain ⟨c, hc, -⟩ := piece j hj
      exact ⟨c, hc⟩)
  refine ⟨⟨xs, ps⟩, by unfold applyHeuristic; rw [h1]; rfl, ?_⟩
  intro M P G hP hM hnear i hx hy x hx3 hx1 hx2
  have hi : i < m + 1 := by omega
  obtain ⟨c, hc, Q, q0, q1, q2, q3, q4, hQ⟩ := piece i hi
  obtain ⟨p0, p1, p2, p3, p4⟩ := hP i hi
  have hlt := hk i hi
  have hb1 := hM i (by omega)
  have hb2 := hM (i + 1) (by omega)
  have hn1 := hnear i (by omega)
  have hn2 := hnear (i + 1) (by omega)
  have e1 : at' xs i = xs[i] := at_getElem (by omega)
  have e2 : at' xs (i + 1) = xs[i + 1] := at_getElem hx
  have e3 : at' ys i = ys[i] := at_getElem (by omega)
  have e4 : at' ys (i + 1) = ys[i + 1] := at_getElem hy
  rw [← e1] at hx1 hx3
  rw [← e2] at hx2
  rw [← e1, ← e2, ← e3, ← e4]
  have ans := h2 i c hi hc x hx1 hx2 hx3
  refine ⟨_, _, ans _, ans _, fun r hr hrx => ?_⟩
  have hpos := sub_pos.2 hlt
  obtain ⟨b0, b1⟩ := pieces_near_slopes (e := 10 * (1 / 2 ^ 53) * G) q0 p0 hlt (q1.trans p1.symm) (q3.trans p2.symm)
    (by rw [q2, p3]; exact hn1) (by rw [q4, p4]; exact hn2) hx1 hx2
  obtain ⟨a0, a1⟩ := hQ x r hr (by rw [abs_of_pos hpos]; exact hrx)
  exact total_slopes hr hpos hb1 hb2 a0 a1 b0 b1

theorem heuristicLoop_spec (x y : ℕ → ℝ) : ∀ (left i : ℕ) (yd : ℕ → ℝ) (j : ℕ),
    SplineFloat.heuristicLoop fl x y left i yd j =
      if i ≤ j ∧ j < i + left then
        fl (fl (fl (fl (y j - y (j - 1)) / fl (x j - x (j - 1))) + fl (fl (y (j + 1) - y j) / fl (x (j + 1) - x j))) / 2)
      else yd j := by
  intro left
  induction left with
  | zero => intro i yd j; rw [SplineFloat.heuristicLoop, if_neg (by omega)]
  | succ left ih =>
    intro i yd j
    rw [SplineFloat.heuristicLoop, ih]
    by_cases h : j = i
    · subst h
      rw [if_neg (by omega), if_pos (by omega), Function.update_self]
    · by_cases h' : i + 1 ≤ j ∧ j < i + 1 + left
      · rw [if_pos h', if_pos (by omega)]
      · rw [if_neg h', if_neg (by omega), Function.update_of_ne h]

/-- The mean of two rounded chords. -/
theorem mean_close (hfl : Rounds 53 fl) {a b c d G : ℝ} (hb : b ≠ 0) (hd : d ≠ 0) (h1 : |a / b| ≤ G) (h2 : |c / d| ≤ G) :
    Close 53 9 (fl (fl (fl (fl a / fl b) + fl (fl c / fl d)) / 2)) ((a / b + c / d) / 2) G := by
  have hp : 1 ≤ 53 := by norm_num
  have k := ((((ratio_close hfl a hb).mono le_rfl h1).add ((ratio_close hfl c hd).mono le_rfl h2)).round hfl hp).div
    (Close.exact (2 : ℝ)) (by norm_num) (PolyFloat.small 0 (by norm_num))
  have k := k.round hfl hp
  rw [abs_of_pos (by norm_num : (0 : ℝ) < 2)] at k
  exact k.mono (by norm_num) (by linarith)

end Ecl.Props.C126

namespace Ecl.Props
open Ecl Ecl.Spec Ecl.SplineFloat Ecl.Props.C126 Polynomial
open Ecl.CubicSpline (at' at_getElem knots_of_pairwise)

/-- **C126.** The natural cubic spline computed in doubles through at least two points with increasing abscissae
follows the true natural cubic spline: on each interval value, slope and second derivative are those of its piece up to
28 units `2^-53` of the data, times powers of the distance from zero in lengths of the interval. -/
theorem C126_natural_partial {fl : ℝ → ℝ} (hfl : Rounds 53 fl) (mode : Mode) (xs ys : List ℝ)
    (hlen : xs.length = ys.length) (h2 : 2 ≤ xs.length) (hinc : xs.Pairwise (· < ·)) :
    ∃ s, natural fl mode xs ys = .ok s ∧ ∃ P : ℕ → ℝ[X],
      PiecesThrough xs ys P ∧ SlopesMeet xs P ∧ CurvaturesMeet xs P ∧
      (P 0).derivative.derivative.eval xs[0] = 0 ∧
      (P (xs.length - 2)).derivative.derivative.eval xs[xs.length - 1] = 0 ∧
      ∀ R, DifferencesWithin xs ys R →
        Follows (value fl mode s) (slope fl mode s) (curvature fl mode s) xs ys P R := by
  obtain ⟨m, hm⟩ : ∃ m, xs.length = m + 2 := ⟨xs.length - 2, by omega⟩
  have hk := knots_of_pairwise hinc (m := m + 1) (by omega)
  have hM := CubicSpline.secondDerivatives_spec (y := at' ys) hk (d0 := 0) (u0 := 0) (qn := 0) (un := 0)
    (by norm_num) (by norm_num)
  simp only at hM
  generalize CubicSpline.secondDerivatives (at' xs) (at' ys) (m + 2) 0 0 0 0 = M at hM
  obtain ⟨P, hP⟩ := exact_pieces (y := at' ys) (M := M) hk
  obtain ⟨s, h1, h3⟩ := applied hfl mode hm hlen hk (SplineFloat.secondDerivatives fl (at' xs) (at' ys) (m + 2) 0 0 0 0)
  obtain ⟨s1, s2, s3⟩ := smooth hm hlen hk hM.2.2 hP
  refine ⟨s, ?_, P, s1, s2, s3, ?_, ?_, fun R hR => ?_⟩
  · unfold natural naturalData
    rw [if_neg (by omega), if_neg (by rintro ⟨-, h⟩; exact h hlen), if_neg (by omega), hm]
    exact h1
  · rw [← at_getElem (xs := xs) (i := 0) (by omega), (hP 0 (by omega)).2.2.2.2.2.1, hM.1]; ring
  · have e : xs[xs.length - 1] = at' xs (m + 1) := by
      rw [at_getElem (by omega)]; congr 1; omega
    rw [e, show xs.length - 2 = m by omega, (hP m (by omega)).2.2.2.2.2.2]
    linarith [hM.2.1]
  · have hrows := secondDerivatives_rows hfl (y := at' ys) hk hR.1 (d0 := 0) (u0 := 0) (qn := 0) (un := 0)
      (by norm_num) (by norm_num) (by rw [abs_zero]; linarith [hR.1]) (by rw [abs_zero]; linarith [hR.1])
      (sizes hm hlen hR)
    simp only at hrows
    obtain ⟨r0, r1, r2, r3⟩ := hrows
    have hz : |(0 : ℝ) - 0| ≤ 10 * (1 / 2 ^ 53) * R := by
      have := hR.1
      rw [sub_zero, abs_zero]; positivity
    refine h3 M P R (fun i hi => ?_) r2
      (near_exact hk hR.1 (Or.inl ⟨rfl, rfl⟩) r0 r1 r3 hM.1 hM.2.1 hM.2.2 hz hz)
    obtain ⟨p1, p2, p3, -, -, p4, p5⟩ := hP i hi
    exact ⟨p1, p2, p3, p4, p5⟩

/-- **C126.** The clamped cubic spline computed in doubles likewise follows the true one, with the requested slopes at
its ends. -/
theorem C126_clamped_partial {fl : ℝ → ℝ} (hfl : Rounds 53 fl) (mode : Mode) (xs ys : List ℝ) (yd0 ydf : ℝ)
    (hlen : xs.length = ys.length) (h2 : 2 ≤ xs.length) (hinc : xs.Pairwise (· < ·)) :
    ∃ s, clamped fl mode xs ys yd0 ydf = .ok s ∧ ∃ P : ℕ → ℝ[X],
      PiecesThrough xs ys P ∧ SlopesMeet xs P ∧ CurvaturesMeet xs P ∧
      (P 0).derivative.eval xs[0] = yd0 ∧
      (P (xs.length - 2)).derivative.eval xs[xs.length - 1] = ydf ∧
      ∀ R, DifferencesWithin xs ys R →
        3 / (xs[1] - xs[0]) * (|(ys[1] - ys[0]) / (xs[1] - xs[0])| + |yd0|) ≤ R →
        3 / (xs[xs.length - 1] - xs[xs.length - 2]) *
          (|(ys[xs.length - 1] - ys[xs.length - 2]) / (xs[xs.length - 1] - xs[xs.length - 2])| + |ydf|) ≤ R →
        Follows (value fl mode s) (slope fl mode s) (curvature fl mode s) xs ys P R := by
  obtain ⟨m, hm⟩ : ∃ m, xs.length = m + 2 := ⟨xs.length - 2, by omega⟩
  have hk := knots_of_pairwise hinc (m := m + 1) (by omega)
  have hM := CubicSpline.secondDerivatives_spec (y := at' ys) hk (d0 := -0.5)
    (u0 := (3 / (at' xs 1 - at' xs 0)) * ((at' ys 1 - at' ys 0) / (at' xs 1 - at' xs 0) - yd0)) (qn := 0.5)
    (un := (3 / (at' xs (m + 1) - at' xs m)) *
      (ydf - (at' ys (m + 1) - at' ys m) / (at' xs (m + 1) - at' xs m)))
    (by norm_num) (by norm_num)
  simp only at hM
  generalize CubicSpline.secondDerivatives (at' xs) (at' ys) (m + 2) (-0.5) _ 0.5 _ = M at hM
  have hd0 : 0 < at' xs 1 - at' xs 0 := sub_pos.2 (hk 0 (by omega))
  have hdm : 0 < at' xs (m + 1) - at' xs m := sub_pos.2 (hk m (by omega))
  obtain ⟨P, hP⟩ := exact_pieces (y := at' ys) (M := M) hk
  obtain ⟨s, h1, h3⟩ := applied hfl mode hm hlen hk (SplineFloat.secondDerivatives fl (at' xs) (at' ys) (m + 2) (-0.5)
      (fl (fl (3 / fl (at' xs 1 - at' xs 0)) *
        fl (fl (fl (at' ys 1 - at' ys 0) / fl (at' xs 1 - at' xs 0)) - yd0))) 0.5
      (fl (fl (3 / fl (at' xs (m + 1) - at' xs m)) *
        fl (ydf - fl (fl (at' ys (m + 1) - at' ys m) / fl (at' xs (m + 1) - at' xs m))))))
  obtain ⟨s1, s2, s3⟩ := smooth hm hlen hk hM.2.2 hP
  have x0 : xs[0] = at' xs 0 := (at_getElem (by omega)).symm
  have x1 : xs[1] = at' xs 1 := (at_getElem (by omega)).symm
  have xl : xs[xs.length - 1] = at' xs (m + 1) := by rw [at_getElem (by omega)]; congr 1; omega
  have xk : xs[xs.length - 2] = at' xs m := by rw [at_getElem (by omega)]; congr 1; omega
  have y0 : ys[0] = at' ys 0 := (at_getElem (by omega)).symm
  have y1 : ys[1] = at' ys 1 := (at_getElem (by omega)).symm
  have yl : ys[xs.length - 1] = at' ys (m + 1) := by rw [at_getElem (by omega)]; congr 1; omega
  have yk : ys[xs.length - 2] = at' ys m := by rw [at_getElem (by omega)]; congr 1; omega
  refine ⟨s, ?_, P, s1, s2, s3, ?_, ?_, fun R hR hR0 hRn => ?_⟩
  · unfold clamped clampedData
    rw [if_neg (by omega), if_neg (by rintro ⟨-, h⟩; exact h hlen), if_neg (by omega), hm]
    exact h1
  · rw [x0, (hP 0 (by omega)).2.2.2.1, hM.1]
    have hd := hd0.ne'
    norm_num
    field_simp
    ring
  · rw [xl, show xs.length - 2 = m by omega, (hP m (by omega)).2.2.2.2.1]
    have hd := hdm.ne'
    have e := hM.2.1
    have e' : M m + 2 * M (m + 1) = 2 * ((3 / (at' xs (m + 1) - at' xs m)) *
      (ydf - (at' ys (m + 1) - at' ys m) / (at' xs (m + 1) - at' xs m))) := by
      rw [← e]; norm_num; ring
    rw [e']
    field_simp
    ring
  · rw [x0, x1, y0, y1] at hR0
    rw [xl, xk, yl, yk] at hRn
    have c0 := (end_close hfl (a := at' ys 1 - at' ys 0) (g := yd0) hd0.ne').1
    have cn := (end_close hfl (a := at' ys (m + 1) - at' ys m) (g := ydf) hdm.ne').2
    rw [abs_of_pos hd0] at c0
    rw [abs_of_pos hdm] at cn
    have c0 := c0.mono le_rfl hR0
    have cn := cn.mono le_rfl hRn
    have u0 := nine c0
    have un := nine cn
    have hR0' := hR.1
    have b0 := (near u0 c0.2).trans (show R + 10 * (1 / 2 ^ 53) * R ≤ 11 / 10 * R by linarith)
    have bn := (near un cn.2).trans (show R + 10 * (1 / 2 ^ 53) * R ≤ 11 / 10 * R by linarith)
    have hrows := secondDerivatives_rows hfl (y := at' ys) hk hR.1 (d0 := -0.5) (qn := 0.5)
      (by norm_num [abs_of_pos]) (by norm_num [abs_of_pos]) b0 bn (sizes hm hlen hR)
    simp only at hrows
    obtain ⟨r0, r1, r2, r3⟩ := hrows
    refine h3 M P R (fun i hi => ?_) r2
      (near_exact hk hR.1 (Or.inr ⟨rfl, rfl⟩) r0 r1 r3 hM.1 hM.2.1 hM.2.2 u0 un)
    obtain ⟨p1, p2, p3, -, -, p4, p5⟩ := hP i hi
    exact ⟨p1, p2, p3, p4, p5⟩

/-- **C126.** The heuristic cubic spline computed in doubles follows the true one: the pieces through the points whose
slopes at the inner ones are the means of the chords that meet there, with the requested slopes at the ends. -/
theorem C126_heuristic_partial {fl : ℝ → ℝ} (hfl : Rounds 53 fl) (mode : Mode) (xs ys : List ℝ) (yd0 ydf : ℝ)
    (hlen : xs.length = ys.length) (h2 : 2 ≤ xs.length) (hinc : xs.Pairwise (· < ·)) :
    ∃ s, heuristic fl mode xs ys yd0 ydf = .ok s ∧ ∃ P : ℕ → ℝ[X],
      PiecesThrough xs ys P ∧ SlopesMeet xs P ∧
      (∀ (i : ℕ) (hx : i + 2 < xs.length) (hy : i + 2 < ys.length), (P i).derivative.eval xs[i + 1] =
        ((ys[i + 1] - ys[i]) / (xs[i + 1] - xs[i]) + (ys[i + 2] - ys[i + 1]) / (xs[i + 2] - xs[i + 1])) / 2) ∧
      (P 0).derivative.eval xs[0] = yd0 ∧
      (P (xs.length - 2)).derivative.eval xs[xs.length - 1] = ydf ∧
      ∀ G, |yd0| ≤ G → |ydf| ≤ G →
        (∀ (i : ℕ) (hx : i + 1 < xs.length) (hy : i + 1 < ys.length), |(ys[i + 1] - ys[i]) / (xs[i + 1] - xs[i])| ≤ G) →
        FollowsOnce (value fl mode s) (slope fl mode s) xs ys P G := by
  obtain ⟨m, hm⟩ : ∃ m, xs.length = m + 2 := ⟨xs.length - 2, by omega⟩
  have hk := knots_of_pairwise hinc (m := m + 1) (by omega)
  set M : ℕ → ℝ := Function.update (CubicSpline.heuristicLoop (at' xs) (at' ys) m 1 (Function.update (fun _ => 0) 0 yd0))
    (m + 1) ydf with hMdef
  set M' : ℕ → ℝ := Function.update (SplineFloat.heuristicLoop fl (at' xs) (at' ys) m 1
    (Function.update (fun _ => 0) 0 yd0)) (m + 1) ydf with hMdef'
  have m0 : M 0 = yd0 ∧ M' 0 = yd0 := by
    rw [hMdef, hMdef', Function.update_of_ne (by omega), Function.update_of_ne (by omega),
      CubicSpline.heuristicLoop_spec, C126.heuristicLoop_spec, if_neg (by omega), if_neg (by omega)]
    simp
  have ml : M (m + 1) = ydf ∧ M' (m + 1) = ydf := by
    rw [hMdef, hMdef', Function.update_self, Function.update_self]; exact ⟨rfl, rfl⟩
  have mi : ∀ i, i < m → M (i + 1) = ((at' ys (i + 1) - at' ys i) / (at' xs (i + 1) - at' xs i) +
      (at' ys (i + 2) - at' ys (i + 1)) / (at' xs (i + 2) - at' xs (i + 1))) / 2 ∧
      M' (i + 1) = fl (fl (fl (fl (at' ys (i + 1) - at' ys i) / fl (at' xs (i + 1) - at' xs i)) +
        fl (fl (at' ys (i + 2) - at' ys (i + 1)) / fl (at' xs (i + 2) - at' xs (i + 1)))) / 2) := by
    intro i hi
    rw [hMdef, hMdef', Function.update_of_ne (by omega), Function.update_of_ne (by omega),
      CubicSpline.heuristicLoop_spec, C126.heuristicLoop_spec, if_pos (by omega), if_pos (by omega)]
    simp only [Nat.add_sub_cancel]
    exact ⟨trivial, trivial⟩
  have hat : ∀ (l : List ℝ) (i : ℕ) (h : i < l.length), l[i] = at' l i := fun l i h => (at_getElem h).symm
  obtain ⟨P, hP⟩ := exact_pieces_slopes (y := at' ys) (M := M) hk
  obtain ⟨s, h1, h3⟩ := applied_slopes hfl mode (ys := ys) hm hk M'
  have xl : xs[xs.length - 1] = at' xs (m + 1) := by rw [at_getElem (by omega)]; congr 1; omega
  refine ⟨s, ?_, P, fun i hx hy => ?_, fun i hx => ?_, fun i hx hy => ?_, ?_, ?_, fun G hG0 hGf hG => ?_⟩
  · unfold heuristic heuristicData
    rw [if_neg (by rintro ⟨-, h⟩; exact h hlen), if_neg (by omega), hm]
    exact h1
  · obtain ⟨p0, p1, p2, -⟩ := hP i (by omega)
    rw [hat, hat, hat, hat]
    exact ⟨p0, p1, p2⟩
  · rw [hat, (hP i (by omega)).2.2.2.2, (hP (i + 1) (by omega)).2.2.2.1]
  · rw [hat xs (i + 1), (hP i (by omega)).2.2.2.2, (mi i (by omega)).1]
    rw [hat, hat, hat, hat, hat]
  · rw [hat, (hP 0 (by omega)).2.2.2.1, m0.1]
  · rw [xl, show xs.length - 2 = m by omega, (hP m (by omega)).2.2.2.2, ml.1]
  · have hGn : 0 ≤ G := (abs_nonneg _).trans hG0
    have both : ∀ i, i ≤ m + 1 → PolyFloat.Close 53 9 (M' i) (M i) G := by
      intro i hi
      rcases Nat.eq_zero_or_pos i with rfl | hpos
      · rw [m0.1, m0.2]; exact (PolyFloat.Close.exact yd0).mono (by norm_num) hG0
      rcases Nat.eq_or_lt_of_le hi with rfl | hlt
      · rw [ml.1, ml.2]; exact (PolyFloat.Close.exact ydf).mono (by norm_num) hGf
      obtain ⟨j, rfl⟩ : ∃ j, i = j + 1 := ⟨i - 1, by omega⟩
      have hj : j < m := by omega
      rw [(mi j hj).1, (mi j hj).2]
      have g1 := hG j (by omega) (by omega)
      have g2 := hG (j + 1) (by omega) (by omega)
      rw [hat, hat, hat, hat] at g1 g2
      exact mean_close hfl (sub_pos.2 (hk j (by omega))).ne' (sub_pos.2 (hk (j + 1) (by omega))).ne' g1 g2
    refine h3 M P G hP (fun i hi => ?_) (fun i hi => nine (both i hi))
    exact (near (nine (both i hi)) (both i hi).2).trans (by linarith)

/-- **C126 fails.** Without the distance from zero in the bound: the heuristic spline through `(2^30, 0)` and
`(2^30 + 1, 1)` with slopes 0 at its ends has the value 0 at its right end, whichever way ties are rounded. -/
theorem C126_fails_far {fl : ℝ → ℝ} (hfl : Rounds 53 fl) (mode : Mode) :
    ∃ s, heuristic fl mode [2 ^ 30, 2 ^ 30 + 1] [0, 1] 0 0 = .ok s ∧ value fl mode s (2 ^ 30 + 1) = .ok 0 := by
  obtain ⟨c, h1, h2⟩ := C124_fails_far hfl
  have hl : heuristic fl mode [2 ^ 30, 2 ^ 30 + 1] [0, 1] 0 0 = .ok ⟨[2 ^ 30, 2 ^ 30 + 1], [c]⟩ := by
    unfold heuristic heuristicData
    rw [if_neg (by simp), if_neg (by simp)]
    simp [Outcome.bind, applyHeuristic, CubicSpline.polynomials, SplineFloat.heuristicLoop, at', h1]
  refine ⟨_, hl, ?_⟩
  cases mode <;> simp [value, CubicSpline.segment, CubicSpline.findFrom, Outcome.bind, CubicSpline.withPoly, h2]

/-! Non-vacuity -/

/-- The data of a zigzag through four points. -/
example : Rounds 53 round53 ∧ ([0, 1, 2, 3] : List ℝ).Pairwise (· < ·) ∧
    DifferencesWithin [0, 1, 2, 3] [0, 1, 0, 1] 6 := by
  refine ⟨round53_nearest, by norm_num, by norm_num, fun i hx hy => ?_⟩
  simp only [List.length_cons, List.length_nil] at hx
  have : i = 0 ∨ i = 1 := by omega
  rcases this with rfl | rfl <;> norm_num

/-- On its first interval the natural spline is right to `2^-42`. -/
example (mode : Mode) : ∃ s, natural round53 mode [0, 1, 2, 3] [0, 1, 0, 1] = .ok s ∧ ∃ P : ℝ[X], P.natDegree ≤ 3 ∧
    P.eval 0 = 0 ∧ P.eval 1 = 1 ∧ ∀ x, 0 ≤ x → x ≤ 1 →
      ∃ v, value round53 mode s x = .ok v ∧ |v - P.eval x| ≤ 1 / 2 ^ 42 := by
  obtain ⟨s, h1, P, h2, -, -, -, -, h3⟩ := C126_natural_partial round53_nearest mode [0, 1, 2, 3] [0, 1, 0, 1] rfl
    (by norm_num) (by norm_num)
  obtain ⟨p0, p1, p2⟩ := h2 0 (by norm_num) (by norm_num)
  refine ⟨s, h1, P 0, p0, p1, p2, fun x hx hx1 => ?_⟩
  obtain ⟨v, d, c, hv, -, -, h⟩ := h3 6 ⟨by norm_num, fun i hx hy => by
    simp only [List.length_cons, List.length_nil] at hx
    have : i = 0 ∨ i = 1 := by omega
    rcases this with rfl | rfl <;> norm_num⟩ 0 (by norm_num) (by norm_num) x (Or.inl rfl) hx hx1
  refine ⟨v, hv, (h 1 le_rfl (by simpa [abs_of_nonneg hx] using hx1)).1.trans ?_⟩
  norm_num

end Ecl.Props
