import Verif.Lemmas.TensionNatural

/-! # Tension splines: bounds that hold for all segments of at least some length -/
set_option autoImplicit false

namespace Ecl.TensionSpline
open Ecl Ecl.CubicSpline Ecl.Glue Ecl.Spec Set

theorem mul_cosh_sub_sinh_mono {u v : ℝ} (hu : 0 ≤ u) (huv : u ≤ v) :
    u * Real.cosh u - Real.sinh u ≤ v * Real.cosh v - Real.sinh v := by
  have hd : ∀ x : ℝ, HasDerivAt (fun x => x * Real.cosh x - Real.sinh x) (x * Real.sinh x) x := by
    intro x
    have := ((hasDerivAt_id x).mul (Real.hasDerivAt_cosh x)).sub (Real.hasDerivAt_sinh x)
    refine (this.congr_deriv ?_)
    simp
  have hmono : MonotoneOn (fun x => x * Real.cosh x - Real.sinh x) (Ici 0) := by
    apply monotoneOn_of_deriv_nonneg (convex_Ici 0)
    · exact fun x _ => (hd x).continuousAt.continuousWithinAt
    · exact fun x _ => (hd x).differentiableAt.differentiableWithinAt
    · intro x hx
      rw [interior_Ici] at hx
      rw [(hd x).deriv]
      exact (mul_pos hx (Real.sinh_pos_iff.2 hx)).le
  exact hmono (mem_Ici.2 hu) (mem_Ici.2 (hu.trans huv)) huv

/-- `coth u - 1 / u` is bounded away from 0. -/
theorem coth_sub_ge {u0 : ℝ} (h0 : 0 < u0) : ∃ c, 0 < c ∧ ∀ u, u0 ≤ u → c ≤ Real.cosh u / Real.sinh u - 1 / u := by
  have hN := sinh_lt_mul_cosh h0
  have h2 : 0 < Real.sinh 2 := Real.sinh_pos_iff.2 (by norm_num)
  refine ⟨min (1 / 2) ((u0 * Real.cosh u0 - Real.sinh u0) / (2 * Real.sinh 2)), ?_, fun u hu => ?_⟩
  · exact lt_min (by norm_num) (div_pos (by linarith) (by linarith))
  · have up : 0 < u := lt_of_lt_of_le h0 hu
    have us : 0 < Real.sinh u := Real.sinh_pos_iff.2 up
    rcases le_total 2 u with h | h
    · refine (min_le_left _ _).trans ?_
      have c1 : 1 ≤ Real.cosh u / Real.sinh u := by rw [le_div_iff₀ us]; linarith [Real.sinh_lt_cosh u]
      have c2 : 1 / u ≤ 1 / 2 := one_div_le_one_div_of_le (by norm_num) h
      linarith
    · refine (min_le_right _ _).trans ?_
      have e : Real.cosh u / Real.sinh u - 1 / u = (u * Real.cosh u - Real.sinh u) / (u * Real.sinh u) := by
        field_simp
      rw [e]
      have m := mul_cosh_sub_sinh_mono h0.le hu
      have s := Real.sinh_le_sinh.2 h
      apply div_le_div₀ (by linarith) m (mul_pos up us)
      exact mul_le_mul h s us.le (by norm_num)

/-- The diagonal of the system dominates by a margin. -/
theorem margin {tau h0 : ℝ} (ht : 0 < tau) (hh : 0 < h0) : ∃ c, 0 < c ∧ ∀ h, h0 ≤ h →
    c ≤ tau * (Real.cosh (tau * h) / Real.sinh (tau * h)) - 1 / h - (1 / h - tau / Real.sinh (tau * h)) := by
  obtain ⟨c, hc, H⟩ := coth_sub_ge (u0 := tau * h0 / 2) (by positivity)
  refine ⟨tau * c, by positivity, fun h hle => ?_⟩
  have hp : 0 < h := lt_of_lt_of_le hh hle
  have := H (tau * h / 2) (by have := mul_le_mul_of_nonneg_left hle ht.le; linarith)
  set u := tau * h / 2 with hu
  have up : 0 < u := by positivity
  have us : 0 < Real.sinh u := Real.sinh_pos_iff.2 up
  have uc := Real.cosh_pos u
  have e0 : tau * h = 2 * u := by rw [hu]; ring
  have e1 : Real.sinh (tau * h) = 2 * Real.sinh u * Real.cosh u := by rw [e0, Real.sinh_two_mul]
  have e2 : Real.cosh (tau * h) = 2 * Real.cosh u ^ 2 - 1 := by
    rw [e0, Real.cosh_two_mul, Real.sinh_sq]; ring
  have e3 : tau * (Real.cosh u / Real.sinh u - 1 / u) =
      tau * (Real.cosh (tau * h) / Real.sinh (tau * h)) - 1 / h - (1 / h - tau / Real.sinh (tau * h)) := by
    rw [e1, e2, hu]
    have hu' : tau * h / 2 ≠ 0 := by rw [← hu]; exact up.ne'
    rw [← hu]
    have e4 : 1 / h = tau / (2 * u) := by rw [hu]; field_simp
    rw [e4]
    field_simp
    ring
  rw [← e3]
  exact mul_le_mul_of_nonneg_left this ht.le

/-- Where the second derivative is largest it is bounded by the difference of the slopes. -/
theorem Solved.peak {mode : Mode} {xs ys : List ℝ} {tau : ℝ} {m : ℕ} {z : ℕ → ℝ} {s : Spline}
    (h : Solved mode xs ys tau m z s) (ht : 0 < tau) {c : ℝ} (hc : ∀ i, i < m + 2 → c ≤ betaAt tau (at' xs) i - aAt tau (at' xs) i)
    {i : ℕ} (hi : i < m + 1) (hmax : ∀ k, k ≤ m + 2 → |z k| ≤ |z (i + 1)|) :
    2 * c * |z (i + 1)| ≤ |gammaAt tau (at' xs) (at' ys) (i + 1) - gammaAt tau (at' xs) (at' ys) i| := by
  rw [← h.row i hi]
  have a0 : 0 < aAt tau (at' xs) i := a_pos ht (sub_pos.2 (h.knots i (by omega)))
  have a1 : 0 < aAt tau (at' xs) (i + 1) := a_pos ht (sub_pos.2 (h.knots (i + 1) (by omega)))
  have c0 := hc i (by omega)
  have c1 := hc (i + 1) (by omega)
  have b0 : aAt tau (at' xs) i < betaAt tau (at' xs) i := a_lt_beta ht (sub_pos.2 (h.knots i (by omega)))
  have b1 : aAt tau (at' xs) (i + 1) < betaAt tau (at' xs) (i + 1) := a_lt_beta ht (sub_pos.2 (h.knots (i + 1) (by omega)))
  have z0 := hmax i (by omega)
  have z2 := hmax (i + 2) (by omega)
  generalize aAt tau (at' xs) i = a at *
  generalize aAt tau (at' xs) (i + 1) = a' at *
  generalize betaAt tau (at' xs) i = b at *
  generalize betaAt tau (at' xs) (i + 1) = b' at *
  have t1 : |a * z i| ≤ a * |z (i + 1)| := by rw [abs_mul, abs_of_pos a0]; exact mul_le_mul_of_nonneg_left z0 a0.le
  have t2 : |a' * z (i + 2)| ≤ a' * |z (i + 1)| := by rw [abs_mul, abs_of_pos a1]; exact mul_le_mul_of_nonneg_left z2 a1.le
  have t3 : |(b + b') * z (i + 1)| = (b + b') * |z (i + 1)| := by rw [abs_mul, abs_of_pos (by linarith)]
  have t4 : |(b + b') * z (i + 1)| ≤ |a * z i + (b + b') * z (i + 1) + a' * z (i + 2)| + |a * z i| + |a' * z (i + 2)| := by
    have := abs_sub (a * z i + (b + b') * z (i + 1) + a' * z (i + 2)) (a * z i + a' * z (i + 2))
    have e : a * z i + (b + b') * z (i + 1) + a' * z (i + 2) - (a * z i + a' * z (i + 2)) = (b + b') * z (i + 1) := by ring
    rw [e] at this
    have := abs_add_le (a * z i) (a' * z (i + 2))
    linarith
  have n := abs_nonneg (z (i + 1))
  nlinarith

/-- A knot with the largest second derivative. -/
theorem exists_peak (z : ℕ → ℝ) (m : ℕ) (h0 : z 0 = 0) (hn : z (m + 2) = 0) :
    ∃ i, i < m + 1 ∧ ∀ k, k ≤ m + 2 → |z k| ≤ |z (i + 1)| := by
  obtain ⟨i, hi, hmax⟩ := Finset.exists_max_image (Finset.range (m + 1)) (fun i => |z (i + 1)|) ⟨0, by simp⟩
  refine ⟨i, by simpa using hi, fun k hk => ?_⟩
  rcases Nat.eq_zero_or_pos k with rfl | h
  · rw [h0, abs_zero]; exact abs_nonneg _
  · rcases Nat.eq_or_lt_of_le hk with rfl | h'
    · rw [hn, abs_zero]; exact abs_nonneg _
    · have := hmax (k - 1) (by simp; omega)
      simpa [Nat.sub_add_cancel h] using this

/-- All second derivatives of a spline with segments of at least `h0`. -/
theorem Solved.all_le {mode : Mode} {xs ys : List ℝ} {tau : ℝ} {m : ℕ} {z : ℕ → ℝ} {s : Spline}
    (h : Solved mode xs ys tau m z s) (ht : 0 < tau) {c h0 Y : ℝ} (hcp : 0 < c) (hh : 0 < h0)
    (hc : ∀ i, i < m + 2 → c ≤ betaAt tau (at' xs) i - aAt tau (at' xs) i)
    (hx : ∀ i, i < m + 2 → h0 ≤ hAt (at' xs) i) (hy : ∀ i, i ≤ m + 2 → |at' ys i| ≤ Y) :
    ∀ k, k ≤ m + 2 → |z k| ≤ 2 * (tau * tau * Y / h0) / c := by
  obtain ⟨i, hi, hmax⟩ := exists_peak z m h.first h.last
  have hp := h.peak ht hc hi hmax
  have hg : ∀ j, j < m + 2 → |gammaAt tau (at' xs) (at' ys) j| ≤ 2 * (tau * tau * Y / h0) := by
    intro j hj
    unfold gammaAt
    have d := hx j hj
    have y1 := hy j (by omega)
    have y2 := hy (j + 1) (by omega)
    have dy : |at' ys (j + 1) - at' ys j| ≤ 2 * Y := (abs_sub _ _).trans (by linarith)
    have tt : 0 < tau * tau := mul_pos ht ht
    have Y0 : 0 ≤ Y := (abs_nonneg _).trans y1
    rw [abs_div, abs_mul, abs_of_pos tt, abs_of_pos (lt_of_lt_of_le hh d)]
    calc tau * tau * |at' ys (j + 1) - at' ys j| / hAt (at' xs) j ≤ tau * tau * (2 * Y) / h0 :=
          div_le_div₀ (by positivity) (mul_le_mul_of_nonneg_left dy tt.le) hh d
      _ = _ := by ring
  have g1 := hg i (by omega)
  have g2 := hg (i + 1) (by omega)
  have g3 := abs_sub (gammaAt tau (at' xs) (at' ys) (i + 1)) (gammaAt tau (at' xs) (at' ys) i)
  intro k hk
  refine (hmax k hk).trans ?_
  rw [le_div_iff₀ hcp]
  linarith

/-- Value and slope of a piece. -/
theorem piece_le (f : Func) {tau x B Y h0 : ℝ} (ht : 0 < tau) (hh : 0 < h0) (h : h0 ≤ f.xf - f.x0) (hx : x ∈ Icc f.x0 f.xf)
    (z0 : |f.z0| ≤ B) (zf : |f.zf| ≤ B) (y0 : |f.y0| ≤ Y) (yf : |f.yf| ≤ Y) :
    |f.value tau x| ≤ 2 * Y + 3 * (B / (tau * tau)) ∧
    |f.slope tau x| ≤ 2 * (B / tau * (Real.cosh (tau * h0) / Real.sinh (tau * h0))) + 2 * ((Y + B / (tau * tau)) / h0) := by
  have hp : 0 < f.xf - f.x0 := lt_of_lt_of_le hh h
  have tt : 0 < tau * tau := mul_pos ht ht
  have hs : 0 < Real.sinh (tau * (f.xf - f.x0)) := Real.sinh_pos_iff.2 (mul_pos ht hp)
  have hs0 : 0 < Real.sinh (tau * h0) := Real.sinh_pos_iff.2 (mul_pos ht hh)
  have B0 : 0 ≤ B := (abs_nonneg _).trans z0
  have Y0 : 0 ≤ Y := (abs_nonneg _).trans y0
  have w : ∀ y z : ℝ, |y| ≤ Y → |z| ≤ B → |y - z / (tau * tau)| ≤ Y + B / (tau * tau) := by
    intro y z hy hz
    refine (abs_sub _ _).trans (add_le_add hy ?_)
    rw [abs_div, abs_of_pos tt]
    exact div_le_div_of_nonneg_right hz tt.le
  have w0 := w _ _ y0 z0
  have wf := w _ _ yf zf
  have W0 : 0 ≤ Y + B / (tau * tau) := (abs_nonneg _).trans w0
  constructor
  · have hk := curvature_le f ht (by linarith) hx z0 zf
    have e : f.value tau x = f.curvature tau x / (tau * tau) + (f.y0 - f.z0 / (tau * tau)) * ((f.xf - x) / (f.xf - f.x0)) +
        (f.yf - f.zf / (tau * tau)) * ((x - f.x0) / (f.xf - f.x0)) := by
      unfold Func.value Func.curvature
      simp only
      field_simp
    have q : ∀ p r : ℝ, |p| ≤ Y + B / (tau * tau) → 0 ≤ r → r ≤ f.xf - f.x0 →
        |p * (r / (f.xf - f.x0))| ≤ Y + B / (tau * tau) := by
      intro p r h1 h2 h3
      rw [abs_mul, abs_of_nonneg (div_nonneg h2 hp.le)]
      have : r / (f.xf - f.x0) ≤ 1 := (div_le_one hp).2 h3
      calc |p| * (r / (f.xf - f.x0)) ≤ (Y + B / (tau * tau)) * 1 := mul_le_mul h1 this (div_nonneg h2 hp.le) W0
        _ = _ := mul_one _
    have q1 := q _ (f.xf - x) w0 (by linarith [hx.2]) (by linarith [hx.1])
    have q2 := q _ (x - f.x0) wf (by linarith [hx.1]) (by linarith [hx.2])
    have q3 : |f.curvature tau x / (tau * tau)| ≤ B / (tau * tau) := by
      rw [abs_div, abs_of_pos tt]; exact div_le_div_of_nonneg_right hk tt.le
    rw [e]
    have n1 := abs_add_le (f.curvature tau x / (tau * tau) + (f.y0 - f.z0 / (tau * tau)) * ((f.xf - x) / (f.xf - f.x0)))
      ((f.yf - f.zf / (tau * tau)) * ((x - f.x0) / (f.xf - f.x0)))
    have n2 := abs_add_le (f.curvature tau x / (tau * tau)) ((f.y0 - f.z0 / (tau * tau)) * ((f.xf - x) / (f.xf - f.x0)))
    linarith
  · have ct : ∀ r, 0 ≤ r → r ≤ f.xf - f.x0 →
        Real.cosh (tau * r) / Real.sinh (tau * (f.xf - f.x0)) ≤ Real.cosh (tau * h0) / Real.sinh (tau * h0) := by
      intro r r0 r1
      rw [div_le_div_iff₀ hs hs0]
      have c1 : Real.cosh (tau * r) ≤ Real.cosh (tau * (f.xf - f.x0)) := by
        rw [Real.cosh_le_cosh, abs_of_nonneg (by positivity), abs_of_nonneg (by positivity)]
        exact mul_le_mul_of_nonneg_left r1 ht.le
      have c2 : 0 ≤ Real.sinh (tau * (f.xf - f.x0) - tau * h0) := by
        rw [Real.sinh_nonneg_iff]; nlinarith
      rw [Real.sinh_sub] at c2
      have := mul_le_mul_of_nonneg_right c1 hs0.le
      linarith
    have e : f.slope tau x = -(f.z0 / tau * (Real.cosh (tau * (f.xf - x)) / Real.sinh (tau * (f.xf - f.x0)))) +
        f.zf / tau * (Real.cosh (tau * (x - f.x0)) / Real.sinh (tau * (f.xf - f.x0))) +
        (-((f.y0 - f.z0 / (tau * tau)) / (f.xf - f.x0)) + (f.yf - f.zf / (tau * tau)) / (f.xf - f.x0)) := by
      unfold Func.slope
      simp only
      field_simp
      ring
    have q : ∀ z r : ℝ, |z| ≤ B → 0 ≤ r → r ≤ f.xf - f.x0 →
        |z / tau * (Real.cosh (tau * r) / Real.sinh (tau * (f.xf - f.x0)))| ≤
          B / tau * (Real.cosh (tau * h0) / Real.sinh (tau * h0)) := by
      intro z r h1 h2 h3
      rw [abs_mul, abs_div, abs_of_pos ht, abs_of_pos (div_pos (Real.cosh_pos _) hs)]
      exact mul_le_mul (div_le_div_of_nonneg_right h1 ht.le) (ct r h2 h3) (div_pos (Real.cosh_pos _) hs).le (by positivity)
    have q' : ∀ p : ℝ, |p| ≤ Y + B / (tau * tau) → |p / (f.xf - f.x0)| ≤ (Y + B / (tau * tau)) / h0 := by
      intro p h1
      rw [abs_div, abs_of_pos hp]
      exact div_le_div₀ W0 h1 hh h
    have q1 := q _ (f.xf - x) z0 (by linarith [hx.2]) (by linarith [hx.1])
    have q2 := q _ (x - f.x0) zf (by linarith [hx.1]) (by linarith [hx.2])
    have q3 := q' _ w0
    have q4 := q' _ wf
    rw [e]
    refine (abs_add_le _ _).trans ?_
    refine (add_le_add (abs_add_le _ _) (abs_add_le _ _)).trans ?_
    rw [abs_neg, abs_neg]
    linarith

/-- Value and slope of a spline with segments of at least `h0`: a bound that depends on `tau`, `h0` and the
largest value alone. -/
theorem exists_uniform {tau h0 Y : ℝ} (ht : 0 < tau) (hh : 0 < h0) : ∃ V, ∀ (mode : Mode) (xs ys : List ℝ) (m : ℕ) (z : ℕ → ℝ)
    (s : Spline), Solved mode xs ys tau m z s → (∀ i, i < m + 2 → h0 ≤ hAt (at' xs) i) → (∀ i, i ≤ m + 2 → |at' ys i| ≤ Y) →
    ∀ x ∈ Icc (at' xs 0) (at' xs (m + 2)), (∃ v, TensionSpline.value mode s x = .ok v ∧ |v| ≤ V) ∧
      ∃ v, TensionSpline.slope mode s x = .ok v ∧ |v| ≤ V := by
  obtain ⟨c, hc, H⟩ := margin ht hh
  set B := 2 * (tau * tau * Y / h0) / c
  refine ⟨max (2 * Y + 3 * (B / (tau * tau)))
    (2 * (B / tau * (Real.cosh (tau * h0) / Real.sinh (tau * h0))) + 2 * ((Y + B / (tau * tau)) / h0)), ?_⟩
  intro mode xs ys m z s h hx hy x hxx
  have hB := h.all_le ht hc hh (fun i hi => H _ (hx i hi)) hx hy
  obtain ⟨k, h1, h2, h3⟩ := exists_segment (m := m + 1) h.knots.rising hxx
  have hk : x ∈ Icc (at' xs k) (at' xs (k + 1)) := by
    refine ⟨?_, h2⟩
    rcases h3 with h3 | h3
    · rw [h3]; exact hxx.1
    · exact h3.le
  obtain ⟨p1, p2⟩ := piece_le (pieceOf xs ys z k) ht hh (hx k (by omega)) hk (hB k (by omega)) (hB (k + 1) (by omega))
    (hy k (by omega)) (hy (k + 1) (by omega))
  exact ⟨⟨_, h.value k h1 x hxx h2 h3, p1.trans (le_max_left _ _)⟩, ⟨_, h.slope k h1 x hxx h2 h3, p2.trans (le_max_right _ _)⟩⟩

end Ecl.TensionSpline
