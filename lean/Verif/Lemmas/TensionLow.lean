import Verif.Lemmas.TensionLimits
import Verif.Lemmas.SinhBounds
import Mathlib.Analysis.Calculus.MeanValue

/-! # Tension splines of low tension lie near the natural cubic spline -/
set_option autoImplicit false
set_option linter.unusedSimpArgs false

namespace Ecl.TensionSpline
open Ecl Ecl.CubicSpline Ecl.Glue Ecl.Spec Ecl.Poly Set

/-- A natural cubic spline with second derivatives `M` at its `m + 3` knots and polynomials `c`. -/
structure Cubic (mode : Mode) (xs ys : List ℝ) (m : ℕ) (M : ℕ → ℝ) (c : ℕ → Coeffs ℝ) (s : CubicSpline.Spline) : Prop where
  made : CubicSpline.natural mode xs ys = .ok s
  first : M 0 = 0
  last : M (m + 2) = 0
  row : ∀ i, i < m + 1 → hAt (at' xs) i / 6 * M i + (hAt (at' xs) i / 3 + hAt (at' xs) (i + 1) / 3) * M (i + 1) +
    hAt (at' xs) (i + 1) / 6 * M (i + 2) =
      (at' ys (i + 2) - at' ys (i + 1)) / hAt (at' xs) (i + 1) - (at' ys (i + 1) - at' ys i) / hAt (at' xs) i
  value : Serves (at' xs) (m + 1) (CubicSpline.value mode s) (fun k x => eval 3 (c k) x)
  slope : Serves (at' xs) (m + 1) (CubicSpline.slope mode s) (fun k x => eval 2 (derivative 3 (c k)) x)
  curvature : Serves (at' xs) (m + 1) (CubicSpline.curvature mode s) (fun k x => eval 1 (derivative 2 (derivative 3 (c k))) x)
  ends : ∀ j, j < m + 2 → eval 3 (c j) (at' xs j) = at' ys j ∧ eval 3 (c j) (at' xs (j + 1)) = at' ys (j + 1) ∧
    eval 1 (derivative 2 (derivative 3 (c j))) (at' xs j) = M j ∧
    eval 1 (derivative 2 (derivative 3 (c j))) (at' xs (j + 1)) = M (j + 1)
  knots : ∀ i, i ≤ m + 2 → CubicSpline.curvature mode s (at' xs i) = .ok (M i)

theorem natural_cubic (mode : Mode) (xs ys : List ℝ) (hlen : xs.length = ys.length) {m : ℕ} (hm : xs.length = m + 3)
    (hinc : xs.Pairwise (· < ·)) : ∃ M c s, Cubic mode xs ys m M c s := by
  have hk := knots_of_pairwise hinc (m := m + 2) (by omega)
  have hM := secondDerivatives_spec (m := m + 1) (y := at' ys) hk (d0 := 0) (u0 := 0) (qn := 0) (un := 0)
    (by norm_num) (by norm_num)
  simp only at hM
  generalize hMe : secondDerivatives (at' xs) (at' ys) (m + 1 + 2) 0 0 0 0 = M at hM
  obtain ⟨M0, Mn, rows⟩ := hM
  have piece := fun i (hi : i < m + 2) => second_piece (yi := at' ys i) (zi := M i)
    (yf := at' ys (i + 1)) (zf := M (i + 1)) (hk i hi)
  obtain ⟨ps, h1, h2, h3⟩ := polynomials_spec (mk := fun i => cubicSecondDerivativeInterpolation (at' xs i) (at' ys i) (M i)
    (at' xs (i + 1)) (at' ys (i + 1)) (M (i + 1))) (m + 2) 0 (by
      intro j hj
      obtain ⟨c, hc, _⟩ := piece j hj
      exact ⟨c, by rw [Nat.zero_add]; exact hc⟩)
  have h3' : ∀ j, ∃ c, j < m + 2 → ps[j]? = some c ∧
      eval 3 c (at' xs j) = at' ys j ∧ eval 3 c (at' xs (j + 1)) = at' ys (j + 1) ∧
      eval 1 (derivative 2 (derivative 3 c)) (at' xs j) = M j ∧
      eval 1 (derivative 2 (derivative 3 c)) (at' xs (j + 1)) = M (j + 1) := by
    intro j
    by_cases hj : j < m + 2
    · obtain ⟨c, hc1, hc2⟩ := h3 j hj
      obtain ⟨c', hc', r1, r2, -, -, r5, r6⟩ := piece j hj
      rw [Nat.zero_add] at hc2
      simp only [hc', Outcome.ok.injEq] at hc2
      subst hc2
      exact ⟨c', fun _ => ⟨hc1, r1, r2, r5, r6⟩⟩
    · exact ⟨fun _ => 0, fun h => absurd h hj⟩
  choose c hc using h3'
  obtain ⟨sv, sd, sc⟩ := CubicSpline.serves mode (m := m + 1) (by omega) hk (ps := ps) (c := c) (fun k hk' => (hc k hk').1)
  refine ⟨M, c, ⟨xs, ps⟩, ?_, by simpa using M0, by simpa using Mn, ?_, sv, sd, sc, fun j hj => (hc j hj).2, ?_⟩
  · unfold CubicSpline.natural naturalData
    rw [if_neg (by omega), if_neg (by rintro ⟨-, h⟩; exact h hlen), if_neg (by omega), hm]
    show applyC2 xs ys (secondDerivatives (at' xs) (at' ys) (m + 1 + 2) 0 0 0 0) = _
    rw [hMe]
    unfold applyC2
    rw [show xs.length - 1 = m + 2 by omega, h1]; rfl
  · intro i hi
    have := rows i hi
    unfold hAt
    simp only [show i + 1 + 1 = i + 2 by omega]
    linarith
  · refine at_knots (m := m + 1) hk sc ?_ (z := M) (fun k hk' => (hc k hk').2.2.2.1) (fun k hk' => (hc k hk').2.2.2.2)
    intro k hk'
    exact (hc k (by omega)).2.2.2.2.trans (hc (k + 1) (by omega)).2.2.2.1.symm

/-- The second derivatives of a low tension lie near those of the cubic spline. -/
theorem Solved.low {mode : Mode} {xs ys : List ℝ} {tau : ℝ} {m : ℕ} {z M : ℕ → ℝ} {s : Spline} {c : ℕ → Coeffs ℝ}
    {s' : CubicSpline.Spline} (h : Solved mode xs ys tau m z s) (g : Cubic mode xs ys m M c s') (ht : 0 < tau) {H B : ℝ}
    (hH : ∀ i, i < m + 2 → hAt (at' xs) i ≤ H) (h1 : tau * H ≤ 1) (hB : ∀ i, i ≤ m + 2 → |M i| ≤ B) :
    ∀ k, k ≤ m + 2 → |z k - M k| ≤ 9 / 8 * (tau * H) ^ 2 * B := by
  have hp : ∀ i, i < m + 2 → 0 < hAt (at' xs) i := fun i hi => sub_pos.2 (h.knots i hi)
  have B0 : 0 ≤ B := (abs_nonneg _).trans (hB 0 (by omega))
  have tt : 0 < tau ^ 2 := by positivity
  have low : ∀ i, ∃ d e, i < m + 2 → aAt tau (at' xs) i = tau ^ 2 * (hAt (at' xs) i / 6 - hAt (at' xs) i * d) ∧
      betaAt tau (at' xs) i = tau ^ 2 * (hAt (at' xs) i / 3 - hAt (at' xs) i * e) ∧ 0 ≤ d ∧ d ≤ (tau * H) ^ 2 / 36 ∧
      |e| ≤ 3 / 40 * (tau * H) ^ 2 := by
    intro i
    by_cases hi : i < m + 2
    · have q : tau * hAt (at' xs) i ≤ tau * H := mul_le_mul_of_nonneg_left (hH i hi) ht.le
      have q0 : 0 < tau * hAt (at' xs) i := mul_pos ht (hp i hi)
      have sq : (tau * hAt (at' xs) i) ^ 2 ≤ (tau * H) ^ 2 := by gcongr
      obtain ⟨d, d1, d2, d3⟩ := a_low ht (hp i hi) (q.trans h1)
      obtain ⟨e, e1, e2⟩ := b_low ht (hp i hi) (q.trans h1)
      exact ⟨d, e, fun _ => ⟨d1, e1, d2, by linarith, by linarith⟩⟩
    · exact ⟨0, 0, fun h => absurd h hi⟩
  choose d e hde using low
  have W : (tau * H) ^ 2 ≤ 1 := by
    have : 0 ≤ tau * H := mul_nonneg ht.le ((hp 0 (by omega)).le.trans (hH 0 (by omega)))
    nlinarith
  set w2 := (tau * H) ^ 2 with hw2
  have w20 : 0 ≤ w2 := sq_nonneg _
  refine dominated (e := fun k => z k - M k)
    (a := fun i => hAt (at' xs) i / 6 - hAt (at' xs) i * d i) (b := fun i => hAt (at' xs) i / 3 - hAt (at' xs) i * e i)
    (c := fun i => hAt (at' xs) i * (11 / 120))
    (r := fun i => hAt (at' xs) i * (d i * M i + e i * M (i + 1)) + hAt (at' xs) (i + 1) * (e (i + 1) * M (i + 1) + d (i + 1) * M (i + 2)))
    (by simp [h.first, g.first]) (by simp [h.last, g.last]) ?_ ?_ ?_ ?_
  · intro i hi
    obtain ⟨-, -, d1, d2, -⟩ := hde i hi
    have := hp i hi
    nlinarith
  · intro i hi
    obtain ⟨-, -, d1, d2, e1⟩ := hde i hi
    have := hp i hi
    refine ⟨by positivity, ?_⟩
    have e2 := (_root_.abs_le.1 e1).2
    have : hAt (at' xs) i * (11 / 120) ≤ hAt (at' xs) i * (1 / 3 - e i - (1 / 6 - d i)) :=
      mul_le_mul_of_nonneg_left (by linarith) this.le
    linarith
  · intro i hi
    have r1 := h.row i hi
    have r2 := g.row i hi
    obtain ⟨a1, b1, -⟩ := hde i (by omega)
    obtain ⟨a2, b2, -⟩ := hde (i + 1) (by omega)
    rw [a1, a2, b1, b2] at r1
    have eg : gammaAt tau (at' xs) (at' ys) (i + 1) - gammaAt tau (at' xs) (at' ys) i =
        tau ^ 2 * ((at' ys (i + 2) - at' ys (i + 1)) / hAt (at' xs) (i + 1) - (at' ys (i + 1) - at' ys i) / hAt (at' xs) i) := by
      unfold gammaAt; ring
    rw [eg, ← r2] at r1
    apply mul_left_cancel₀ tt.ne'
    linear_combination r1
  · intro i hi
    obtain ⟨-, -, d1, d2, e1⟩ := hde i (by omega)
    obtain ⟨-, -, d3, d4, e3⟩ := hde (i + 1) (by omega)
    have p0 := hp i (by omega)
    have p1 := hp (i + 1) (by omega)
    have m0 := hB i (by omega)
    have m1 := hB (i + 1) (by omega)
    have m2 := hB (i + 2) (by omega)
    have two : ∀ {d e x y : ℝ}, 0 ≤ d → d ≤ w2 / 36 → |e| ≤ 3 / 40 * w2 → |x| ≤ B → |y| ≤ B →
        |d * x + e * y| ≤ 37 / 360 * w2 * B := by
      intro d e x y q1 q2 q3 q4 q5
      calc |d * x + e * y| ≤ |d * x| + |e * y| := abs_add_le _ _
        _ = d * |x| + |e| * |y| := by rw [abs_mul, abs_mul, abs_of_nonneg q1]
        _ ≤ w2 / 36 * B + 3 / 40 * w2 * B :=
          add_le_add (mul_le_mul q2 q4 (abs_nonneg _) (by positivity)) (mul_le_mul q3 q5 (abs_nonneg _) (by positivity))
        _ = _ := by ring
    have t1 := two d1 d2 e1 m0 m1
    have t2 := two d3 d4 e3 m2 m1
    rw [add_comm (d (i + 1) * _)] at t2
    calc _ ≤ |hAt (at' xs) i * (d i * M i + e i * M (i + 1))| +
          |hAt (at' xs) (i + 1) * (e (i + 1) * M (i + 1) + d (i + 1) * M (i + 2))| := abs_add_le _ _
      _ ≤ hAt (at' xs) i * (37 / 360 * w2 * B) + hAt (at' xs) (i + 1) * (37 / 360 * w2 * B) := by
          rw [abs_mul, abs_mul, abs_of_pos p0, abs_of_pos p1]
          exact add_le_add (mul_le_mul_of_nonneg_left t1 p0.le) (mul_le_mul_of_nonneg_left t2 p1.le)
      _ ≤ _ := by
          have : 0 ≤ w2 * B := by positivity
          nlinarith

/-- The curvature between two knots. -/
theorem curvature_low (f : Func) {tau x E B M0 Mf : ℝ} (ht : 0 < tau) (h : f.x0 < f.xf) (h1 : tau * (f.xf - f.x0) ≤ 1)
    (hx : x ∈ Icc f.x0 f.xf) (h0 : |f.z0 - M0| ≤ E) (hf : |f.zf - Mf| ≤ E) (b0 : |M0| ≤ B) (bf : |Mf| ≤ B) :
    |f.curvature tau x - (M0 * (f.xf - x) + Mf * (x - f.x0)) / (f.xf - f.x0)| ≤
      E + 9 / 50 * (tau * (f.xf - f.x0)) ^ 2 * B := by
  have hd : 0 < f.xf - f.x0 := sub_pos.2 h
  have hw : 0 < tau * (f.xf - f.x0) := mul_pos ht hd
  have hs : 0 < Real.sinh (tau * (f.xf - f.x0)) := Real.sinh_pos_iff.2 hw
  have c := curvature_le { f with z0 := f.z0 - M0, zf := f.zf - Mf } ht h hx h0 hf
  have u0 : 0 ≤ f.xf - x := by linarith [hx.2]
  have r0 : 0 ≤ x - f.x0 := by linarith [hx.1]
  have k1 := sinh_mul_le (p := tau * (f.xf - x)) (w := tau * (f.xf - f.x0)) (by positivity)
    (mul_le_mul_of_nonneg_left (by linarith) ht.le)
  have k2 := sinh_mul_le (p := tau * (x - f.x0)) (w := tau * (f.xf - f.x0)) (by positivity)
    (mul_le_mul_of_nonneg_left (by linarith) ht.le)
  have l1 := sinh_ge (x := tau * (f.xf - x)) (by positivity)
  have l2 := sinh_ge (x := tau * (x - f.x0)) (by positivity)
  have l3 := sinh_ge hw.le
  have l5 := sinh_le5 hw.le h1
  have B0 : 0 ≤ B := (abs_nonneg _).trans b0
  unfold Func.curvature at c ⊢
  simp only at c ⊢
  set S := Real.sinh (tau * (f.xf - f.x0)) with hS
  set s1 := Real.sinh (tau * (f.xf - x)) with hs1
  set s2 := Real.sinh (tau * (x - f.x0)) with hs2
  have hsum : tau * (f.xf - x) + tau * (x - f.x0) = tau * (f.xf - f.x0) := by ring
  set w := tau * (f.xf - f.x0) with hwd
  set p := tau * (f.xf - x) with hpd
  set q := tau * (x - f.x0) with hqd
  have eM : (M0 * (f.xf - x) + Mf * (x - f.x0)) / (f.xf - f.x0) = M0 * (p / w) + Mf * (q / w) := by
    rw [hpd, hqd, hwd]; field_simp
  have e : (tau * tau * f.z0 * s1 + tau * tau * f.zf * s2) / (tau * tau * S) - (M0 * (f.xf - x) + Mf * (x - f.x0)) / (f.xf - f.x0) =
      (tau * tau * (f.z0 - M0) * s1 + tau * tau * (f.zf - Mf) * s2) / (tau * tau * S) -
        (M0 * (p / w - s1 / S) + Mf * (q / w - s2 / S)) := by
    rw [eM]
    generalize p / w = P
    generalize q / w = Q
    field_simp
    ring
  have n1 : 0 ≤ p / w - s1 / S := by rw [sub_nonneg, div_le_div_iff₀ hs hw]; linarith
  have n2 : 0 ≤ q / w - s2 / S := by rw [sub_nonneg, div_le_div_iff₀ hs hw]; linarith
  have tot : p / w - s1 / S + (q / w - s2 / S) ≤ 9 / 50 * w ^ 2 := by
    have a1 : p / w + q / w = 1 := by rw [← add_div, hsum, div_self hw.ne']
    have a2 : w / S ≤ s1 / S + s2 / S := by
      rw [← add_div]; exact div_le_div_of_nonneg_right (by linarith) hs.le
    have a3 : 1 - w / S ≤ 9 / 50 * w ^ 2 := by
      rw [show 1 - w / S = (S - w) / S by field_simp, div_le_iff₀ hs]
      have : w ^ 2 * w ≤ w ^ 2 * S := mul_le_mul_of_nonneg_left l3 (by positivity)
      have w5 : w ^ 5 ≤ w ^ 3 := pow_le_pow_of_le_one hw.le h1 (by norm_num)
      nlinarith
    linarith
  rw [e]
  calc _ ≤ |(tau * tau * (f.z0 - M0) * s1 + tau * tau * (f.zf - Mf) * s2) / (tau * tau * S)| +
        |M0 * (p / w - s1 / S) + Mf * (q / w - s2 / S)| := abs_sub _ _
    _ ≤ E + 9 / 50 * w ^ 2 * B := by
      refine add_le_add c ?_
      calc _ ≤ |M0 * (p / w - s1 / S)| + |Mf * (q / w - s2 / S)| := abs_add_le _ _
        _ = |M0| * (p / w - s1 / S) + |Mf| * (q / w - s2 / S) := by
          rw [abs_mul, abs_mul, abs_of_nonneg n1, abs_of_nonneg n2]
        _ ≤ B * (p / w - s1 / S) + B * (q / w - s2 / S) :=
          add_le_add (mul_le_mul_of_nonneg_right b0 n1) (mul_le_mul_of_nonneg_right bf n2)
        _ ≤ _ := by nlinarith

/-- A function that vanishes at both ends of an interval is small with its derivative if its second derivative is. -/
theorem small_of_second {d d' d'' : ℝ → ℝ} {x0 xf E : ℝ} (h : x0 < xf) (hd : ∀ x, HasDerivAt d (d' x) x)
    (hd' : ∀ x, HasDerivAt d' (d'' x) x) (e0 : d x0 = 0) (ef : d xf = 0) (hE : ∀ x ∈ Icc x0 xf, |d'' x| ≤ E) :
    ∀ x ∈ Icc x0 xf, |d' x| ≤ E * (xf - x0) ∧ |d x| ≤ E * (xf - x0) * (xf - x0) := by
  have E0 : 0 ≤ E := (abs_nonneg _).trans (hE x0 ⟨le_rfl, h.le⟩)
  obtain ⟨y, hy, hy0⟩ := exists_hasDerivAt_eq_zero (f := d) (f' := d') h
    (fun x _ => (hd x).continuousAt.continuousWithinAt) (e0.trans ef.symm) (fun x _ => hd x)
  have far : ∀ x ∈ Icc x0 xf, ∀ y ∈ Icc x0 xf, |x - y| ≤ xf - x0 := fun x hx y hy =>
    _root_.abs_le.2 ⟨by linarith [hx.1, hy.2], by linarith [hx.2, hy.1]⟩
  have first : ∀ x ∈ Icc x0 xf, |d' x| ≤ E * (xf - x0) := by
    intro x hx
    have := Convex.norm_image_sub_le_of_norm_hasDerivWithin_le (f := d') (f' := d'') (s := Icc x0 xf) (C := E)
      (fun x _ => (hd' x).hasDerivWithinAt) (fun x hx => hE x hx) (convex_Icc _ _) ⟨hy.1.le, hy.2.le⟩ hx
    rw [hy0, sub_zero, Real.norm_eq_abs, Real.norm_eq_abs] at this
    exact this.trans (mul_le_mul_of_nonneg_left (far x hx y ⟨hy.1.le, hy.2.le⟩) E0)
  intro x hx
  refine ⟨first x hx, ?_⟩
  have := Convex.norm_image_sub_le_of_norm_hasDerivWithin_le (f := d) (f' := d') (s := Icc x0 xf) (C := E * (xf - x0))
    (fun x _ => (hd x).hasDerivWithinAt) (fun x hx => first x hx) (convex_Icc _ _) ⟨le_rfl, h.le⟩ hx
  rw [e0, sub_zero, Real.norm_eq_abs, Real.norm_eq_abs] at this
  exact this.trans (mul_le_mul_of_nonneg_left (far x hx x0 ⟨le_rfl, h.le⟩) (mul_nonneg E0 (sub_pos.2 h).le))

/-- A line is known from two values. -/
theorem line_of_ends (q : Coeffs ℝ) {x0 xf a b : ℝ} (h : x0 < xf) (ha : eval 1 q x0 = a) (hb : eval 1 q xf = b) (x : ℝ) :
    eval 1 q x = (a * (xf - x) + b * (x - x0)) / (xf - x0) := by
  have hd : xf - x0 ≠ 0 := (sub_pos.2 h).ne'
  subst ha hb
  simp only [eval, evalLoop]
  field_simp
  ring

end Ecl.TensionSpline
