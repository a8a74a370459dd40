import Verif.Lemmas.TensionLow

/-! # C141: what the tension of a spline does -/
set_option autoImplicit false
set_option linter.unusedSimpArgs false

namespace Ecl.Props
open Ecl Ecl.TensionSpline Ecl.CubicSpline Ecl.Glue Ecl.Spec Ecl.Poly Set

namespace C141

/-- The points named in the specification are those the splines read. -/
theorem spaced {xs : List ℝ} {d : ℝ} {m : ℕ} (hm : xs.length = m + 3) (h : SpacedBy xs d) :
    ∀ i, i < m + 2 → d ≤ hAt (at' xs) i := fun i hi =>
  h i _ _ (TensionSpline.getElem?_at (by omega)) (TensionSpline.getElem?_at (by omega))

theorem closer {xs : List ℝ} {d : ℝ} {m : ℕ} (hm : xs.length = m + 3) (h : CloserThan xs d) :
    ∀ i, i < m + 2 → hAt (at' xs) i ≤ d := fun i hi =>
  h i _ _ (TensionSpline.getElem?_at (by omega)) (TensionSpline.getElem?_at (by omega))

theorem sign_data (mode : Mode) (xs ys : List ℝ) (tau : ℝ) : data mode xs ys (-tau) = data mode xs ys tau := by
  have ea : aAt (-tau) (at' xs) = aAt tau (at' xs) := by
    funext i; simp [aAt, Real.sinh_neg, neg_div_neg_eq]
  have eb : betaAt (-tau) (at' xs) = betaAt tau (at' xs) := by
    funext i; simp [betaAt, Real.sinh_neg, Real.cosh_neg, div_neg]
  have eg : gammaAt (-tau) (at' xs) (at' ys) = gammaAt tau (at' xs) (at' ys) := by
    funext i; simp [gammaAt]
  simp only [data, ea, eb, eg]

theorem sign_value (f : Func) (tau x : ℝ) : f.value (-tau) x = f.value tau x := by
  unfold Func.value
  simp only [neg_mul, mul_neg, neg_neg, Real.sinh_neg]
  congr 2
  rw [← neg_add, neg_div_neg_eq]

theorem sign_slope (f : Func) (tau x : ℝ) : f.slope (-tau) x = f.slope tau x := by
  unfold Func.slope
  simp only [neg_mul, mul_neg, neg_neg, Real.sinh_neg, Real.cosh_neg, one_mul]
  congr 2
  rw [div_neg, ← neg_div]
  congr 1
  ring

theorem sign_curvature (f : Func) (tau x : ℝ) : f.curvature (-tau) x = f.curvature tau x := by
  unfold Func.curvature
  simp only [neg_mul, mul_neg, neg_neg, Real.sinh_neg]
  rw [← neg_add, neg_div_neg_eq]

end C141

/-- **C141.** The sign of the tension does not matter: with the opposite tension every construction ends in the same way
and every value, slope and acceleration is the same. -/
theorem C141_sign (mode : Mode) (xs ys : List ℝ) (tau x : ℝ) :
    ((TensionSpline.natural mode xs ys (-tau)).bind fun s => TensionSpline.value mode s x) =
      ((TensionSpline.natural mode xs ys tau).bind fun s => TensionSpline.value mode s x) ∧
    ((TensionSpline.natural mode xs ys (-tau)).bind fun s => TensionSpline.slope mode s x) =
      ((TensionSpline.natural mode xs ys tau).bind fun s => TensionSpline.slope mode s x) ∧
    ((TensionSpline.natural mode xs ys (-tau)).bind fun s => TensionSpline.curvature mode s x) =
      ((TensionSpline.natural mode xs ys tau).bind fun s => TensionSpline.curvature mode s x) := by
  unfold TensionSpline.natural
  rw [C141.sign_data]
  cases data mode xs ys tau with
  | throw e => exact ⟨rfl, rfl, rfl⟩
  | ub => exact ⟨rfl, rfl, rfl⟩
  | ok z =>
    simp only [Outcome.bind, TensionSpline.value, TensionSpline.slope, TensionSpline.curvature, withFunc, C141.sign_value,
      C141.sign_slope, C141.sign_curvature]
    exact ⟨trivial, trivial, trivial⟩

/-- The same three points with tensions of 2 and of minus 2. -/
example : ∃ s, TensionSpline.natural .release [0, 1, 3] [2, 5, 1] (-2) = .ok s ∧ TensionSpline.value .release s 1 = .ok 5 := by
  have h := (C141_sign .release [0, 1, 3] [2, 5, 1] 2 1).1
  obtain ⟨z, s, hs⟩ := natural_solved .release [0, 1, 3] [2, 5, 1] 2 (by norm_num) rfl (m := 0) rfl (by norm_num)
  have v : TensionSpline.value .release s 1 = .ok 5 := hs.at_knot_value (by norm_num) 1 (by omega)
  rw [hs.made] at h
  simp only [Outcome.bind] at h
  rw [v] at h
  cases hn : TensionSpline.natural .release [0, 1, 3] [2, 5, 1] (-2) with
  | ok t => rw [hn] at h; exact ⟨t, rfl, h⟩
  | throw e => rw [hn] at h; cases h
  | ub => rw [hn] at h; cases h

/-- **C141.** High tension: if neighbouring points are at least `d` apart and the slope of the polyline changes by at most
`j` at each of them, then a spline with a tension from `4 / d` on is nowhere further from the polyline than `j` divided by
the tension. -/
theorem C141_linear (mode : Mode) (xs ys : List ℝ) (tau d j : ℝ) (hlen : xs.length = ys.length) (h3 : 3 ≤ xs.length)
    (hd : 0 < d) (hx : SpacedBy xs d) (hj : BendsAtMost xs ys j) (ht : 4 / d ≤ tau) :
    ∃ s, TensionSpline.natural mode xs ys tau = .ok s ∧
      ∀ x v, OnLines xs ys x v → ∃ w, TensionSpline.value mode s x = .ok w ∧ |w - v| ≤ j / tau := by
  obtain ⟨m, hm⟩ : ∃ m, xs.length = m + 3 := ⟨xs.length - 3, by omega⟩
  have t0 : 0 < tau := lt_of_lt_of_le (by positivity) ht
  have hsp := C141.spaced hm hx
  have hinc : xs.Pairwise (· < ·) := by
    rw [← List.isChain_iff_pairwise, List.isChain_iff_getElem]
    intro i hi
    have := hx i _ _ (List.getElem?_eq_getElem (by omega)) (List.getElem?_eq_getElem hi)
    linarith
  obtain ⟨z, s, hs⟩ := natural_solved mode xs ys tau t0 hlen hm hinc
  refine ⟨s, hs.made, ?_⟩
  have hz := hs.high hd ht hsp (J := j) (by
    intro i hi
    have := hj i _ _ _ _ _ _ (TensionSpline.getElem?_at (l := xs) (i := i) (by omega)) (TensionSpline.getElem?_at (by omega))
      (TensionSpline.getElem?_at (by omega)) (TensionSpline.getElem?_at (l := ys) (i := i) (by omega))
      (TensionSpline.getElem?_at (by omega)) (TensionSpline.getElem?_at (by omega))
    exact this)
  rintro x v ⟨i, x0, x1, y0, y1, e0, e1, f0, f1, a1, a2, rfl⟩
  have hi : i + 1 < xs.length := (List.getElem?_eq_some_iff.1 e1).1
  have hon := hs.value.on_segment hs.knots.rising hs.joinValue (k := i) (by omega) (x := x)
    (by rw [TensionSpline.at_of_getElem? e0, TensionSpline.at_of_getElem? e1]; exact ⟨a1, a2⟩)
  refine ⟨_, hon, ?_⟩
  have hp := piece_high (pieceOf xs ys z i) (x := x) (B := tau * j) t0 (hs.knots i (by omega))
    (by show x ∈ Icc (at' xs i) (at' xs (i + 1))
        rw [TensionSpline.at_of_getElem? e0, TensionSpline.at_of_getElem? e1]; exact ⟨a1, a2⟩)
    (hz i (by omega)) (hz (i + 1) (by omega))
  rw [mul_div_mul_left _ _ t0.ne'] at hp
  have e : (pieceOf xs ys z i).y0 = y0 ∧ (pieceOf xs ys z i).yf = y1 ∧ (pieceOf xs ys z i).x0 = x0 ∧ (pieceOf xs ys z i).xf = x1 :=
    ⟨TensionSpline.at_of_getElem? f0, TensionSpline.at_of_getElem? f1, TensionSpline.at_of_getElem? e0, TensionSpline.at_of_getElem? e1⟩
  rw [e.1, e.2.1, e.2.2.1, e.2.2.2] at hp
  exact hp

/-- Three points one apart with a change of slope by 2: a tension of 200 keeps within a hundredth of the polyline. -/
example : ∃ s, TensionSpline.natural .debug [0, 1, 2] [0, 1, 0] 200 = .ok s ∧
    ∃ w, TensionSpline.value .debug s (1 / 2) = .ok w ∧ |w - 1 / 2| ≤ 1 / 100 := by
  obtain ⟨s, h, hv⟩ := C141_linear .debug [0, 1, 2] [0, 1, 0] 200 1 2 rfl (by simp) (by norm_num)
    (by
      intro i x0 x1 h0 h1
      rcases i with _ | _ | i
      · simp at h0 h1; subst h0 h1; norm_num
      · simp at h0 h1; subst h0 h1; norm_num
      · simp at h1)
    (by
      intro i x0 x1 x2 y0 y1 y2 h0 h1 h2 g0 g1 g2
      rcases i with _ | i
      · simp at h0 h1 h2 g0 g1 g2; subst h0 h1 h2 g0 g1 g2; norm_num
      · simp at h2) (by norm_num)
  refine ⟨s, h, ?_⟩
  obtain ⟨w, hw, hb⟩ := hv (1 / 2) (1 / 2) ⟨0, 0, 1, 0, 1, rfl, rfl, rfl, rfl, by norm_num, by norm_num, by norm_num⟩
  exact ⟨w, hw, hb.trans (by norm_num)⟩

/-- **C141.** Low tension: if neighbouring points are at most `d` apart, the accelerations of the natural cubic spline at
the points are at most `b` and the tension is at most `1 / d`, then the tension spline differs from the cubic one at no
point of the domain by more than `3/2 (tension d)^2 b` in its acceleration, `d` times as much in its slope and `d^2` times
as much in its value. -/
theorem C141_cubic (mode : Mode) (xs ys : List ℝ) (tau d b : ℝ) (hlen : xs.length = ys.length) (h3 : 3 ≤ xs.length)
    (hinc : xs.Pairwise (· < ·)) (hx : CloserThan xs d) (ht : 0 < tau) (htd : tau * d ≤ 1) (c : CubicSpline.Spline)
    (hc : CubicSpline.natural mode xs ys = .ok c) (hb : ∀ x ∈ xs, ∃ a, CubicSpline.curvature mode c x = .ok a ∧ |a| ≤ b)
    (x0 x1 : ℝ) (h0 : xs.head? = some x0) (h1 : xs.getLast? = some x1) :
    ∃ s, TensionSpline.natural mode xs ys tau = .ok s ∧
      ∀ x, x0 ≤ x → x ≤ x1 →
        (∃ v w, TensionSpline.value mode s x = .ok v ∧ CubicSpline.value mode c x = .ok w ∧
          |v - w| ≤ 3 / 2 * (tau * d) ^ 2 * b * d ^ 2) ∧
        (∃ v w, TensionSpline.slope mode s x = .ok v ∧ CubicSpline.slope mode c x = .ok w ∧
          |v - w| ≤ 3 / 2 * (tau * d) ^ 2 * b * d) ∧
        (∃ v w, TensionSpline.curvature mode s x = .ok v ∧ CubicSpline.curvature mode c x = .ok w ∧
          |v - w| ≤ 3 / 2 * (tau * d) ^ 2 * b) := by
  obtain ⟨m, hm⟩ : ∃ m, xs.length = m + 3 := ⟨xs.length - 3, by omega⟩
  obtain ⟨z, s, hs⟩ := natural_solved mode xs ys tau ht hlen hm hinc
  obtain ⟨M, p, c', hg⟩ := natural_cubic mode xs ys hlen hm hinc
  obtain rfl : c' = c := by
    have := hg.made.symm.trans hc
    exact Outcome.ok.inj this
  refine ⟨s, hs.made, fun x hx0 hx1 => ?_⟩
  have hcl := C141.closer hm hx
  have hB : ∀ i, i ≤ m + 2 → |M i| ≤ b := by
    intro i hi
    obtain ⟨a, h5, h6⟩ := hb (at' xs i) (by rw [at_getElem (by omega)]; exact List.getElem_mem _)
    rw [hg.knots i hi] at h5
    cases h5
    exact h6
  have B0 : 0 ≤ b := (abs_nonneg _).trans (hB 0 (by omega))
  have hE := hs.low hg ht hcl htd hB
  have hxx : x ∈ Icc (at' xs 0) (at' xs (m + 2)) := by
    rw [head_at h0, last_at (m := m + 2) (by omega) h1]; exact ⟨hx0, hx1⟩
  obtain ⟨k, k1, k2, k3⟩ := exists_segment (m := m + 1) hs.knots.rising hxx
  have hlt := hs.knots k (by omega)
  have hh := hcl k (by omega)
  have hpos : 0 < at' xs (k + 1) - at' xs k := sub_pos.2 hlt
  have hseg : x ∈ Icc (at' xs k) (at' xs (k + 1)) := by
    refine ⟨?_, k2⟩
    rcases k3 with k3 | k3
    · subst k3; exact hxx.1
    · exact k3.le
  have hh' : at' xs (k + 1) - at' xs k ≤ d := hh
  have d0 : 0 ≤ d := hpos.le.trans hh'
  have hw : tau * (at' xs (k + 1) - at' xs k) ≤ tau * d := mul_le_mul_of_nonneg_left hh' ht.le
  have hsq : (tau * (at' xs (k + 1) - at' xs k)) ^ 2 ≤ (tau * d) ^ 2 := by
    have : 0 ≤ tau * (at' xs (k + 1) - at' xs k) := by positivity
    gcongr
  set f := pieceOf xs ys z k with hf
  obtain ⟨p1, p2, p3, p4⟩ := hg.ends k (by omega)
  have second : ∀ y ∈ Icc (at' xs k) (at' xs (k + 1)),
      |f.curvature tau y - eval 1 (derivative 2 (derivative 3 (p k))) y| ≤ 3 / 2 * (tau * d) ^ 2 * b := by
    intro y hy
    rw [line_of_ends _ hlt p3 p4 y]
    refine (curvature_low f ht hlt (hw.trans htd) hy (hE k (by omega)) (hE (k + 1) (by omega)) (hB k (by omega))
      (hB (k + 1) (by omega))).trans ?_
    have : (tau * (at' xs (k + 1) - at' xs k)) ^ 2 * b ≤ (tau * d) ^ 2 * b := mul_le_mul_of_nonneg_right hsq B0
    have n : 0 ≤ (tau * d) ^ 2 * b := by positivity
    show 9 / 8 * (tau * d) ^ 2 * b + 9 / 50 * (tau * (at' xs (k + 1) - at' xs k)) ^ 2 * b ≤ _
    linarith
  have pc := piece (yi := at' ys k) (zi := z k) (yf := at' ys (k + 1)) (zf := z (k + 1)) ht hlt
  obtain ⟨sl, va⟩ := small_of_second (d := fun y => f.value tau y - eval 3 (p k) y)
    (d' := fun y => f.slope tau y - eval 2 (derivative 3 (p k)) y)
    (d'' := fun y => f.curvature tau y - eval 1 (derivative 2 (derivative 3 (p k))) y) hlt
    (fun y => (hasDerivAt_value f ht.ne' y).sub (hasDerivAt_eval3 _ y))
    (fun y => (hasDerivAt_slope f ht.ne' y).sub (hasDerivAt_eval2 _ y))
    (by show f.value tau (at' xs k) - eval 3 (p k) (at' xs k) = 0
        rw [p1, sub_eq_zero]; exact pc.1)
    (by show f.value tau (at' xs (k + 1)) - eval 3 (p k) (at' xs (k + 1)) = 0
        rw [p2, sub_eq_zero]; exact pc.2.1) second x hseg
  have E0 : 0 ≤ 3 / 2 * (tau * d) ^ 2 * b := by positivity
  refine ⟨⟨_, _, hs.value k k1 x hxx k2 k3, hg.value k k1 x hxx k2 k3, va.trans ?_⟩,
    ⟨_, _, hs.slope k k1 x hxx k2 k3, hg.slope k k1 x hxx k2 k3, sl.trans (mul_le_mul_of_nonneg_left hh' E0)⟩,
    ⟨_, _, hs.curvature k k1 x hxx k2 k3, hg.curvature k k1 x hxx k2 k3, second x hseg⟩⟩
  rw [pow_two d, ← mul_assoc]
  exact mul_le_mul (mul_le_mul_of_nonneg_left hh' E0) hh' hpos.le (by positivity)

/-- Three points one apart, whose cubic spline has an acceleration of -3 in the middle: a tension of a tenth changes no
value by more than a twentieth. -/
example : ∃ c s v w, CubicSpline.natural .debug [0, 1, 2] [0, 1, 0] = .ok c ∧ TensionSpline.natural .debug [0, 1, 2] [0, 1, 0] (1 / 10) = .ok s ∧
    TensionSpline.value .debug s (1 / 2) = .ok v ∧ CubicSpline.value .debug c (1 / 2) = .ok w ∧ |v - w| ≤ 1 / 20 := by
  obtain ⟨M, p, c, hg⟩ := natural_cubic .debug [0, 1, 2] [0, 1, 0] rfl (m := 0) rfl (by norm_num)
  have r := hg.row 0 (by omega)
  have m0 := hg.first
  have m2 := hg.last
  simp only [hAt, at', Nat.zero_add, List.getD_cons_zero, List.getD_cons_succ] at r m2
  rw [m0, m2] at r
  have m1 : M 1 = -3 := by linarith
  have k := fun i hi => hg.knots i hi
  have k0 : CubicSpline.curvature .debug c 0 = .ok (M 0) := k 0 (by omega)
  have k1 : CubicSpline.curvature .debug c 1 = .ok (M 1) := k 1 (by omega)
  have k2 : CubicSpline.curvature .debug c 2 = .ok (M 2) := k 2 (by omega)
  obtain ⟨s, hs, hv⟩ := C141_cubic .debug [0, 1, 2] [0, 1, 0] (1 / 10) 1 3 rfl (by simp) (by norm_num)
    (by
      intro i x0 x1 h0 h1
      rcases i with _ | _ | i
      · simp at h0 h1; subst h0 h1; norm_num
      · simp at h0 h1; subst h0 h1; norm_num
      · simp at h1) (by norm_num) (by norm_num) c hg.made
    (by
      intro x hx
      simp only [List.mem_cons, List.not_mem_nil, or_false] at hx
      rcases hx with rfl | rfl | rfl
      · exact ⟨_, k0, by rw [m0]; norm_num⟩
      · exact ⟨_, k1, by rw [m1]; norm_num⟩
      · exact ⟨_, k2, by rw [m2]; norm_num⟩) 0 2 rfl rfl
  obtain ⟨⟨v, w, h1, h2, h3⟩, -⟩ := hv (1 / 2) (by norm_num) (by norm_num)
  exact ⟨c, s, v, w, hg.made, hs, h1, h2, h3.trans (by norm_num)⟩

end Ecl.Props
