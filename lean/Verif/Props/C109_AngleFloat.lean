import Verif.Lemmas.AngleFloat

/-! # C109: angles in floating point arithmetic -/
set_option autoImplicit false

namespace Ecl.Props
open Real Ecl.Spec Ecl.AngleFloat Ecl.AngleFloat.Spec
open Ecl.Angle (fmod truncQuot)

namespace C109

theorem piD_pos : 0 < piD := by unfold piD; norm_num
theorem piD_lo : 3.1415926 < piD := by unfold piD; norm_num
theorem piD_hi : piD < 3.1415927 := by unfold piD; norm_num

theorem double_range {fl : ℝ → ℝ} (hfl : RoundsToNearest fl) (a : ℝ) :
    -piD ≤ wrapD fl a ∧ wrapD fl a ≤ piD := by
  have hp := piD_pos
  have hq : fl (2 * piD) = 2 * piD := hfl.self two_piD_double
  unfold wrapD
  split
  · next h => exact ⟨h.2, h.1⟩
  split
  · next h1 h2 =>
    rw [hq]
    have hs : fl (a - piD) < 0 := lt_of_le_of_lt (hfl.le piD_double.neg (by linarith)) (by linarith)
    have hf := fmod_nonpos hs (by linarith : 0 < 2 * piD)
    exact ⟨hfl.ge piD_double.neg (by linarith), hfl.le piD_double (by linarith)⟩
  · next h1 h2 =>
    rw [hq]
    have hs : 0 ≤ fl (a + piD) := le_trans hp.le (hfl.ge piD_double (by linarith))
    have hf := fmod_nonneg hs (by linarith : 0 < 2 * piD)
    exact ⟨hfl.ge piD_double.neg (by linarith), hfl.le piD_double (by linarith)⟩

theorem double_fixed (fl : ℝ → ℝ) {a : ℝ} (h1 : -piD ≤ a) (h2 : a ≤ piD) : wrapD fl a = a := by
  unfold wrapD
  rw [if_pos ⟨h2, h1⟩]

theorem double_error {fl : ℝ → ℝ} (hfl : RoundsToNearest fl) {a c u : ℝ} (hc : |c| = piD) (hu : u = a + c)
    (hw : |fmod (fl u) (2 * piD) - c| ≤ piD) :
    Near ((|a| + 6) / 2 ^ 52) (fl (fmod (fl u) (2 * piD) - c)) a := by
  have hp := piD_pos
  subst hu
  have e1 := hfl.relative (a + c)
  have e2 : |fl (fmod (fl (a + c)) (2 * piD) - c) - (fmod (fl (a + c)) (2 * piD) - c)| ≤ 2 ^ ((2 : ℤ) - 54) :=
    hfl.error (hw.trans (by have := piD_hi; norm_num at this ⊢; linarith))
  have h := wrap_error (by linarith : 0 < 2 * piD) e1 e2 pi_sub
  refine Near.mono h ?_
  have hac : |a + c| ≤ |a| + piD := (abs_add_le _ _).trans_eq (by rw [hc])
  have hs : |fl (a + c)| ≤ (|a| + piD) * (1 + 1 / 2 ^ 53) := by
    have : |fl (a + c)| ≤ |fl (a + c) - (a + c)| + |a + c| := by
      have := abs_add_le (fl (a + c) - (a + c)) (a + c)
      rwa [sub_add_cancel] at this
    have h3 : |a + c| / 2 ^ 53 ≤ (|a| + piD) / 2 ^ 53 := by gcongr
    linarith
  have h4 : |fl (a + c)| / (2 * piD) ≤ |fl (a + c)| / 6 := by
    gcongr
    have := piD_lo
    norm_num at this
    linarith
  have h5 : |fl (a + c)| / (2 * piD) * (1 / 2 ^ 51) ≤ (|a| + piD) * (1 + 1 / 2 ^ 53) / 6 * (1 / 2 ^ 51) := by
    refine mul_le_mul_of_nonneg_right (h4.trans ?_) (by positivity)
    gcongr
  have h6 := piD_hi
  have h7 : |a + c| / 2 ^ 53 ≤ (|a| + piD) / 2 ^ 53 := by gcongr
  have h8 := abs_nonneg a
  rw [show (2 : ℝ) ^ ((2 : ℤ) - 54) = 1 / 2 ^ 52 by norm_num]
  refine (add_le_add (add_le_add h7 le_rfl) h5).trans ?_
  norm_num at h6 ⊢
  linarith

theorem double_near {fl : ℝ → ℝ} (hfl : RoundsToNearest fl) (a : ℝ) :
    Near ((|a| + 6) / 2 ^ 52) (wrapD fl a) a := by
  have hp := piD_pos
  have hq : fl (2 * piD) = 2 * piD := hfl.self two_piD_double
  unfold wrapD
  split
  · exact near_self (by positivity)
  split
  · next h1 h2 =>
    rw [hq]
    have hs : fl (a - piD) < 0 := lt_of_le_of_lt (hfl.le piD_double.neg (by linarith)) (by linarith)
    have hf := fmod_nonpos hs (by linarith : 0 < 2 * piD)
    have := double_error hfl (a := a) (c := -piD) (u := a - piD) (by rw [abs_neg, abs_of_pos hp]) (by ring)
      (abs_le.2 ⟨by linarith, by linarith⟩)
    rwa [sub_neg_eq_add] at this
  · next h1 h2 =>
    rw [hq]
    have hs : 0 ≤ fl (a + piD) := le_trans hp.le (hfl.ge piD_double (by linarith))
    have hf := fmod_nonneg hs (by linarith : 0 < 2 * piD)
    exact double_error hfl (a := a) (c := piD) (u := a + piD) (abs_of_pos hp) rfl
      (abs_le.2 ⟨by linarith, by linarith⟩)

end C109

/-- `wrap_angle` for doubles, whatever the rounding of ties: the result is a double in the open interval
(-π, π), wrapping it again changes nothing, and it has the direction of the argument up to a relative error of
2⁻⁵² (and six times that near zero). -/
theorem C109_double (fl : ℝ → ℝ) (hfl : RoundsToNearest fl) (a : ℝ) (ha : IsDouble a) :
    IsDouble (wrapD fl a) ∧ -π < wrapD fl a ∧ wrapD fl a < π ∧ wrapD fl (wrapD fl a) = wrapD fl a ∧
    Near ((|a| + 6) / 2 ^ 52) (wrapD fl a) a := by
  have h := C109.double_range hfl a
  have h1 := piD_lt
  refine ⟨?_, by linarith, by linarith, C109.double_fixed fl h.1 h.2, C109.double_near hfl a⟩
  unfold wrapD
  split
  · exact ha
  split
  · exact (hfl _).1
  · exact (hfl _).1

/-- There is such a rounding, and an angle of a thousand is wrapped. -/
example : RoundsToNearest round53 ∧ IsDouble 1000 ∧ wrapD round53 1000 ≠ 1000 := by
  refine ⟨round53_nearest, ⟨1000, 0, by norm_num, by norm_num⟩, ?_⟩
  have := C109.double_range round53_nearest 1000
  have h := C109.piD_hi
  norm_num at h
  intro e
  rw [e] at this
  linarith [this.2]

/-- The class `Angle<double>`: an operator and its assigning form agree, all results are in (-π, π), and sums and
differences of two angles are exact to within 2⁻⁴⁷. -/
theorem C109_class (fl : ℝ → ℝ) (hfl : RoundsToNearest fl) (a b k : ℝ) (ha : |a| ≤ π) (hb : |b| ≤ π) :
    add fl (wrapD fl) a b = addAssign fl (wrapD fl) a b ∧
    sub fl (wrapD fl) a b = subAssign fl (wrapD fl) a b ∧
    scale fl (wrapD fl) a k = scaleAssign fl (wrapD fl) a k ∧
    (∀ r ∈ [add fl (wrapD fl) a b, sub fl (wrapD fl) a b, scale fl (wrapD fl) a k], -π < r ∧ r < π) ∧
    Near (1 / 2 ^ 47) (add fl (wrapD fl) a b) (a + b) ∧
    Near (1 / 2 ^ 47) (sub fl (wrapD fl) a b) (a - b) ∧
    Near ((2 * |k * a| + 6) / 2 ^ 52) (scale fl (wrapD fl) a k) (k * a) := by
  have hr := fun x => C109.double_range hfl x
  have hfix : ∀ x, wrapD fl (wrapD fl x) = wrapD fl x := fun x => C109.double_fixed fl (hr x).1 (hr x).2
  have hlt := piD_lt
  have hin : ∀ x, -π < wrapD fl x ∧ wrapD fl x < π := fun x => ⟨by linarith [(hr x).1], by linarith [(hr x).2]⟩
  have hnear : ∀ x, Near ((2 * |x| + 6) / 2 ^ 52) (wrapD fl (fl x)) x := by
    intro x
    have h1 := hfl.relative x
    refine Near.mono (Near.trans (C109.double_near hfl (fl x)) h1) ?_
    have h2 : |fl x| ≤ |x| / 2 ^ 53 + |x| := by
      have := abs_add_le (fl x - x) x
      rw [sub_add_cancel] at this
      linarith
    have h3 := abs_nonneg x
    norm_num at h2 ⊢
    linarith
  have hpi := pi_lt_d2
  have hsum : |a + b| ≤ 2 * π := (abs_add_le _ _).trans (by linarith)
  have hdif : |a - b| ≤ 2 * π := (abs_sub _ _).trans (by linarith)
  simp only [add, sub, scale, addAssign, subAssign, scaleAssign, make, hfix, mul_comm k a, true_and,
    List.mem_cons, List.not_mem_nil, or_false]
  refine ⟨?_, Near.mono (hnear _) ?_, Near.mono (hnear _) ?_, hnear _⟩
  · rintro r (rfl | rfl | rfl) <;> exact hin _
  · norm_num at hpi ⊢
    linarith
  · norm_num at hpi ⊢
    linarith

namespace C109

theorem flip {fs : ℝ → ℝ} (hfs : RoundsToSingle fs) : RoundsToSingle fun x => -fs (-x) := by
  intro x
  refine ⟨(hfs (-x)).1.neg, fun y hy => ?_⟩
  have h := (hfs (-x)).2 (-y) hy.neg
  have e1 : |fs (-x) - -x| = |-fs (-x) - x| := by rw [← abs_neg]; congr 1; ring
  have e2 : |-y - -x| = |y - x| := by rw [← abs_neg]; congr 1; ring
  rwa [e1, e2] at h

theorem single_two_pi {fl fs : ℝ → ℝ} (hfl : RoundsToNearest fl) (hfs : RoundsToSingle fs) :
    fs (fl (2 * piD)) = 2 * piS := by
  rw [hfl.self two_piD_double]
  have := hfs.eq (x := 2 * piD) (k := 13176795) (E := -21) (by norm_num) (by norm_num)
    (by rw [abs_lt]; unfold piD; constructor <;> norm_num)
  rw [this]
  unfold piS
  norm_num

theorem single_pi {fs : ℝ → ℝ} (hfs : RoundsToSingle fs) : fs piD = piS := by
  have := hfs.eq (x := piD) (k := 13176795) (E := -22) (by norm_num) (by norm_num)
    (by rw [abs_lt]; unfold piD; constructor <;> norm_num)
  rw [this]
  unfold piS
  norm_num

theorem single_neg_pi {fs : ℝ → ℝ} (hfs : RoundsToSingle fs) : fs (-piD) = -piS := by
  have := single_pi (flip hfs)
  linarith

theorem single_sum {fs : ℝ → ℝ} (hfs : RoundsToSingle fs) : fs (piS + piD) = 2 * piS := by
  have := hfs.eq (x := piS + piD) (k := 13176795) (E := -21) (by norm_num) (by norm_num)
    (by rw [abs_lt]; unfold piD piS; constructor <;> norm_num)
  rw [this]
  unfold piS
  norm_num

theorem sum_double : IsDouble (piS + piD) :=
  ⟨13176795 * 2 ^ 26 + 884279719003555, -48, by norm_num, by unfold piS piD; norm_num⟩

/-- No float rounds up over `piS` from below the middle to the next one. -/
theorem single_le {fs : ℝ → ℝ} (hfs : RoundsToSingle fs) {v : ℝ} (h : v < piS + 1 / 2 ^ 23) : fs v ≤ piS := by
  by_contra hc
  rw [not_le] at hc
  have h1 : fs v < piS + 1 / 2 ^ 22 := hfs.lt piS_single (by norm_num at h ⊢; linarith) (by norm_num)
  have h2 : (2 : ℝ) ^ (1 : ℤ) ≤ |fs v| := by
    refine le_trans ?_ (le_abs_self _)
    unfold piS at hc
    norm_num at hc ⊢
    linarith
  obtain ⟨k, hk⟩ := (hfs v).1.grid h2
  rw [hk] at h1 hc
  unfold piS at h1 hc
  norm_num at h1 hc
  have h3 : ((13176795 : ℤ) : ℝ) < k := by push_cast; linarith
  have h4 : (k : ℝ) < ((13176796 : ℤ) : ℝ) := by push_cast; linarith
  rw [Int.cast_lt] at h3 h4
  omega

theorem single_ge {fs : ℝ → ℝ} (hfs : RoundsToSingle fs) {v : ℝ} (h : -(piS + 1 / 2 ^ 23) < v) : -piS ≤ fs v := by
  have := single_le (flip hfs) (v := -v) (by linarith)
  rw [neg_neg] at this
  linarith

/-- Double results just beyond `piS`. -/
theorem bump_double : IsDouble (piS + 15 / 2 ^ 27) :=
  ⟨13176795 * 32 + 15, -27, by norm_num, by unfold piS; norm_num⟩

theorem piS_gap : piS - piD < 15 / 2 ^ 27 ∧ 0 < piS - piD := by unfold piS piD; norm_num

theorem single_steps {fl fs : ℝ → ℝ} (hfl : RoundsToNearest fl) (hfs : RoundsToSingle fs) {a c u : ℝ}
    (hc : |c| = piD) (hu : u = a + c) (hw : |fmod (fs (fl u)) (2 * piS) - c| ≤ piS + 15 / 2 ^ 27) :
    -piS ≤ fs (fl (fmod (fs (fl u)) (2 * piS) - c)) ∧ fs (fl (fmod (fs (fl u)) (2 * piS) - c)) ≤ piS ∧
    Near ((|a| + 6) / 2 ^ 23) (fs (fl (fmod (fs (fl u)) (2 * piS) - c))) a := by
  have hp := piD_pos
  have hg := piS_gap
  subst hu
  generalize hwv : fmod (fs (fl (a + c))) (2 * piS) - c = w at *
  obtain ⟨hw1, hw2⟩ := abs_le.1 hw
  have hf1 : fl w ≤ piS + 15 / 2 ^ 27 := hfl.le bump_double hw2
  have hf2 : -(piS + 15 / 2 ^ 27) ≤ fl w := hfl.ge bump_double.neg hw1
  refine ⟨single_ge hfs (lt_of_lt_of_le (by norm_num) hf2), single_le hfs (lt_of_le_of_lt hf1 (by norm_num)), ?_⟩
  have hpS : piS < 3.1415928 := by unfold piS; norm_num
  have hpS' : 3.1415927 < piS := by unfold piS; norm_num
  have hpD := piD_hi
  norm_num at hpS hpS' hpD
  have e1 : |fs (fl (a + c)) - (a + c)| ≤ |a + c| * (1.01 / 2 ^ 24) := by
    have h1 := hfl.relative (a + c)
    have h2 := hfs.relative (fl (a + c))
    have h3 : |fl (a + c)| ≤ |a + c| / 2 ^ 53 + |a + c| := by
      have := abs_add_le (fl (a + c) - (a + c)) (a + c)
      rw [sub_add_cancel] at this
      linarith
    have h4 : |fs (fl (a + c)) - (a + c)| ≤ |fs (fl (a + c)) - fl (a + c)| + |fl (a + c) - (a + c)| :=
      abs_sub_le _ _ _
    have h5 := abs_nonneg (a + c)
    norm_num at h1 h2 h3 ⊢
    linarith
  have hw4 : |w| ≤ 2 ^ (2 : ℤ) := by
    refine hw.trans ?_
    norm_num
    linarith
  have hf4 : |fl w| ≤ 2 ^ (2 : ℤ) := by
    rw [abs_le]
    norm_num at hf1 hf2 ⊢
    constructor <;> linarith
  have e2 : |fs (fl w) - w| ≤ 1.01 / 2 ^ 23 := by
    have h1 := hfl.error hw4
    have h2 := hfs.error hf4
    have h3 : |fs (fl w) - w| ≤ |fs (fl w) - fl w| + |fl w - w| := abs_sub_le _ _ _
    norm_num at h1 h2 ⊢
    linarith
  have e3 : |2 * piS - 2 * π| ≤ 3 / 2 ^ 24 := by
    have h1 := pi_gt_d20
    have h2 := pi_lt_d20
    unfold piS
    rw [abs_le]
    norm_num at h1 h2 ⊢
    constructor <;> linarith
  rw [← hwv] at e2 ⊢
  have h := wrap_error (by linarith : 0 < 2 * piS) e1 e2 e3
  refine Near.mono h ?_
  have hac : |a + c| ≤ |a| + piD := (abs_add_le _ _).trans_eq (by rw [hc])
  have hs : |fs (fl (a + c))| ≤ |a + c| * 1.01 := by
    have h1 := abs_add_le (fs (fl (a + c)) - (a + c)) (a + c)
    rw [sub_add_cancel] at h1
    have h5 := abs_nonneg (a + c)
    norm_num at e1 ⊢
    linarith
  have h4 : |fs (fl (a + c))| / (2 * piS) ≤ |a + c| * 1.01 / 6 := by
    have h0 := abs_nonneg (a + c)
    refine (div_le_div_of_nonneg_right hs (by linarith)).trans ?_
    gcongr
    linarith
  have h5 : |fs (fl (a + c))| / (2 * piS) * (3 / 2 ^ 24) ≤ |a + c| * 1.01 / 6 * (3 / 2 ^ 24) :=
    mul_le_mul_of_nonneg_right h4 (by positivity)
  refine (add_le_add le_rfl h5).trans ?_
  have h8 := abs_nonneg a
  norm_num
  linarith

end C109

/-- `wrap_angle` for floats: the result is between the floats nearest to -π and π, and it has the direction of
the argument up to a relative error of 2⁻²³ (and six times that near zero). -/
theorem C109_single_partial (fl fs : ℝ → ℝ) (hfl : RoundsToNearest fl) (hfs : RoundsToSingle fs) (a : ℝ) :
    -piS ≤ wrapS fl fs a ∧ wrapS fl fs a ≤ piS ∧ Near ((|a| + 6) / 2 ^ 23) (wrapS fl fs a) a := by
  have hp := C109.piD_pos
  have hg := C109.piS_gap
  unfold wrapS
  rw [C109.single_two_pi hfl hfs]
  split
  · next h => exact ⟨by linarith [h.2], by linarith [h.1], near_self (by positivity)⟩
  split
  · next h1 h2 =>
    have hs : fs (fl (a - piD)) < 0 := by
      have h3 : fl (a - piD) ≤ -piD := hfl.le piD_double.neg (by linarith)
      have h4 : fs (fl (a - piD)) ≤ -1 := hfs.le ⟨-1, 0, by norm_num, by norm_num⟩
        (by have := C109.piD_lo; norm_num at this; linarith)
      linarith
    have hf := fmod_nonpos hs (by linarith : 0 < 2 * piS)
    have := C109.single_steps hfl hfs (a := a) (c := -piD) (u := a - piD) (by rw [abs_neg, abs_of_pos hp]) (by ring)
      (abs_le.2 ⟨by linarith, by linarith⟩)
    rwa [sub_neg_eq_add] at this
  · next h1 h2 =>
    have hs : 0 ≤ fs (fl (a + piD)) :=
      hfs.ge ⟨0, 0, by norm_num, by norm_num⟩ (le_trans hp.le (hfl.ge piD_double (by linarith)))
    have hf := fmod_nonneg hs (by linarith : 0 < 2 * piS)
    exact C109.single_steps hfl hfs (a := a) (c := piD) (u := a + piD) (abs_of_pos hp) rfl
      (abs_le.2 ⟨by linarith, by linarith⟩)

/-- For floats the result may lie outside of [-π, π], and then wrapping it again gives the other end. -/
theorem C109_fails_single (fl fs : ℝ → ℝ) (hfl : RoundsToNearest fl) (hfs : RoundsToSingle fs) :
    IsSingle piS ∧ wrapS fl fs piS = -piS ∧ wrapS fl fs (-piS) = piS ∧ π < piS := by
  have hp := C109.piD_pos
  have hg := C109.piS_gap
  have hpS : 0 < 2 * piS := by linarith
  refine ⟨piS_single, ?_, ?_, ?_⟩
  · unfold wrapS
    rw [C109.single_two_pi hfl hfs, if_neg (by intro h; linarith [h.1]), if_neg (by linarith),
      hfl.self C109.sum_double, C109.single_sum hfs]
    have : fmod (2 * piS) (2 * piS) = 0 := by
      unfold fmod truncQuot
      rw [div_self hpS.ne', if_pos (by norm_num)]
      norm_num
    rw [this, zero_sub, hfl.self piD_double.neg, C109.single_neg_pi hfs]
  · have e : fs (-piS - piD) = -(2 * piS) := by
      have := C109.single_sum (C109.flip hfs)
      rw [show -(piS + piD) = -piS - piD by ring] at this
      linarith
    unfold wrapS
    rw [C109.single_two_pi hfl hfs, if_neg (by intro h; linarith [h.2]), if_pos (by linarith),
      hfl.self (x := -piS - piD) (by rw [show -piS - piD = -(piS + piD) by ring]; exact C109.sum_double.neg), e]
    have : fmod (-(2 * piS)) (2 * piS) = 0 := by
      unfold fmod truncQuot
      rw [neg_div, div_self hpS.ne', if_neg (by norm_num)]
      norm_num
    rw [this, zero_add, hfl.self piD_double, C109.single_pi hfs]
  · have h2 := pi_lt_d20
    unfold piS
    norm_num at h2 ⊢
    linarith

/-- So `a + b` and `a += b` may differ for `Angle<float>`: from the angle 0 and the float nearest to π, one ends at
π and the other at -π. -/
theorem C109_fails_single_class (fl fs : ℝ → ℝ) (hfl : RoundsToNearest fl) (hfs : RoundsToSingle fs) :
    add fs (wrapS fl fs) 0 piS = piS ∧ addAssign fs (wrapS fl fs) 0 piS = -piS := by
  obtain ⟨h1, h2, h3, _⟩ := C109_fails_single fl fs hfl hfs
  simp only [add, addAssign, make, zero_add, hfs.self h1, h2, h3, and_self]

example : RoundsToSingle round24 := round24_nearest

/-- From degrees to radians and back: a relative error of 2⁻⁵⁰ for doubles and 2⁻²¹ for floats. -/
theorem C109_units (fl fs : ℝ → ℝ) (hfl : RoundsToNearest fl) (hfs : RoundsToSingle fs) (d : ℝ) :
    |radiansToDegrees fl fl (degreesToRadians fl fl d) - d| ≤ |d| / 2 ^ 50 ∧
    |radiansToDegrees fl fs (degreesToRadians fl fs d) - d| ≤ |d| / 2 ^ 21 := by
  have hp := C109.piD_pos
  -- a number near another one is a multiple of it by a factor near one
  have factor : ∀ (x y e : ℝ), |y - x| ≤ |x| * e → ∃ f, y = x * f ∧ |f - 1| ≤ e ∨ x = 0 ∧ y = 0 := by
    intro x y e h
    rcases eq_or_ne x 0 with rfl | hx
    · rw [abs_zero, zero_mul, sub_zero] at h
      exact ⟨0, .inr ⟨rfl, abs_nonpos_iff.1 h⟩⟩
    · refine ⟨y / x, .inl ⟨by field_simp, ?_⟩⟩
      rw [div_sub_one hx, abs_div, div_le_iff₀ (abs_pos.2 hx)]
      linarith
  have prod : ∀ (f g A B : ℝ), |f - 1| ≤ A → |g - 1| ≤ B → |f * g - 1| ≤ A + B + A * B := by
    intro f g A B hA hB
    have e : f * g - 1 = (f - 1) + (g - 1) + (f - 1) * (g - 1) := by ring
    rw [e]
    refine (abs_add_le _ _).trans (add_le_add ((abs_add_le _ _).trans (add_le_add hA hB)) ?_)
    rw [abs_mul]
    exact mul_le_mul hA hB (abs_nonneg _) ((abs_nonneg _).trans hA)
  have four : ∀ (rnd : ℝ → ℝ) (e : ℝ), 0 ≤ e → e ≤ 1 / 2 ^ 22 → (∀ x, |rnd x - x| ≤ |x| * e) →
      ∀ c c', |c - piD / 180| ≤ |piD / 180| * (e * 1.01) → |c' - 180 / piD| ≤ |180 / piD| * (e * 1.01) →
      |rnd (rnd (d * c) * c') - d| ≤ |d| * (e * 8) := by
    intro rnd e he he' hr c c' hc hc'
    obtain ⟨f, ⟨hf1, hf2⟩ | h⟩ := factor _ _ _ hc
    swap
    · exact absurd h.1 (by positivity)
    obtain ⟨g, ⟨hg1, hg2⟩ | h⟩ := factor _ _ _ hc'
    swap
    · exact absurd h.1 (by positivity)
    obtain ⟨u, hu⟩ : ∃ u, rnd (d * c) = d * c * u ∧ |u - 1| ≤ e := by
      obtain ⟨u, h | h⟩ := factor _ _ _ (hr (d * c))
      · exact ⟨u, h⟩
      · exact ⟨1, by rw [h.2, h.1]; ring, by simpa using he⟩
    obtain ⟨v, hv⟩ : ∃ v, rnd (rnd (d * c) * c') = rnd (d * c) * c' * v ∧ |v - 1| ≤ e := by
      obtain ⟨v, h | h⟩ := factor _ _ _ (hr (rnd (d * c) * c'))
      · exact ⟨v, h⟩
      · exact ⟨1, by rw [h.2, h.1]; ring, by simpa using he⟩
    have e1 : rnd (rnd (d * c) * c') - d = d * ((f * g) * (u * v) - 1) := by
      rw [hv.1, hu.1, hf1, hg1]
      field_simp
    rw [e1, abs_mul]
    refine mul_le_mul_of_nonneg_left ?_ (abs_nonneg _)
    have h1 := prod _ _ _ _ hf2 hg2
    have h2 := prod _ _ _ _ hu.2 hv.2
    have q1 : |f * g - 1| ≤ e * 3 := by
      refine h1.trans ?_
      have : e * e ≤ e * (1 / 2 ^ 22) := mul_le_mul_of_nonneg_left he' he
      norm_num at this ⊢
      nlinarith
    have q2 : |u * v - 1| ≤ e * 3 := by
      refine h2.trans ?_
      have : e * e ≤ e * (1 / 2 ^ 22) := mul_le_mul_of_nonneg_left he' he
      norm_num at this ⊢
      nlinarith
    refine (prod _ _ _ _ q1 q2).trans ?_
    have : e * e ≤ e * (1 / 2 ^ 22) := mul_le_mul_of_nonneg_left he' he
    norm_num at this ⊢
    nlinarith
  have rel2 : ∀ x, |fs (fl x) - x| ≤ |x| * (1 / 2 ^ 24 * 1.01) := by
    intro x
    have h1 := hfl.relative x
    have h2 := hfs.relative (fl x)
    have h3 : |fl x| ≤ |x| / 2 ^ 53 + |x| := by
      have := abs_add_le (fl x - x) x
      rw [sub_add_cancel] at this
      linarith
    have h4 : |fs (fl x) - x| ≤ |fs (fl x) - fl x| + |fl x - x| := abs_sub_le _ _ _
    have h5 := abs_nonneg x
    norm_num at h1 h2 h3 ⊢
    linarith
  have rel1 : ∀ x, |fl (fl x) - x| ≤ |x| * (1 / 2 ^ 53 * 1.01) := by
    intro x
    rw [hfl.self (hfl x).1]
    have h1 := hfl.relative x
    have h5 := abs_nonneg x
    norm_num at h1 ⊢
    linarith
  constructor
  · refine (four fl (1 / 2 ^ 53) (by positivity) (by norm_num) (fun x => ?_) _ _ (rel1 _) (rel1 _)).trans ?_
    · exact (hfl.relative x).trans_eq (by ring)
    · apply le_of_eq
      ring
  · refine (four fs (1 / 2 ^ 24) (by positivity) (by norm_num) (fun x => ?_) _ _ (rel2 _) (rel2 _)).trans ?_
    · exact (hfs.relative x).trans_eq (by ring)
    · apply le_of_eq
      ring

end Ecl.Props
