import Verif.Lemmas.RangeAngle
import Verif.Lemmas.RangeText
import Verif.Lemmas.RangePolynomial
import Verif.Lemmas.RangeQuadratic
import Verif.Lemmas.RangeSegment
import Verif.Props.C109_AngleFloat
import Verif.Props.C111_TextFloat
import Verif.Props.C114_PolynomialFloat
import Verif.Props.C116_SegmentFloat

/-! # C133: the limits of the exponent -/
set_option autoImplicit false
set_option linter.unusedSimpArgs false

namespace Ecl.Props
open Ecl Ecl.Odometry Ecl.Spec
open Ecl.AngleFloat.Spec (Near piS)
open Ecl.Poly (ofList)
open Real (pi)
open scoped Real

namespace C133
open Ecl.AngleFloat
open Ecl.Angle (fmod)

theorem double_exists : ∃ fl, RoundsDouble fl := exists_roundsIn (by norm_num)
theorem float_exists : ∃ fl, RoundsFloat fl := exists_roundsIn (by norm_num)

/-- The result of wrapping is a double, subnormal ones included. -/
theorem wrap_format {fl : ℝ → ℝ} (hfl : RoundsDouble fl) {a : ℝ} (ha : InFormat 53 (-1074) 1024 a) :
    InFormat 53 (-1074) 1024 (wrapD fl a) := by
  have hpi := piD_bounds
  have h2 : InFormat 53 (-1074) 1024 (2 * piD) := by
    refine ⟨884279719003555, -47, by norm_num, by norm_num, by norm_num, ?_⟩
    unfold piD
    rw [zpow_neg]
    norm_num
  have small (z c : ℝ) (hc : |c| ≤ 4) : |fmod z (2 * piD) + c| ≤ largest 53 1024 := by
    have h3 := fmod_small (s := z) (q := 2 * piD) (by linarith)
    refine le_trans ?_ (large_double (e := 4) (by norm_num))
    have h4 := abs_add_le (fmod z (2 * piD)) c
    norm_num
    linarith
  unfold wrapD
  rw [RoundsIn.self hfl h2]
  split
  · exact ha
  · split
    · exact (hfl _ (small _ _ (by rw [abs_of_pos (by linarith)]; linarith))).1
    · refine (hfl _ ?_).1
      rw [sub_eq_add_neg]
      exact small _ _ (by rw [abs_neg, abs_of_pos (by linarith)]; linarith)

theorem pi_le : |(π : ℝ)| ≤ 2 ^ (2 : ℤ) := by
  rw [abs_of_pos Real.pi_pos]
  norm_num
  exact Real.pi_le_four

end C133
open C133

section
open Ecl.AngleFloat

/-- **C133.** `wrap_angle` for doubles of absolute value up to `2^1022`, subnormal ones included: as without limits for
the exponent (`C109_double`). -/
theorem C133_wrap {fl : ℝ → ℝ} (hfl : RoundsDouble fl) (a : ℝ) (ha : InFormat 53 (-1074) 1024 a)
    (hl : |a| ≤ 2 ^ (1022 : ℤ)) :
    InFormat 53 (-1074) 1024 (wrapD fl a) ∧ -π < wrapD fl a ∧ wrapD fl a < π ∧ wrapD fl (wrapD fl a) = wrapD fl a ∧
    Near ((|a| + 6) / 2 ^ 52) (wrapD fl a) a := by
  obtain ⟨fl1, h1, hag⟩ := hfl.agrees
  have e := wrapD_agrees h1 hag hl
  obtain ⟨-, b1, b2, b3, b4⟩ := C109_double fl1 (rounds_double.1 h1) a ha.isFloat
  have hb : |wrapD fl1 a| ≤ 2 ^ (1022 : ℤ) := by
    have h4 : |wrapD fl1 a| ≤ |π| := by
      rw [abs_of_pos Real.pi_pos]
      exact abs_le.2 ⟨b1.le, b2.le⟩
    exact (h4.trans pi_le).trans (zpow_le_zpow_right₀ (by norm_num) (by norm_num))
  refine ⟨wrap_format hfl ha, ?_⟩
  rw [e]
  exact ⟨b1, b2, (wrapD_agrees h1 hag hb).trans b3, b4⟩

/-- **C133.** Sums and differences of angles: as without limits for the exponent (`C109_class`). -/
theorem C133_class {fl : ℝ → ℝ} (hfl : RoundsDouble fl) (a b : ℝ) (ha : InFormat 53 (-1074) 1024 a)
    (hb : InFormat 53 (-1074) 1024 b) (hap : |a| ≤ π) (hbp : |b| ≤ π) :
    add fl (wrapD fl) a b = addAssign fl (wrapD fl) a b ∧
    sub fl (wrapD fl) a b = subAssign fl (wrapD fl) a b ∧
    (∀ r ∈ [add fl (wrapD fl) a b, sub fl (wrapD fl) a b], InFormat 53 (-1074) 1024 r ∧ -π < r ∧ r < π) ∧
    Near (1 / 2 ^ 47) (add fl (wrapD fl) a b) (a + b) ∧
    Near (1 / 2 ^ 47) (sub fl (wrapD fl) a b) (a - b) := by
  obtain ⟨fl1, h1, hag⟩ := hfl.agrees
  have key (s : ℝ) (hm : ∃ k : ℤ, s = k * (2 : ℝ) ^ (-1074 : ℤ)) (hs : |s| ≤ 2 ^ (3 : ℤ)) :
      InFormat 53 (-1074) 1024 (fl s) ∧ fl s = fl1 s ∧ wrapD fl (fl s) = wrapD fl1 (fl1 s) ∧
      wrapD fl (wrapD fl (fl s)) = wrapD fl1 (wrapD fl1 (fl1 s)) ∧ wrapD fl (wrapD fl (fl s)) = wrapD fl (fl s) := by
    have h3 := hag _ (safe_double_multiple hm hs (by norm_num) (by norm_num))
    have h4 := (hfl s (hs.trans (large_double (by norm_num)))).1
    have h5 : |fl s| ≤ 2 ^ (1022 : ℤ) := by
      rw [h3]
      exact (h1.abs_le (isFloat_pow (by norm_num) 3) hs).trans (zpow_le_zpow_right₀ (by norm_num) (by norm_num))
    obtain ⟨g1, g2, g3, g4, g5⟩ := C133_wrap hfl (fl s) h4 h5
    have h6 : |wrapD fl (fl s)| ≤ 2 ^ (1022 : ℤ) := by
      have h7 : |wrapD fl (fl s)| ≤ |π| := by
        rw [abs_of_pos Real.pi_pos]
        exact abs_le.2 ⟨g2.le, g3.le⟩
      exact (h7.trans pi_le).trans (zpow_le_zpow_right₀ (by norm_num) (by norm_num))
    refine ⟨h4, h3, ?_, ?_, g4⟩
    · rw [wrapD_agrees h1 hag h5, h3]
    · rw [wrapD_agrees h1 hag h6, wrapD_agrees h1 hag h5, h3]
  have ha4 : |a| ≤ 2 ^ (2 : ℤ) := (hap.trans (le_abs_self _)).trans pi_le
  have hb4 : |b| ≤ 2 ^ (2 : ℤ) := (hbp.trans (le_abs_self _)).trans pi_le
  obtain ⟨a1, a2, a3, a4, a5⟩ := key (a + b) (multiple_add ha.multiple hb.multiple) (PolyFloat.add_abs_pow ha4 hb4)
  obtain ⟨s1, s2, s3, s4, s5⟩ := key (a - b) (multiple_sub ha.multiple hb.multiple)
    (by rw [sub_eq_add_neg]; exact PolyFloat.add_abs_pow ha4 (by rw [abs_neg]; exact hb4))
  obtain ⟨c1, c2, -, c4, c5, c6, -⟩ := C109_class fl1 (rounds_double.1 h1) a b 0 hap hbp
  have ea : add fl (wrapD fl) a b = add fl1 (wrapD fl1) a b := a4
  have es : sub fl (wrapD fl) a b = sub fl1 (wrapD fl1) a b := s4
  refine ⟨a5, s5, ?_, by rw [ea]; exact c5, by rw [es]; exact c6⟩
  intro r hr
  have hf : InFormat 53 (-1074) 1024 r := by
    simp only [List.mem_cons, List.not_mem_nil, or_false] at hr
    rcases hr with rfl | rfl
    · exact wrap_format hfl (wrap_format hfl a1)
    · exact wrap_format hfl (wrap_format hfl s1)
  rw [ea, es] at hr
  refine ⟨hf, c4 r ?_⟩
  simp only [List.mem_cons, List.not_mem_nil, or_false] at hr ⊢
  tauto

/-- **C133.** `wrap_angle` for floats of absolute value up to `2^126`. -/
theorem C133_wrap_single_partial {fl fs : ℝ → ℝ} (hfl : RoundsDouble fl) (hfs : RoundsFloat fs) (a : ℝ)
    (hl : |a| ≤ 2 ^ (126 : ℤ)) :
    -piS ≤ wrapS fl fs a ∧ wrapS fl fs a ≤ piS ∧ Near ((|a| + 6) / 2 ^ 23) (wrapS fl fs a) a := by
  obtain ⟨fl1, h1, hag⟩ := hfl.agrees
  obtain ⟨fs1, h2, has⟩ := hfs.agrees
  rw [wrapS_agrees h1 h2 hag has hl]
  exact C109_single_partial fl1 fs1 (rounds_double.1 h1) (rounds_single.1 h2) a

end

example : ∃ fl fs : ℝ → ℝ, RoundsDouble fl ∧ RoundsFloat fs ∧
    AngleFloat.wrapD fl (2 ^ (-1074 : ℤ)) = 2 ^ (-1074 : ℤ) ∧ AngleFloat.wrapS fl fs (2 ^ (100 : ℤ)) ≤ piS ∧
    AngleFloat.add fl (AngleFloat.wrapD fl) (2 ^ (-1074 : ℤ)) (2 ^ (-1074 : ℤ)) < π := by
  obtain ⟨fl, hfl⟩ := double_exists
  obtain ⟨fs, hfs⟩ := float_exists
  have h0 : (0 : ℝ) < 2 ^ (-1074 : ℤ) := by positivity
  have h1 : (2 : ℝ) ^ (-1074 : ℤ) ≤ 1 := by
    have := zpow_le_zpow_right₀ (by norm_num : (1 : ℝ) ≤ 2) (by norm_num : (-1074 : ℤ) ≤ 0)
    simpa using this
  have hf : InFormat 53 (-1074) 1024 ((2 : ℝ) ^ (-1074 : ℤ)) := ⟨1, -1074, by norm_num, by norm_num, by norm_num, by simp⟩
  refine ⟨fl, fs, hfl, hfs, ?_, (C133_wrap_single_partial hfl hfs _ ?_).2.1, ?_⟩
  · unfold AngleFloat.wrapD
    have := AngleFloat.piD_bounds
    rw [if_pos ⟨by linarith, by linarith⟩]
  · rw [abs_of_pos (by positivity)]
    exact zpow_le_zpow_right₀ (by norm_num) (by norm_num)
  · have hp := Real.pi_gt_three
    have ha : |(2 : ℝ) ^ (-1074 : ℤ)| ≤ π := by rw [abs_of_pos h0]; linarith
    exact ((C133_class hfl _ _ hf hf ha ha).2.2.1 _ (by simp)).2.2

section
open Ecl.AngleFloat

/-- **C133 fails.** The smallest positive number of degrees becomes 0 radians: the relative error of the conversion is
not bounded near zero. -/
theorem C133_fails_units {fl : ℝ → ℝ} (hfl : RoundsDouble fl) :
    InFormat 53 (-1074) 1024 ((2 : ℝ) ^ (-1074 : ℤ)) ∧ degreesToRadians fl fl ((2 : ℝ) ^ (-1074 : ℤ)) = 0 := by
  refine ⟨⟨1, -1074, by norm_num, by norm_num, by norm_num, by simp⟩, ?_⟩
  obtain ⟨fl1, h1, hag⟩ := hfl.agrees
  have hb := piD_bounds
  have hq : |fl (piD / 180)| ≤ (2 : ℝ) ^ (-5 : ℤ) := by
    have e1 : |piD / 180| ≤ (2 : ℝ) ^ (-5 : ℤ) := by
      rw [abs_of_pos (by linarith)]
      norm_num
      linarith
    have e2 : (2 : ℝ) ^ (-10 : ℤ) ≤ |piD / 180| := by
      rw [abs_of_pos (by linarith)]
      norm_num
      linarith
    rw [hag _ (safe_double e2 e1 (by norm_num) (by norm_num))]
    exact h1.abs_le (isFloat_pow (by norm_num) _) e1
  have hqf : fl (fl (piD / 180)) = fl (piD / 180) := by
    refine RoundsIn.self hfl (hfl _ ?_).1
    refine le_trans ?_ (large_double (e := 0) (by norm_num))
    rw [abs_of_pos (by linarith)]
    norm_num
    linarith
  unfold degreesToRadians
  rw [hqf]
  refine PolyFloat.RoundsDouble_tiny hfl ?_
  refine lt_of_le_of_lt (PolyFloat.mul_abs_pow (a := -1074) ?_ hq) ?_
  · rw [abs_of_pos (by positivity)]
  · exact zpow_lt_zpow_right₀ (by norm_num) (by norm_num)

/-- **C133, partial.** For 0 and absolute values between `2^-1000` and `2^1000` the conversions are as without limits
(`C109_units`). -/
theorem C133_units_partial {fl : ℝ → ℝ} (hfl : RoundsDouble fl) (d : ℝ)
    (hd : d = 0 ∨ 2 ^ (-1000 : ℤ) ≤ |d| ∧ |d| ≤ 2 ^ (1000 : ℤ)) :
    |radiansToDegrees fl fl (degreesToRadians fl fl d) - d| ≤ |d| / 2 ^ 50 := by
  obtain ⟨fl1, h1, hag⟩ := hfl.agrees
  obtain ⟨fs, hfs⟩ := float_exists
  obtain ⟨fs1, h2, has⟩ := hfs.agrees
  have hp : 1 ≤ 53 := by norm_num
  have hb := piD_bounds
  have hq : SegmentFloat.Size (-10) 10 (piD / 180) := by
    refine .inr ⟨?_, ?_⟩ <;>
    · rw [abs_of_pos (by linarith)]
      norm_num
      linarith
  have hr : SegmentFloat.Size (-10) 10 (180 / piD) := by
    have hpos : 0 < piD := by linarith
    have e1 : 1 ≤ 180 / piD := by rw [le_div_iff₀ hpos]; linarith
    have e2 : 180 / piD ≤ 1024 := by rw [div_le_iff₀ hpos]; linarith
    refine .inr ⟨?_, ?_⟩ <;>
    · rw [abs_of_pos (by linarith)]
      norm_num
      linarith
  have hd' : SegmentFloat.Size (-1000) 1000 d := hd
  have h3 := hq.round h1 hp
  have h4 := hr.round h1 hp
  have h5 := h3.round h1 hp
  have h6 := h4.round h1 hp
  have h7 := hd'.mul h5
  have h8 := (h7.round h1 hp).mul h6
  have e := (C109_units fl1 fs1 (rounds_double.1 h1) (rounds_single.1 h2) d).1
  unfold radiansToDegrees degreesToRadians at e ⊢
  rw [hag _ (hq.safe (by norm_num) (by norm_num)), hag _ (hr.safe (by norm_num) (by norm_num)),
    hag _ (h3.safe (by norm_num) (by norm_num)), hag _ (h4.safe (by norm_num) (by norm_num)),
    hag _ (h7.safe (by norm_num) (by norm_num)), hag _ (h8.safe (by norm_num) (by norm_num))]
  exact e

example : ∃ fl : ℝ → ℝ, RoundsDouble fl ∧ |radiansToDegrees fl fl (degreesToRadians fl fl 90) - 90| ≤ 90 / 2 ^ 50 := by
  obtain ⟨fl, hfl⟩ := double_exists
  have h := C133_units_partial hfl 90 (.inr ⟨?_, ?_⟩)
  · rw [abs_of_pos (by norm_num : (0 : ℝ) < 90)] at h
    exact ⟨fl, hfl, h⟩
  · have := zpow_le_zpow_right₀ (by norm_num : (1 : ℝ) ≤ 2) (by norm_num : (-1000 : ℤ) ≤ 0)
    refine this.trans (by norm_num)
  · have := zpow_le_zpow_right₀ (by norm_num : (1 : ℝ) ≤ 2) (by norm_num : (7 : ℤ) ≤ 1000)
    exact le_trans (by norm_num) this

end

section
open Ecl.TextFloat

/-- **C133.** Reading numbers from text never overflows and never underflows: whatever the text, the outcome is that of
some arithmetic without limits for the exponent, for `float` and for `double`.  So C111 holds as it stands. -/
theorem C133_read {fl fs : ℝ → ℝ} (hfl : RoundsDouble fl) (hfs : RoundsFloat fs) :
    (∃ fl1 fs1, Rounds 53 fl1 ∧ Rounds 24 fs1 ∧ ∀ old text, getFloat fs fl old text = getFloat fs1 fl1 old text) ∧
    (∃ fs1, Rounds 24 fs1 ∧ ∀ old text, getFloat fs fs old text = getFloat fs1 fs1 old text) := by
  obtain ⟨fl1, h1, hag⟩ := hfl.agrees
  obtain ⟨fs1, h2, has⟩ := hfs.agrees
  constructor
  · exact ⟨fl1, fs1, h1, h2, fun old text => getFloat_agrees (by norm_num) (by norm_num) (by norm_num) (by norm_num) h1 hag h2 has old text⟩
  · exact ⟨fs1, h2, fun old text => getFloat_agrees (by norm_num) (by norm_num) (by norm_num) (by norm_num) h2 has h2 has old text⟩

example : ∃ fl fs : ℝ → ℝ, RoundsDouble fl ∧ RoundsFloat fs ∧
    getFloat fs fl 0 "-120 ".toList = ⟨-120, .noError, []⟩ := by
  obtain ⟨fl, hfl⟩ := double_exists
  obtain ⟨fs, hfs⟩ := float_exists
  refine ⟨fl, fs, hfl, hfs, ?_⟩
  obtain ⟨fl1, fs1, h1, h2, h⟩ := (C133_read hfl hfs).1
  rw [h]
  have := C111_integer (fs := fs1) h1 (by norm_num) 0 [] ['-'] ['1', '2', '0'] ' ' [] (by simp [AllBlank]) (by simp)
    ⟨by simp, by decide⟩ (by norm_num) (by decide) (by decide) (by decide +kernel)
  rw [show "-120 ".toList = [] ++ ['-'] ++ ['1', '2', '0'] ++ ' ' :: [] by decide, this]
  rw [show decValue ['1', '2', '0'] = 120 by decide +kernel]
  norm_num

end

section
open Ecl.PolyFloat

/-- **C133.** The value of a polynomial with coefficients up to `C` at an argument up to `X`, `C X^n` at most `2^900`:
beside the relative error of `C114_value` there is an absolute one, of at most `n (n C + 2) X^n / 2^1074`. -/
theorem C133_value {fl : ℝ → ℝ} (hfl : RoundsDouble fl) (n : ℕ) (c : ℕ → ℝ) (x C X : ℝ) (hC : 1 ≤ C) (hX : 1 ≤ X)
    (hc : ∀ i, i ≤ n → |c i| ≤ C) (hx : |x| ≤ X) (hn : n ≤ 2 ^ 50) (hB : C * X ^ n ≤ 2 ^ (900 : ℤ)) :
    |eval fl n c x - (toPoly n c).eval x| ≤
      ((1 + 1 / 2 ^ 53) ^ (2 * n) - 1) * ∑ i ∈ Finset.range (n + 1), |c i| * |x| ^ i +
      n * (n * C + 2) * X ^ n * 2 ^ (-1074 : ℤ) := by
  have hT : (2 : ℝ) ^ 100 * 2 ^ (900 : ℤ) ≤ largest 53 1024 := by
    refine le_trans (le_of_eq ?_) (AngleFloat.large_double (e := 1000) (by norm_num))
    rw [show (2 : ℝ) ^ 100 = 2 ^ (100 : ℤ) by norm_cast, ← zpow_add₀ (by norm_num)]
    norm_num
  have h := evalLoop_range hfl (c := c) (w := 1 + 1 / 2 ^ 53) (η := 2 ^ (-1075 : ℤ)) rfl rfl hC hX hc hx hn hB hT n 1 x (c 0)
    (by omega) le_rfl (by intro _; simp) (by simp [lost])
  have hp : (toPoly n c).eval x = ∑ j ∈ Finset.range (n + 1), c j * x ^ j := by
    unfold toPoly
    simp [Polynomial.eval_finset_sum]
  rw [hp]
  refine h.trans (add_le_add le_rfl ?_)
  have h2 := (w_pow (w := 1 + 1 / 2 ^ 53) rfl (k := 2 * n) (by omega)).2
  have e : (2 : ℝ) ^ (-1074 : ℤ) = 2 * 2 ^ (-1075 : ℤ) := by
    rw [← zpow_one_add₀ (by norm_num)]
    norm_num
  rw [e]
  have h3 : (0 : ℝ) < 2 ^ (-1075 : ℤ) := by positivity
  unfold lost
  generalize (2 : ℝ) ^ (-1075 : ℤ) = η at *
  generalize (1 + 1 / 2 ^ 53 : ℝ) ^ (2 * n) = w at *
  have h4 : 0 ≤ (n : ℝ) * (n * C + 2) * X ^ n * η := by positivity
  have h5 := mul_le_mul_of_nonneg_left h2 h4
  linarith

/-- **C133, partial.** The roots of a quadratic whose coefficients are 0 or between `2^-400` and `2^400` in absolute
value: as without limits for the exponent (`C114_residual`, `C114_count_partial`). -/
theorem C133_quadratic_partial {fl : ℝ → ℝ} (hfl : RoundsDouble fl) (q : ℕ → ℝ)
    (hq : ∀ i, i ≤ 2 → q i = 0 ∨ 2 ^ (-400 : ℤ) ≤ |q i| ∧ |q i| ≤ 2 ^ (400 : ℤ))
    (hf : InFormat 53 (-1074) 1024 (q 1)) (ha : q 2 ≠ 0) :
    (∀ r ∈ quadraticRoots fl q, |(toPoly 2 q).eval r| ≤ 4 * (q 1 ^ 2 / |q 2| + 4 * |q 0|) / 2 ^ 53) ∧
    (3 * (q 1 ^ 2 + 4 * |q 2 * q 0|) / 2 ^ 53 < |q 1 ^ 2 - 4 * q 2 * q 0| →
      (quadraticRoots fl q).length = {x : ℝ | (toPoly 2 q).eval x = 0}.ncard) := by
  obtain ⟨fl1, h1, hag⟩ := hfl.agrees
  rw [quadraticRoots_agrees h1 hag hq hf.isFloat]
  exact ⟨fun r hr => C114_residual h1 q ha r hr, fun h => C114_count_partial h1 q ha h⟩

example : ∃ fl : ℝ → ℝ, RoundsDouble fl ∧ (quadraticRoots fl (ofList [2, -3, 1])).length =
    {x : ℝ | (toPoly 2 (ofList [(2 : ℝ), -3, 1])).eval x = 0}.ncard ∧
    |eval fl 2 (ofList [2, -3, 1]) 1| ≤ 1 / 2 ^ 40 := by
  obtain ⟨fl, hfl⟩ := double_exists
  have big (z : ℝ) (hz : 1 ≤ |z|) (hz' : |z| ≤ 4) : 2 ^ (-400 : ℤ) ≤ |z| ∧ |z| ≤ 2 ^ (400 : ℤ) := by
    constructor
    · refine le_trans ?_ hz
      simpa using zpow_le_zpow_right₀ (by norm_num : (1 : ℝ) ≤ 2) (by norm_num : (-400 : ℤ) ≤ 0)
    · refine hz'.trans ?_
      have := zpow_le_zpow_right₀ (by norm_num : (1 : ℝ) ≤ 2) (by norm_num : (2 : ℤ) ≤ 400)
      refine le_trans (by norm_num) this
  refine ⟨fl, hfl, (C133_quadratic_partial hfl _ ?_ ?_ ?_).2 ?_, ?_⟩
  · intro i hi
    interval_cases i <;> exact .inr (big _ (by norm_num [ofList]) (by norm_num [ofList]))
  · exact ⟨-3, 0, by norm_num, by norm_num, by norm_num, by norm_num [ofList]⟩
  · norm_num [ofList]
  · norm_num [ofList]
  · have h := C133_value hfl 2 (ofList [2, -3, 1]) 1 3 1 (by norm_num) (by norm_num) (by
      intro i hi
      interval_cases i <;> norm_num [ofList]) (by norm_num) (by norm_num) (by
        have := zpow_le_zpow_right₀ (by norm_num : (1 : ℝ) ≤ 2) (by norm_num : (2 : ℤ) ≤ 900)
        refine le_trans (by norm_num) this)
    have e : (toPoly 2 (ofList [(2 : ℝ), -3, 1])).eval 1 = 0 := by
      norm_num [toPoly, Finset.sum_range_succ, ofList]
    rw [e, sub_zero] at h
    refine h.trans ?_
    have h2 := zpow_le_zpow_right₀ (by norm_num : (1 : ℝ) ≤ 2) (by norm_num : (-1074 : ℤ) ≤ -50)
    generalize (2 : ℝ) ^ (-1074 : ℤ) = η at *
    norm_num [Finset.sum_range_succ, ofList] at h2 ⊢
    linarith

/-- **C133 fails.** `2^-600 (x - 1) (x - 2)` has the roots 1 and 2.  Its discriminant underflows: one root is returned,
3/2. -/
theorem C133_fails_quadratic {fl : ℝ → ℝ} (hfl : RoundsDouble fl) :
    quadraticRoots fl (ofList [2 * 2 ^ (-600 : ℤ), -3 * 2 ^ (-600 : ℤ), 2 ^ (-600 : ℤ)]) = [3 / 2] ∧
    {x : ℝ | (toPoly 2 (ofList [(2 : ℝ) * 2 ^ (-600 : ℤ), -3 * 2 ^ (-600 : ℤ), 2 ^ (-600 : ℤ)])).eval x = 0} = {1, 2} := by
  have h0 : (2 : ℝ) ^ (-600 : ℤ) ≠ 0 := by positivity
  have hp : (0 : ℝ) < (2 : ℝ) ^ (-600 : ℤ) := by positivity
  have hs : (2 : ℝ) ^ (-600 : ℤ) * 2 ^ (-600 : ℤ) = 2 ^ (-1200 : ℤ) := by
    rw [← zpow_add₀ (by norm_num)]
    norm_num
  have hlt : (2 : ℝ) ^ (-1200 : ℤ) * 16 < 2 ^ (-1075 : ℤ) := by
    rw [show (16 : ℝ) = 2 ^ (4 : ℤ) by norm_num, ← zpow_add₀ (by norm_num)]
    exact zpow_lt_zpow_right₀ (by norm_num) (by norm_num)
  have hz : fl 0 = 0 := RoundsIn.self hfl (inFormat_zero (by norm_num))
  have h32 : fl (3 / 2) = 3 / 2 :=
    RoundsIn.self hfl ⟨3, -1, by norm_num, by norm_num, by norm_num, by norm_num⟩
  constructor
  · have e1 : fl (-3 * (2 : ℝ) ^ (-600 : ℤ) * (-3 * 2 ^ (-600 : ℤ))) = 0 := by
      refine RoundsDouble_tiny hfl ?_
      rw [show -3 * (2 : ℝ) ^ (-600 : ℤ) * (-3 * 2 ^ (-600 : ℤ)) = 9 * (2 ^ (-600 : ℤ) * 2 ^ (-600 : ℤ)) by ring, hs,
        abs_of_pos (by positivity)]
      have : (0 : ℝ) < 2 ^ (-1200 : ℤ) := by positivity
      linarith
    have e2 : fl (4 * (2 : ℝ) ^ (-600 : ℤ) * (2 * 2 ^ (-600 : ℤ))) = 0 := by
      refine RoundsDouble_tiny hfl ?_
      rw [show 4 * (2 : ℝ) ^ (-600 : ℤ) * (2 * 2 ^ (-600 : ℤ)) = 8 * (2 ^ (-600 : ℤ) * 2 ^ (-600 : ℤ)) by ring, hs,
        abs_of_pos (by positivity)]
      have : (0 : ℝ) < 2 ^ (-1200 : ℤ) := by positivity
      linarith
    have e3 : -(-3 * (2 : ℝ) ^ (-600 : ℤ)) / (2 * 2 ^ (-600 : ℤ)) = 3 / 2 := by
      field_simp
    simp only [quadraticRoots, ofList, discriminant, List.getD_cons_succ, List.getD_cons_zero, if_neg h0, e1, e2, sub_zero,
      hz, lt_irrefl, if_false, gt_iff_lt, if_true, e3, h32]
  · ext x
    have e : (toPoly 2 (ofList [(2 : ℝ) * 2 ^ (-600 : ℤ), -3 * 2 ^ (-600 : ℤ), 2 ^ (-600 : ℤ)])).eval x =
        2 ^ (-600 : ℤ) * ((x - 1) * (x - 2)) := by
      simp only [toPoly, Finset.sum_range_succ, Finset.sum_range_zero, ofList, List.getD_cons_succ, List.getD_cons_zero,
        Polynomial.eval_add, Polynomial.eval_mul, Polynomial.eval_C, Polynomial.eval_pow, Polynomial.eval_X,
        Polynomial.eval_zero, Polynomial.eval_monomial]
      ring
    simp only [Set.mem_setOf_eq, Set.mem_insert_iff, Set.mem_singleton_iff, e]
    constructor
    · intro h
      rcases mul_eq_zero.1 ((mul_eq_zero.1 h).resolve_left h0) with h | h
      · exact .inl (by linarith)
      · exact .inr (by linarith)
    · rintro (rfl | rfl) <;> simp

end

section
open Ecl.SegmentFloat

/-- **C133, partial.** Distances and squared distances of two poses whose coordinates agree or differ by at least
`2^-60` and at most `2^60`: as without limits for the exponent (`C116_poses`). -/
theorem C133_poses_partial {fs : ℝ → ℝ} (hfs : RoundsFloat fs) (ax ay bx by' : ℝ)
    (hx : ax = bx ∨ 2 ^ (-60 : ℤ) ≤ |ax - bx| ∧ |ax - bx| ≤ 2 ^ (60 : ℤ))
    (hy : ay = by' ∨ 2 ^ (-60 : ℤ) ≤ |ay - by'| ∧ |ay - by'| ≤ 2 ^ (60 : ℤ)) :
    |distance2 fs ax ay bx by' - Real.sqrt (sqDist (ax, ay) (bx, by'))| ≤
      6 / 2 ^ 24 * Real.sqrt (sqDist (ax, ay) (bx, by')) ∧
    |distanceSquared2 fs ax ay bx by' - sqDist (ax, ay) (bx, by')| ≤ 5 / 2 ^ 24 * sqDist (ax, ay) (bx, by') ∧
    (distance2 fs ax ay bx by' = 0 ↔ (ax, ay) = (bx, by')) ∧
    (distanceSquared2 fs ax ay bx by' = 0 ↔ (ax, ay) = (bx, by')) := by
  obtain ⟨fs1, h2, has⟩ := hfs.agrees
  have sx : Size (-60) 60 (ax - bx) := hx.imp (fun h => by rw [h, sub_self]) id
  have sy : Size (-60) 60 (ay - by') := hy.imp (fun h => by rw [h, sub_self]) id
  obtain ⟨e1, e2⟩ := squares_agrees h2 has sx sy
  have h := C116_poses h2 ax ay bx by'
  have d1 : distance2 fs ax ay bx by' = distance2 fs1 ax ay bx by' := e2
  have d2 : distanceSquared2 fs ax ay bx by' = distanceSquared2 fs1 ax ay bx by' := e1
  rw [d1, d2]
  exact h

/-- **C133 fails.** Two poses `2^-80` apart: their distance comes out as 0. -/
theorem C133_fails_distance {fs : ℝ → ℝ} (hfs : RoundsFloat fs) :
    InFormat 24 (-149) 128 ((2 : ℝ) ^ (-80 : ℤ)) ∧ distance2 fs (2 ^ (-80 : ℤ)) 0 0 0 = 0 ∧
    Real.sqrt (sqDist ((2 : ℝ) ^ (-80 : ℤ), 0) (0, 0)) = 2 ^ (-80 : ℤ) := by
  have hf : InFormat 24 (-149) 128 ((2 : ℝ) ^ (-80 : ℤ)) := ⟨1, -80, by norm_num, by norm_num, by norm_num, by simp⟩
  have hz : fs 0 = 0 := RoundsIn.self hfs (inFormat_zero (by norm_num))
  have hsq : fs ((2 : ℝ) ^ (-80 : ℤ) * 2 ^ (-80 : ℤ)) = 0 := by
    refine PolyFloat.RoundsFloat_tiny hfs ?_
    rw [← zpow_add₀ (by norm_num), abs_of_pos (by positivity)]
    exact zpow_lt_zpow_right₀ (by norm_num) (by norm_num)
  refine ⟨hf, ?_, ?_⟩
  · unfold distance2 squares
    simp only [sub_zero, hz, mul_zero, RoundsIn.self hfs hf, hsq, add_zero, Real.sqrt_zero]
  · unfold sqDist
    simp only [sub_zero]
    rw [zero_pow (by norm_num), add_zero, Real.sqrt_sq (by positivity)]

namespace C133
open C116

/-- Every position consists of floats. -/
def Floats (l : List Pose) : Prop := ∀ q ∈ l, InFormat 24 (-149) 128 q.x ∧ InFormat 24 (-149) 128 q.y

theorem segment_range {fl fl1 : ℝ → ℝ} (hfl : RoundsDouble fl) (h1 : Rounds 53 fl1)
    (hag : ∀ x, Safe 53 (-1074) 1024 x → fl x = fl1 x) {M x1 y1 x2 y2 x y : ℝ} (hM : (2 : ℝ) ^ (-149 : ℤ) ≤ M)
    (fx1 : InFormat 24 (-149) 128 x1) (fy1 : InFormat 24 (-149) 128 y1) (fx2 : InFormat 24 (-149) 128 x2)
    (fy2 : InFormat 24 (-149) 128 y2) (fx : InFormat 24 (-149) 128 x) (fy : InFormat 24 (-149) 128 y)
    (hx1 : |x1| ≤ M) (hy1 : |y1| ≤ M) (hx2 : |x2| ≤ M) (hy2 : |y2| ≤ M) (hx : |x| ≤ M) (hy : |y| ≤ M) :
    Close (55 / 2 ^ 53 * M) M (some (squaredDistance fl x1 y1 x2 y2 x y))
      (some (Segment.squaredDistanceFromPoint (Segment.make x1 y1 x2 y2) x y)) := by
  obtain ⟨e, bx, hby⟩ := nearest_agrees h1 hag fx1 fy1 fx2 fy2 fx fy
  have far (z : ℝ) (h : InFormat 24 (-149) 128 z) :
      (∃ k : ℤ, z = k * (2 : ℝ) ^ (-1074 : ℤ)) ∧ |z| ≤ (2 : ℝ) ^ (130 : ℤ) :=
    ⟨multiple_of_le (by norm_num) h.multiple, PolyFloat.pow_up (InFormat.float h).2 (by norm_num)⟩
  obtain ⟨s1, s2⟩ := squares_range hfl h1 hag (far x fx) (far y fy) bx hby
  obtain ⟨n1, n2⟩ := nearest_error h1 (by norm_num) hx1 hy1 hx2 hy2 hx hy
  have ed : squaredDistance fl x1 y1 x2 y2 x y =
      squares fl x y (nearest fl1 x1 y1 x2 y2 x y).1 (nearest fl1 x1 y1 x2 y2 x y).2 := by
    unfold squaredDistance
    rw [e]
  rw [ed]
  refine ⟨?_, n2, s1, ?_⟩
  · have hδ : (2 : ℝ) ^ (-536 : ℤ) ≤ 1 / 2 ^ 60 * M := by
      refine le_trans ?_ (mul_le_mul_of_nonneg_left hM (by positivity))
      rw [show (1 : ℝ) / 2 ^ 60 = 2 ^ (-60 : ℤ) by norm_num, ← zpow_add₀ (by norm_num)]
      exact zpow_le_zpow_right₀ (by norm_num) (by norm_num)
    generalize (2 : ℝ) ^ (-536 : ℤ) = δ at *
    generalize Real.sqrt (squares fl x y (nearest fl1 x1 y1 x2 y2 x y).1 (nearest fl1 x1 y1 x2 y2 x y).2) = r at *
    generalize len (x - (nearest fl1 x1 y1 x2 y2 x y).1) (y - (nearest fl1 x1 y1 x2 y2 x y).2) = l at *
    generalize Real.sqrt (Segment.squaredDistanceFromPoint (Segment.make x1 y1 x2 y2) x y) = d at *
    have hM0 : 0 ≤ M := (abs_nonneg x).trans hx
    clear hM e bx hby far s1 ed hag
    have h4 := abs_sub_le r l d
    have h5 := (abs_le.1 n1).2
    norm_num at *
    linarith
  · obtain ⟨s, _, e⟩ := (C60_segment x1 y1 x2 y2 x y).1
    rw [e]
    exact sqDist_nonneg _ _

theorem loop_range {fl fl1 : ℝ → ℝ} (hfl : RoundsDouble fl) (h1 : Rounds 53 fl1)
    (hag : ∀ x, Safe 53 (-1074) 1024 x → fl x = fl1 x) {M x y : ℝ} (hM : (2 : ℝ) ^ (-149 : ℤ) ≤ M)
    (fx : InFormat 24 (-149) 128 x) (fy : InFormat 24 (-149) 128 y) (hx : |x| ≤ M) (hy : |y| ≤ M) :
    ∀ (rest : List Pose) (q : Pose) (o o' : Option ℝ), Within M (q :: rest) → Floats (q :: rest) →
      Close (55 / 2 ^ 53 * M) M o o' →
      Close (55 / 2 ^ 53 * M) M (SegmentFloat.distanceLoop fl x y q rest o) (Odometry.distanceLoop x y q rest o') := by
  intro rest
  induction rest with
  | nil => intro q o o' _ _ h; exact h
  | cons r rest ih =>
    intro q o o' hw hf h
    have hq := hw q (by simp)
    have hr := hw r (by simp)
    have fq := hf q (by simp)
    have fr := hf r (by simp)
    refine ih r _ _ (fun s hs => hw s (List.mem_cons_of_mem _ hs)) (fun s hs => hf s (List.mem_cons_of_mem _ hs))
      (close_keep h ?_)
    exact segment_range hfl h1 hag hM fq.1 fq.2 fr.1 fr.2 fx fy hq.1 hq.2 hr.1 hr.2 hx hy

end C133

/-- **C133.** The distance from a point to a trajectory of two or more poses, all coordinates floats of absolute value
at most `M`: within `64 * M / 2 ^ 53` of the distance to the polyline, as without limits for the exponent
(`C116_path`).  No product and no quotient of floats leaves the range of double. -/
theorem C133_path {fl fs : ℝ → ℝ} (hfl : RoundsDouble fl) (mode : Mode) {M x y : ℝ} (trajectory : List Pose)
    (h2 : 2 ≤ trajectory.length) (fx : InFormat 24 (-149) 128 x) (fy : InFormat 24 (-149) 128 y)
    (hf : ∀ q ∈ trajectory, InFormat 24 (-149) 128 q.x ∧ InFormat 24 (-149) 128 q.y)
    (hM0 : 2 ^ (-149 : ℤ) ≤ M) (hx : |x| ≤ M) (hy : |y| ≤ M) (hM : ∀ q ∈ trajectory, |q.x| ≤ M ∧ |q.y| ≤ M) :
    ∃ c d, SegmentFloat.distance fl fs mode x y trajectory = .ok (some c) ∧
      IsLeast {e | ∃ r, OnPolyline (trajectory.map fun q => (q.x, q.y)) r ∧ e = Real.sqrt (sqDist (x, y) r)} d ∧
      |c - d| ≤ 64 * M / 2 ^ 53 := by
  obtain ⟨d, hd1, hd2⟩ := C60_path mode x y trajectory (by intro h; rw [h] at h2; simp at h2)
  match trajectory, h2 with
  | q :: r :: rest, _ =>
    obtain ⟨fl1, h1, hag⟩ := hfl.agrees
    have hc := loop_range hfl h1 hag hM0 fx fy hx hy (r :: rest) q none none hM hf trivial
    have hs := loop_range (M := 2 ^ (128 : ℤ)) hfl h1 hag (zpow_le_zpow_right₀ (by norm_num) (by norm_num)) fx fy
      (InFormat.float fx).2 (InFormat.float fy).2 (r :: rest) q none none
      (fun s hs => ⟨(InFormat.float (hf s hs).1).2, (InFormat.float (hf s hs).2).2⟩) hf trivial
    simp only [Odometry.distance] at hd1
    simp only [SegmentFloat.distance]
    generalize SegmentFloat.distanceLoop fl x y q (r :: rest) none = o at *
    generalize Odometry.distanceLoop x y q (r :: rest) none = o' at *
    cases o' with
    | none => simp at hd1
    | some b =>
      cases o with
      | none => exact absurd hc id
      | some a =>
        refine ⟨fl (Real.sqrt a), d, rfl, hd2, ?_⟩
        have hd : Real.sqrt b = d := by simpa using hd1
        obtain ⟨h1, h2, -, -⟩ := hc
        rw [hd] at h1 h2
        have h0 := Real.sqrt_nonneg a
        have hlarge : Real.sqrt a ≤ largest 53 1024 := by
          obtain ⟨g1, g2, -, -⟩ := hs
          refine le_trans ?_ (AngleFloat.large_double (e := 130) (by norm_num))
          have := (abs_le.1 g1).2
          norm_num at *
          linarith
        have h3 := hfl.error (x := Real.sqrt a) (by rw [abs_of_nonneg h0]; exact hlarge)
        rw [abs_of_nonneg h0] at h3
        have hη : (2 : ℝ) ^ (-1075 : ℤ) ≤ M / 2 ^ 53 := by
          rw [le_div_iff₀ (by positivity)]
          refine le_trans ?_ hM0
          rw [show (2 : ℝ) ^ 53 = 2 ^ (53 : ℤ) by norm_cast, ← zpow_add₀ (by norm_num)]
          exact zpow_le_zpow_right₀ (by norm_num) (by norm_num)
        have hM0' : 0 ≤ M := (abs_nonneg x).trans hx
        clear hM0 hs hlarge
        generalize (2 : ℝ) ^ (-1075 : ℤ) = η at *
        generalize Real.sqrt a = s at *
        have h4 := abs_sub_le (fl s) s d
        have h5 := (abs_le.1 h1).2
        have h6 : s / 2 ^ 53 ≤ (3 * M + 55 / 2 ^ 53 * M) / 2 ^ 53 :=
          div_le_div_of_nonneg_right (by linarith) (by positivity)
        have h7 : (3 * M + 55 / 2 ^ 53 * M) / 2 ^ 53 ≤ 4 * M / 2 ^ 53 := by
          refine div_le_div_of_nonneg_right ?_ (by positivity)
          norm_num
          linarith
        have e : 64 * M / 2 ^ 53 = 55 / 2 ^ 53 * M + 4 * M / 2 ^ 53 + M / 2 ^ 53 + 4 * M / 2 ^ 53 := by ring
        have : 0 ≤ 4 * M / 2 ^ 53 := by positivity
        linarith

example : ∃ (fl fs : ℝ → ℝ) (c d : ℝ), RoundsDouble fl ∧ RoundsFloat fs ∧
    SegmentFloat.distance fl fl .release 1 3 [⟨0, 0, 0⟩, ⟨2, 0, 0⟩, ⟨2, 4, 0⟩] = .ok (some c) ∧ |c - d| ≤ 1 / 2 ^ 45 ∧
    (distance2 fs 1 3 1 3 = 0) := by
  obtain ⟨fl, hfl⟩ := double_exists
  obtain ⟨fs, hfs⟩ := float_exists
  have nat (n : ℤ) (h : |n| < 2 ^ 24) : InFormat 24 (-149) 128 (n : ℝ) := ⟨n, 0, h, by norm_num, by norm_num, by simp⟩
  have f0 : InFormat 24 (-149) 128 0 := by exact_mod_cast nat 0 (by norm_num)
  have f1 : InFormat 24 (-149) 128 1 := by exact_mod_cast nat 1 (by norm_num)
  have f2 : InFormat 24 (-149) 128 2 := by exact_mod_cast nat 2 (by norm_num)
  have f3 : InFormat 24 (-149) 128 3 := by exact_mod_cast nat 3 (by norm_num)
  have f4 : InFormat 24 (-149) 128 4 := by exact_mod_cast nat 4 (by norm_num)
  obtain ⟨c, d, h1, h2, h3⟩ := C133_path (fs := _) hfl .release (M := 4) (x := 1) (y := 3)
    [⟨0, 0, 0⟩, ⟨2, 0, 0⟩, ⟨2, 4, 0⟩] (by simp) f1 f3 (by
      intro q hq
      fin_cases hq
      · exact ⟨f0, f0⟩
      · exact ⟨f2, f0⟩
      · exact ⟨f2, f4⟩) (by norm_num) (by norm_num) (by norm_num) (by
      intro q hq
      fin_cases hq <;> norm_num)
  exact ⟨fl, fs, c, d, hfl, hfs, h1, h3.trans (by norm_num),
    (C133_poses_partial hfs 1 3 1 3 (.inl rfl) (.inl rfl)).2.2.1.2 rfl⟩

end

end Ecl.Props
