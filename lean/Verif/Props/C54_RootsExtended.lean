import Verif.Model.RootsExtended
import Verif.Lemmas.Roots
import Verif.Props.C55_Extrema

/-! # C54, C55: roots and extrema with infinities and NaN computed -/
set_option autoImplicit false

namespace Ecl.Props
open Ecl Ecl.Poly

namespace C54

/-- A result as a `double`. -/
def ofFloat : Poly.Float → Ext
  | some x => .num x
  | none => .nan

theorem acos_arg {p q : ℝ} (hp : p < 0) (hD : p * p * p / 27 + q * q / 4 < 0) :
    -1 ≤ 3 * q / (2 * p) * Real.sqrt (-3 / p) ∧ 3 * q / (2 * p) * Real.sqrt (-3 / p) ≤ 1 := by
  have hp0 : p ≠ 0 := hp.ne
  set w := ((3 * q) / (2 * p)) * Real.sqrt (-3 / p) with hw
  have hs : Real.sqrt (-3 / p) ^ 2 = -3 / p := Real.sq_sqrt (div_nonneg_of_nonpos (by norm_num) hp.le)
  have hw2 : w ^ 2 ≤ 1 := by
    rw [hw, mul_pow, hs]
    have e : ((3 * q) / (2 * p)) ^ 2 * (-3 / p) = (27 * q ^ 2) / (-4 * p ^ 3) := by
      field_simp; ring
    rw [e, div_le_one (by nlinarith [pow_pos (neg_pos.2 hp) 3])]
    nlinarith
  have hww : w * w ≤ 1 := by rw [← sq]; exact hw2
  exact abs_le.1 (abs_le_one_iff_mul_self_le_one.2 hww)

end C54
open C54 Ext

/-- **C54.** Computed with the special values of `double`, and whatever the signs of the zeros are that the
code divides by, the results are those of `cubicRoots`: also with a zero leading coefficient, where they
are three NaN. -/
theorem C54_special_values (z : ℕ → Bool) (poly : Coeffs ℝ) :
    cubicRootsExt z poly = (cubicRoots poly).map ofFloat := by
  by_cases ha : poly 3 = 0
  · by_cases hb : poly 2 = 0
    · simp [cubicRootsExt, cubicRoots, ha, hb, Ext.mul, Ext.sub, Ext.add, Ext.neg, Ext.div, Ext.eq, Ext.ge, Ext.gt,
        Ext.sqrt, Ext.acos, Ext.cos, ofFloat]
    · have h1 : poly 2 * poly 2 ≠ 0 := mul_ne_zero hb hb
      have h2 : (0 : ℝ) < poly 2 * poly 2 := mul_self_pos.2 hb
      have h3 : ((27 : ℝ) < 0) = False := by norm_num
      have h4 : ((4 : ℝ) < 0) = False := by norm_num
      have h5 : ((3 : ℝ) < 0) = False := by norm_num
      have h6 : ((2 : ℝ) < 0) = False := by norm_num
      cases hz : z 1 <;> by_cases hn : 2 * poly 2 * poly 2 * poly 2 < 0 <;>
      simp [cubicRootsExt, cubicRoots, ha, hb, h1, h2, h3, h4, h5, h6, hz, hn, Ext.mul, Ext.sub, Ext.add, Ext.neg, Ext.div, Ext.eq,
        Ext.ge, Ext.gt, Ext.sqrt, Ext.acos, Ext.cos, Ext.sign, ofFloat]
  · unfold cubicRootsExt cubicRoots
    simp only [Ext.mul, Ext.sub, Ext.add, Ext.neg]
    have d1 : 3 * poly 3 * poly 3 ≠ 0 := by simp [ha]
    have d2 : 27 * poly 3 * poly 3 * poly 3 ≠ 0 := by simp [ha]
    have d3 : 3 * poly 3 ≠ 0 := by simp [ha]
    simp only [Ext.div, if_neg ha, if_neg d1, if_neg d2, if_neg d3, ← sub_eq_add_neg]
    generalize (3 * poly 3 * poly 1 - poly 2 * poly 2) / (3 * poly 3 * poly 3) = p
    generalize (2 * poly 2 * poly 2 * poly 2 - 9 * poly 3 * poly 2 * poly 1 + 27 * poly 3 * poly 3 * poly 0) /
      (27 * poly 3 * poly 3 * poly 3) = q
    generalize -poly 2 / (3 * poly 3) = shift
    have n27 : (27 : ℝ) ≠ 0 := by norm_num
    have n4 : (4 : ℝ) ≠ 0 := by norm_num
    have n2 : (2 : ℝ) ≠ 0 := by norm_num
    have n3 : (3 : ℝ) ≠ 0 := by norm_num
    simp only [Ext.mul, Ext.div, if_neg n27, if_neg n4, if_neg n2, if_neg n3, Ext.add, Ext.eq, Ext.ge, Ext.gt]
    unfold depressedRoots
    by_cases hp : p = 0
    · by_cases hq : q = 0
      · simp [hp, hq, ofFloat]
      · simp [hp, hq, ofFloat, Ext.cubeRoot]
    · by_cases hq : q = 0
      · by_cases hpp : -1 * p < 0
        · simp [hp, hq, ofFloat, fsqrt, Ext.sqrt, hpp, Ext.add, Ext.neg]
          simp at hpp
          simp [hpp, ofFloat]
        · simp [hp, hq, ofFloat, fsqrt, Ext.sqrt, hpp, Ext.add, Ext.neg]
          simp at hpp
          simp [not_lt.2 hpp, ofFloat]
      · by_cases hd : p * p * p / 27 + q * q / 4 = 0
        · simp [hp, hq, hd, ofFloat]
        · by_cases hg : p * p * p / 27 + q * q / 4 ≥ 0
          · have hgt : 0 < p * p * p / 27 + q * q / 4 := lt_of_le_of_ne hg (Ne.symm hd)
            simp [hp, hq, hd, hg, hgt, ofFloat, Ext.sqrt, not_lt.2 hg, Ext.cubeRoot, ← sub_eq_add_neg]
          · have hlt : p * p * p / 27 + q * q / 4 < 0 := not_le.1 hg
            have hp' : p < 0 := by
              by_contra hc
              have h1 : 0 ≤ p := not_lt.1 hc
              have h2 : 0 ≤ p * p * p := by positivity
              nlinarith [mul_self_nonneg q]
            have hw := acos_arg hp' hlt
            have s1 : ¬ -p / 3 < 0 := by
              have := div_pos (neg_pos.2 hp') (by norm_num : (0 : ℝ) < 3); linarith
            have s2 : ¬ -3 / p < 0 := by
              have := div_pos_of_neg_of_neg (by norm_num : (-3 : ℝ) < 0) hp'; linarith
            simp [hp, hq, hd, hg, not_lt.2 hlt.le, ofFloat, Ext.sqrt, s1, s2, Ext.acos, hw.1, hw.2, Ext.cos, ← sub_eq_add_neg]

/-- **C54.** A zero leading coefficient always gives three NaN, whatever roots there are. -/
theorem C54_degenerate (z : ℕ → Bool) (poly : Coeffs ℝ) (h : poly 3 = 0) :
    cubicRootsExt z poly = [.nan, .nan, .nan] := by
  rw [C54_special_values]
  simp [cubicRoots, h, ofFloat]

/-- A cubic with leading coefficient zero, and one that is a cubic. -/
example (z : ℕ → Bool) : cubicRootsExt z (ofList [-1, 0, 1, 0]) = [.nan, .nan, .nan] ∧
    cubicRootsExt z (ofList [0, 0, 0, 1]) = [.num 0] := by
  rw [C54_special_values, C54_special_values]
  constructor
  · simp [cubicRoots, ofList, ofFloat]
  · simp [cubicRoots, depressedRoots, ofList, ofFloat]

/-- **C55.** The same for the extrema: a candidate that is an infinity or NaN is never looked at. -/
theorem C55_special_values (z : ℕ → Bool) (v a b : ℝ) (h : a ≤ b) (p : Coeffs ℝ) :
    IsGreatest ((fun x => eval 3 p x) '' Set.Icc a b) (cubicExtremumExt z v raise a b p) ∧
    IsLeast ((fun x => eval 3 p x) '' Set.Icc a b) (cubicExtremumExt z v lower a b p) := by
  have key : ∀ better : ℝ → ℝ → ℝ, cubicExtremumExt z v better a b p = cubicExtremum better a b p := by
    intro better
    have hc : ∀ x best, considerExt v better p a b (num x) best = consider better p a b x best := by
      intro x best
      simp [considerExt, consider, Ext.gt]
    unfold cubicExtremumExt cubicExtremum
    simp only [Ext.mul, Ext.neg, Ext.sub, Ext.add, Ext.eq, Ext.gt, ← sub_eq_add_neg]
    by_cases ha : 3 * p 3 = 0
    · rw [if_pos (by simpa using ha), if_pos ha]
      by_cases hb : 2 * p 2 = 0
      · rw [if_pos hb]
        by_cases h1 : -p 1 = 0
        · simp [Ext.div, hb, h1, considerExt, Ext.gt]
        · simp only [Ext.div, hb, h1, considerExt, Ext.gt, if_true, if_false]
          cases (sign false (-p 1)).xor (z 0) <;> simp
      · rw [if_neg hb]
        simp only [Ext.div, if_neg hb, hc]
    · rw [if_neg (by simpa using ha), if_neg ha]
      by_cases hs : 2 * p 2 * (2 * p 2) - 4 * (3 * p 3) * p 1 > 0
      · have h2 : 2 * (3 * p 3) ≠ 0 := by simpa using ha
        rw [if_pos (by simpa using hs), if_pos hs]
        simp only [Ext.sqrt, if_neg (not_lt.2 (le_of_lt hs)), Ext.add, Ext.neg, Ext.div, if_neg h2, hc, ← sub_eq_add_neg]
      · rw [if_neg (by simpa using hs), if_neg hs]
  rw [key, key]
  exact ⟨C55_maximum_cubic p a b h, C55_minimum_cubic p a b h⟩

/-- `1 + 2x` held as a cubic: the candidate is minus infinity, or plus infinity. -/
example (z : ℕ → Bool) (v : ℝ) : IsGreatest ((fun x => eval 3 (ofList [1, 2, 0, 0]) x) '' Set.Icc (0 : ℝ) 1)
    (cubicExtremumExt z v raise 0 1 (ofList [1, 2, 0, 0])) :=
  (C55_special_values z v 0 1 zero_le_one _).1

end Ecl.Props
