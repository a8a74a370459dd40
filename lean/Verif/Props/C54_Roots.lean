import Verif.Lemmas.Roots
import Verif.Lemmas.Polynomial

/-! # C54: synthetic division and roots -/
set_option autoImplicit false
set_option linter.unusedSimpArgs false

namespace Ecl.Props
open Ecl Ecl.Poly Ecl.Spec

/-- **C54.** Synthetic division: `p(x) = (x - f) q(x) + r` for quadratic and cubic `p`. -/
theorem C54_division {K : Type} [Field K] (p : Coeffs K) (f x : K) :
    eval 2 p x = (x - f) * eval 1 (divideQuadratic p f).1 x + (divideQuadratic p f).2 ∧
    eval 3 p x = (x - f) * eval 2 (divideCubic p f).1 x + (divideCubic p f).2 := by
  constructor <;> simp [eval, evalLoop, divideQuadratic, divideCubic, ofList] <;> ring

/-- **C54.** The remainder is the value at `f`. -/
theorem C54_remainder {K : Type} [Field K] (p : Coeffs K) (f : K) :
    (divideQuadratic p f).2 = eval 2 p f ∧ (divideCubic p f).2 = eval 3 p f := by
  have h := C54_division p f f
  simp only [sub_self, zero_mul, zero_add] at h
  exact ⟨h.1.symm, h.2.symm⟩

/-- **C54.** The roots of a linear function that is not identically zero are returned exactly. -/
theorem C54_linear_partial (p : Coeffs ℝ) (h : toPoly 1 p ≠ 0) (x : ℝ) :
    (x ∈ linearRoots p ↔ eval 1 p x = 0) ∧ (linearRoots p).Nodup := by
  unfold linearRoots
  simp only [eval, evalLoop]
  split
  next ha =>
    refine ⟨?_, List.nodup_singleton _⟩
    rw [List.mem_singleton, eq_div_iff ha]
    constructor <;> intro h <;> linarith
  next ha =>
    have ha' : p 1 = 0 := by simpa using ha
    rw [ha']
    refine ⟨?_, List.nodup_nil⟩
    have : p 0 ≠ 0 := by
      intro h0; apply h; simp [toPoly, Finset.sum_range_succ, ha', h0]
    simp [this]

/-- **C54.** The roots of a quadratic that is not identically zero are returned exactly. -/
theorem C54_quadratic_partial (p : Coeffs ℝ) (h : toPoly 2 p ≠ 0) (x : ℝ) :
    (x ∈ quadraticRoots p ↔ eval 2 p x = 0) ∧ (quadraticRoots p).Nodup := by
  unfold quadraticRoots
  simp only
  split
  next ha =>
    have h' : toPoly 1 (ofList [p 0, p 1]) ≠ 0 := by
      intro h0; apply h
      rw [← h0]
      simp [toPoly, Finset.sum_range_succ, ha, ofList]
    have := C54_linear_partial (ofList [p 0, p 1]) h' x
    rw [this.1]
    refine ⟨?_, this.2⟩
    simp [eval, evalLoop, ofList, ha]
  next ha =>
    have e : eval 2 p x = p 0 + p 1 * x + p 2 * (x * x) := by simp [eval, evalLoop]
    have key : 4 * p 2 * eval 2 p x = (2 * p 2 * x + p 1) ^ 2 - (p 1 * p 1 - 4 * p 2 * p 0) := by
      rw [e]; ring
    have h4 : (4 * p 2 : ℝ) ≠ 0 := mul_ne_zero (by norm_num) ha
    have h2 : (2 * p 2 : ℝ) ≠ 0 := mul_ne_zero (by norm_num) ha
    have h0 : eval 2 p x = 0 ↔ (2 * p 2 * x + p 1) ^ 2 = p 1 * p 1 - 4 * p 2 * p 0 := by
      constructor
      · intro h; rw [h, mul_zero] at key; linarith
      · intro h; rw [h, sub_self] at key; exact (mul_eq_zero.1 key).resolve_left h4
    rw [h0]
    generalize hd : p 1 * p 1 - 4 * p 2 * p 0 = d
    split
    next hpos =>
      have hs : √d ^ 2 = d := Real.sq_sqrt (le_of_lt hpos)
      constructor
      · simp only [List.mem_cons, List.not_mem_nil, or_false]
        rw [eq_div_iff h2, eq_div_iff h2]
        nth_rewrite 3 [← hs]
        rw [sq_eq_sq_iff_eq_or_eq_neg]
        constructor
        · rintro (h | h)
          · left; linarith
          · right; linarith
        · rintro (h | h)
          · left; linarith
          · right; linarith
      · have := Real.sqrt_pos.2 hpos
        simp only [List.nodup_cons, List.mem_singleton, List.not_mem_nil, not_false_eq_true,
          List.nodup_nil, and_true]
        intro hc
        rw [div_left_inj' h2] at hc
        linarith
    next hpos =>
      split
      next hz =>
        refine ⟨?_, List.nodup_singleton _⟩
        rw [hz, List.mem_singleton, eq_div_iff h2, pow_eq_zero_iff (by norm_num)]
        constructor <;> intro h <;> linarith
      next hz =>
        refine ⟨?_, List.nodup_nil⟩
        simp only [List.not_mem_nil, false_iff]
        intro hc
        have := sq_nonneg (2 * p 2 * x + p 1)
        rw [hc] at this
        exact hz (le_antisymm (not_lt.1 hpos) this)

/-- **C54.** For a cubic with non-zero leading coefficient the numbers returned are exactly its real
roots. -/
theorem C54_cubic_roots_partial (p : Coeffs ℝ) (h : p 3 ≠ 0) (x : ℝ) :
    some x ∈ cubicRoots p ↔ eval 3 p x = 0 := by
  unfold cubicRoots
  simp only [if_neg h]
  have e : eval 3 p x = p 0 + p 1 * x + p 2 * x ^ 2 + p 3 * x ^ 3 := by
    simp [eval, evalLoop]; ring
  have hx : x = (x - -p 2 / (3 * p 3)) + -p 2 / (3 * p 3) := by ring
  rw [e, cubic_as_depressed h, mul_eq_zero, or_iff_right h, ← mem_depressedRoots _ _ (-p 2 / (3 * p 3)), ← hx]

/-- The point of inflection of a cubic. -/
noncomputable def inflection (p : Coeffs ℝ) : ℝ := -p 2 / (3 * p 3)

/-- **C54.** Every result is a number, and none is repeated, unless the point of inflection is a root
at which the cubic crosses zero with a slope of the sign of its leading coefficient.

Missing from the full statement: that case (`C54_fails_nan`), a zero leading coefficient
(`C54_fails_degenerate`) and the zero polynomial (`C54_fails_zero`). -/
theorem C54_cubic_numbers_partial (p : Coeffs ℝ) (h : p 3 ≠ 0)
    (hc : ¬ (eval 3 p (inflection p) = 0 ∧ 0 < derivativeAt 3 p (inflection p) / p 3)) :
    none ∉ cubicRoots p ∧ (cubicRoots p).Nodup := by
  have e0 : eval 3 p (inflection p) =
      p 3 * ((2 * p 2 * p 2 * p 2 - 9 * p 3 * p 2 * p 1 + 27 * p 3 * p 3 * p 0) / (27 * p 3 * p 3 * p 3)) := by
    have : eval 3 p (inflection p) =
        p 0 + p 1 * inflection p + p 2 * inflection p ^ 2 + p 3 * inflection p ^ 3 := by
      simp [eval, evalLoop]; ring
    rw [this, cubic_as_depressed h, inflection]
    simp
  have e1 : derivativeAt 3 p (inflection p) / p 3 = (3 * p 3 * p 1 - p 2 * p 2) / (3 * p 3 * p 3) := by
    simp [derivativeAt, Poly.derivative, eval, evalLoop, inflection]
    field_simp
    ring
  rw [e0, e1, mul_eq_zero, or_iff_right h] at hc
  unfold cubicRoots
  simp only [if_neg h]
  refine ⟨?_, nodup_depressedRoots _ _ _ hc⟩
  unfold depressedRoots
  split
  · simp
  · split
    · simp
    · split
      next hq =>
        rename_i hp0
        have hneg : ¬ -1 * ((3 * p 3 * p 1 - p 2 * p 2) / (3 * p 3 * p 3)) < 0 := by
          intro hlt; exact hc ⟨hq, by linarith⟩
        rw [fsqrt, if_neg hneg]
        simp
      · split
        · simp
        · split <;> simp

/-- `x³ - 6x² + 11x - 6`: the roots 1, 2 and 3. -/
example : some 1 ∈ cubicRoots (ofList [-6, 11, -6, 1]) ∧ some 2 ∈ cubicRoots (ofList [-6, 11, -6, 1]) ∧
    some 3 ∈ cubicRoots (ofList [-6, 11, -6, 1]) ∧ none ∉ cubicRoots (ofList [-6, 11, -6, 1]) := by
  refine ⟨?_, ?_, ?_, (C54_cubic_numbers_partial _ (by simp [ofList]) ?_).1⟩
  · rw [C54_cubic_roots_partial _ (by simp [ofList])]; norm_num [eval, evalLoop, ofList]
  · rw [C54_cubic_roots_partial _ (by simp [ofList])]; norm_num [eval, evalLoop, ofList]
  · rw [C54_cubic_roots_partial _ (by simp [ofList])]; norm_num [eval, evalLoop, ofList]
  · norm_num [eval, evalLoop, ofList, inflection, derivativeAt, Poly.derivative]

/-- **C54.** The full statement fails: for `x³ + x` two of the three results are NaN, although 0 is
the only root. -/
theorem C54_fails_nan : cubicRoots (ofList [0, 1, 0, 1]) = [some 0, none, none] := by
  unfold cubicRoots depressedRoots
  norm_num [ofList, fsqrt]

/-- **C54.** That case in general: the point of inflection is returned, which is the only root, and two NaN
beside it. -/
theorem C54_cubic_nan (p : Coeffs ℝ) (h : p 3 ≠ 0) (h0 : eval 3 p (inflection p) = 0)
    (h1 : 0 < derivativeAt 3 p (inflection p) / p 3) :
    cubicRoots p = [some (inflection p), none, none] ∧ ∀ x, eval 3 p x = 0 ↔ x = inflection p := by
  have e0 : eval 3 p (inflection p) =
      p 3 * ((2 * p 2 * p 2 * p 2 - 9 * p 3 * p 2 * p 1 + 27 * p 3 * p 3 * p 0) / (27 * p 3 * p 3 * p 3)) := by
    have : eval 3 p (inflection p) =
        p 0 + p 1 * inflection p + p 2 * inflection p ^ 2 + p 3 * inflection p ^ 3 := by
      simp [eval, evalLoop]; ring
    rw [this, cubic_as_depressed h, inflection]
    simp
  have e1 : derivativeAt 3 p (inflection p) / p 3 = (3 * p 3 * p 1 - p 2 * p 2) / (3 * p 3 * p 3) := by
    simp [derivativeAt, Poly.derivative, eval, evalLoop, inflection]
    field_simp
    ring
  rw [e0, mul_eq_zero, or_iff_right h] at h0
  rw [e1] at h1
  have hl : cubicRoots p = [some (inflection p), none, none] := by
    unfold cubicRoots depressedRoots
    simp only [if_neg h]
    rw [if_neg (fun hh => h1.ne' hh.1), if_neg h1.ne', if_pos h0, fsqrt, if_pos (by linarith)]
    rfl
  refine ⟨hl, fun x => ?_⟩
  rw [← C54_cubic_roots_partial p h, hl]
  simp

/-- `2x³ + 6x² + 8x + 4`, whose only root is -1. -/
example : cubicRoots (ofList [4, 8, 6, 2]) = [some (-1), none, none] := by
  have hi : inflection (ofList [4, 8, 6, 2]) = -1 := by norm_num [inflection, ofList]
  rw [(C54_cubic_nan _ (by simp [ofList]) (by rw [hi]; norm_num [eval, evalLoop, ofList])
    (by rw [hi]; norm_num [eval, evalLoop, ofList, derivativeAt, Poly.derivative])).1, hi]

/-- **C54.** A cubic whose leading coefficient is zero loses its roots: `x² - 1` held as a cubic gives
three NaN. -/
theorem C54_fails_degenerate :
    cubicRoots (ofList [-1, 0, 1, 0]) = [none, none, none] ∧
    eval 3 (ofList [-1, 0, 1, 0] : Coeffs ℝ) 1 = 0 := by
  constructor
  · unfold cubicRoots; norm_num [ofList]
  · norm_num [eval, evalLoop, ofList]

/-- **C54.** Every number is a root of the zero polynomial, but none is returned. -/
theorem C54_fails_zero :
    linearRoots (ofList [0, 0]) = [] ∧ quadraticRoots (ofList [0, 0, 0]) = [] ∧
    ∀ x : ℝ, eval 1 (ofList [0, 0] : Coeffs ℝ) x = 0 := by
  refine ⟨?_, ?_, ?_⟩
  · simp [linearRoots, ofList]
  · simp [quadraticRoots, linearRoots, ofList]
  · intro x; simp [eval, evalLoop, ofList]

end Ecl.Props
