import Verif.Lemmas.Extrema

/-! # C55: extreme values -/
set_option autoImplicit false
set_option linter.unusedSimpArgs false

namespace Ecl.Props
open Ecl Ecl.Poly

/-- **C55.** `Maximum<CubicPolynomial>` is the greatest value the cubic takes on the interval. -/
theorem C55_maximum_cubic (p : Coeffs ℝ) (a b : ℝ) (h : a ≤ b) :
    IsGreatest ((fun x => eval 3 p x) '' Set.Icc a b) (maximumCubic a b p) := by
  obtain ⟨h1, h2, h3, x, hx, hv⟩ := cubicExtremum_spec raise_picks p h
  refine ⟨⟨x, hx, hv⟩, ?_⟩
  rintro _ ⟨y, hy, rfl⟩
  exact le_of_tested h h1 h2 h3 y hy

/-- **C55.** `Minimum<CubicPolynomial>` is the least value the cubic takes on the interval. -/
theorem C55_minimum_cubic (p : Coeffs ℝ) (a b : ℝ) (h : a ≤ b) :
    IsLeast ((fun x => eval 3 p x) '' Set.Icc a b) (minimumCubic a b p) := by
  obtain ⟨h1, h2, h3, x, hx, hv⟩ := cubicExtremum_spec lower_picks p h
  refine ⟨⟨x, hx, hv⟩, ?_⟩
  rintro _ ⟨y, hy, rfl⟩
  exact ge_of_tested h h1 h2 h3 y hy

/-- **C55.** `Maximum<LinearFunction>` and `Minimum<LinearFunction>` likewise. -/
theorem C55_linear (p : Coeffs ℝ) (a b : ℝ) (h : a ≤ b) :
    IsGreatest ((fun x => eval 1 p x) '' Set.Icc a b) (maximumLinear a b p) ∧
    IsLeast ((fun x => eval 1 p x) '' Set.Icc a b) (minimumLinear a b p) := by
  have e : ∀ x, eval 1 p x = p 0 + p 1 * x := by intro x; simp [eval, evalLoop]
  constructor
  · constructor
    · rcases raise_picks.pick (eval 1 p b) (eval 1 p a) with h' | h'
      · exact ⟨b, ⟨h, le_refl _⟩, h'.symm⟩
      · exact ⟨a, ⟨le_refl _, h⟩, h'.symm⟩
    · rintro _ ⟨y, hy, rfl⟩
      have h1 := raise_picks.left (eval 1 p b) (eval 1 p a)
      have h2 := raise_picks.right (eval 1 p b) (eval 1 p a)
      show eval 1 p y ≤ raise (eval 1 p b) (eval 1 p a)
      rcases le_total 0 (p 1) with hs | hs
      · refine le_trans ?_ h1
        rw [e, e]; have := mul_le_mul_of_nonneg_left hy.2 hs; linarith
      · refine le_trans ?_ h2
        rw [e, e]; have := mul_le_mul_of_nonpos_left hy.1 hs; linarith
  · constructor
    · rcases lower_picks.pick (eval 1 p b) (eval 1 p a) with h' | h'
      · exact ⟨b, ⟨h, le_refl _⟩, h'.symm⟩
      · exact ⟨a, ⟨le_refl _, h⟩, h'.symm⟩
    · rintro _ ⟨y, hy, rfl⟩
      have h1 := lower_picks.left (eval 1 p b) (eval 1 p a)
      have h2 := lower_picks.right (eval 1 p b) (eval 1 p a)
      show lower (eval 1 p b) (eval 1 p a) ≤ eval 1 p y
      rcases le_total 0 (p 1) with hs | hs
      · refine le_trans h2 ?_
        rw [e, e]; have := mul_le_mul_of_nonneg_left hy.1 hs; linarith
      · refine le_trans h1 ?_
        rw [e, e]; have := mul_le_mul_of_nonpos_left hy.2 hs; linarith

/-- `x³ - 3x` on [-2, 3/2]: the maximum is the local one at -1. -/
example : maximumCubic (-2) (3 / 2) (ofList [0, -3, 0, 1]) = 2 := by
  have h := C55_maximum_cubic (ofList [0, -3, 0, 1]) (-2) (3 / 2) (by norm_num)
  refine h.unique ⟨⟨-1, by norm_num, by norm_num [eval, evalLoop, ofList]⟩, ?_⟩
  rintro _ ⟨y, hy, rfl⟩
  have : eval 3 (ofList [0, -3, 0, 1]) y = y ^ 3 - 3 * y := by
    simp [eval, evalLoop, ofList]; ring
  simp only [this]
  nlinarith [hy.1, hy.2, sq_nonneg (y + 1)]

end Ecl.Props
