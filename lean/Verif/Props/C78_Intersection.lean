import Verif.Model.Polynomial
import Mathlib.Tactic.FieldSimp
import Mathlib.Tactic.Ring
import Mathlib.Tactic.Linarith
import Mathlib.Tactic.NormNum

/-! # C78: intersection of two lines -/
set_option autoImplicit false
set_option linter.unusedSimpArgs false

namespace Ecl.Props
open Ecl Ecl.Poly

/-- The point `(x, y)` lies on the graph of the linear function. -/
def OnLine (f : Coeffs ℝ) (pt : ℝ × ℝ) : Prop := pt.2 = f 0 + f 1 * pt.1

/-- **C78.** The point returned lies on both lines and is the only such point; lines of equal slope
are refused; lines whose slopes differ by more than the precision are not.

Missing from the full statement: slopes that differ by less, see `C78_fails_near_parallel`. -/
theorem C78_intersection_partial (f g : Coeffs ℝ) :
    (∀ pt, intersection f g = .ok pt → ∀ pt', OnLine f pt' ∧ OnLine g pt' ↔ pt' = pt) ∧
    (f 1 = g 1 → intersection f g = .throw .outOfRange) ∧
    (min |f 1| |g 1| / 1000000000000 < |f 1 - g 1| → ∃ pt, intersection f g = .ok pt) := by
  refine ⟨?_, ?_, ?_⟩
  · intro pt h pt'
    unfold intersection at h
    simp only at h
    split at h
    next ha => cases h
    next ha =>
      have hne : g 1 - f 1 ≠ 0 := by
        intro hc
        apply ha
        unfold Math.isApprox
        have : f 1 - g 1 = 0 := by linarith
        rw [this, abs_zero]
        refine mul_nonneg (le_min (abs_nonneg _) (abs_nonneg _)) ?_
        norm_num [Math.dummyDouble]
      cases h
      unfold OnLine
      simp only [eval, evalLoop]
      constructor
      · rintro ⟨h1, h2⟩
        have hx : pt'.1 = (f 0 - g 0) / (g 1 - f 1) := by
          rw [eq_div_iff hne]; linarith
        apply Prod.ext
        · exact hx
        · rw [h1, hx]
      · intro e
        rw [e]
        refine ⟨by simp, ?_⟩
        simp only
        field_simp
        ring
  · intro e
    unfold intersection
    simp only
    rw [if_pos]
    unfold Math.isApprox
    rw [e, sub_self, abs_zero]
    refine mul_nonneg (le_min (abs_nonneg _) (abs_nonneg _)) ?_
    norm_num [Math.dummyDouble]
  · intro h
    unfold intersection
    simp only
    rw [if_neg]
    · exact ⟨_, rfl⟩
    · unfold Math.isApprox
      have : ((Math.dummyDouble : ℚ) : ℝ) = 1 / 1000000000000 := by norm_num [Math.dummyDouble]
      rw [this, not_le]
      linarith [mul_one_div (min |f 1| |g 1|) (1000000000000 : ℝ)]

/-- `1 + x` and `3 - x` meet in (1, 2). -/
example : intersection (ofList [1, 1]) (ofList [3, -1]) = .ok (1, 2) := by
  obtain ⟨pt, h⟩ := (C78_intersection_partial (ofList [1, 1]) (ofList [3, -1])).2.2 (by norm_num [ofList])
  rw [h, ← ((C78_intersection_partial _ _).1 pt h (1, 2)).1]
  norm_num [OnLine, ofList]

/-- **C78.** Two lines are refused exactly when their slopes differ by at most a million millionth of the smaller
one. -/
theorem C78_refused_iff (f g : Coeffs ℝ) :
    (∀ pt, intersection f g ≠ .ok pt) ↔ |f 1 - g 1| ≤ min |f 1| |g 1| / 1000000000000 := by
  constructor
  · intro h
    by_contra hc
    obtain ⟨pt, hp⟩ := (C78_intersection_partial f g).2.2 (not_le.1 hc)
    exact h pt hp
  · intro h pt
    have hd : ((Math.dummyDouble : ℚ) : ℝ) = 1 / 1000000000000 := by norm_num [Math.dummyDouble]
    unfold intersection
    simp only
    rw [if_pos (show Math.isApprox (f 1) (g 1) ((Math.dummyDouble : ℚ) : ℝ) by
      unfold Math.isApprox; rw [hd]; linarith [mul_one_div (min |f 1| |g 1|) (1000000000000 : ℝ)])]
    simp

private theorem failAfter_iff (calls : List (Coeffs ℝ × Coeffs ℝ)) :
    ∀ failed, failAfter calls failed = true ↔ failed = true ∨ ∃ c ∈ calls, ∀ pt, intersection c.1 c.2 ≠ .ok pt := by
  induction calls with
  | nil => intro failed; simp [failAfter]
  | cons c cs ih =>
    intro failed
    rw [failAfter, ih]
    unfold intersectWith
    cases h : intersection c.1 c.2 with
    | ok pt => obtain ⟨x, y⟩ := pt; simp [h]
    | throw f => simp [h]
    | ub => simp [h]

/-- **C78.** `fail()` tells whether any call of the object was refused so far. -/
theorem C78_flag (calls : List (Coeffs ℝ × Coeffs ℝ)) :
    failAfter calls false = true ↔ ∃ c ∈ calls, ∀ pt, intersection c.1 c.2 ≠ .ok pt := by
  rw [failAfter_iff]; simp

/-- So it tells whether the last call was refused if no earlier one was. -/
theorem C78_flag_partial (calls : List (Coeffs ℝ × Coeffs ℝ)) (f g : Coeffs ℝ)
    (h : ∀ c ∈ calls, ∃ pt, intersection c.1 c.2 = .ok pt) :
    failAfter (calls ++ [(f, g)]) false = true ↔ ∀ pt, intersection f g ≠ .ok pt := by
  rw [C78_flag]
  constructor
  · rintro ⟨c, hc, h1⟩
    rw [List.mem_append, List.mem_singleton] at hc
    rcases hc with hc | hc
    · obtain ⟨pt, hp⟩ := h c hc
      exact absurd hp (h1 pt)
    · rw [hc] at h1; exact h1
  · intro h1
    exact ⟨(f, g), by simp, h1⟩

/-- But it is said to tell whether the last call failed, and that is wrong: it is never cleared. -/
theorem C78_fails_flag : ∃ (f g f' g' : Coeffs ℝ) (pt : ℝ × ℝ), intersection f' g' = .ok pt ∧
    failAfter [(f, g), (f', g')] false = true := by
  obtain ⟨pt, h⟩ := (C78_intersection_partial (ofList [1, 1]) (ofList [3, -1])).2.2 (by norm_num [ofList])
  refine ⟨ofList [0, 1], ofList [2, 1], _, _, pt, h, ?_⟩
  rw [C78_flag]
  refine ⟨(ofList [0, 1], ofList [2, 1]), by simp, ?_⟩
  rw [C78_refused_iff]
  norm_num [ofList]

/-- **C78.** The full statement fails: the lines `x` and `(1 + 10⁻¹³) x` meet in the origin only, but
are refused as collinear. -/
theorem C78_fails_near_parallel :
    intersection (ofList [0, 1]) (ofList [0, 1 + 1 / 10000000000000]) = .throw .outOfRange ∧
    ∀ pt, OnLine (ofList [0, 1]) pt ∧ OnLine (ofList [0, 1 + 1 / 10000000000000]) pt ↔ pt = (0, 0) := by
  constructor
  · unfold intersection
    simp only
    rw [if_pos]
    unfold Math.isApprox
    norm_num [ofList, Math.dummyDouble, abs_of_nonneg, abs_of_neg]
  · intro pt
    unfold OnLine
    simp only [ofList, List.getD_cons_zero, List.getD_cons_succ, zero_add, one_mul]
    constructor
    · rintro ⟨h1, h2⟩
      have h0 : pt.1 = 0 := by rw [h1] at h2; linarith
      exact Prod.ext h0 (h1.trans h0)
    · intro e; rw [e]; simp

end Ecl.Props
