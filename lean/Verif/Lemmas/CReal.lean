import Verif.Core.CReal
import Mathlib.Tactic.Linarith
import Mathlib.Tactic.NormNum
import Mathlib.Tactic.Ring

/-! # Cutting off -/
set_option autoImplicit false

namespace Ecl

theorem truncate_of_nonneg {x : ℝ} (h : 0 ≤ x) : truncate x = ⌊x⌋ := if_pos h

theorem truncate_neg (x : ℝ) : truncate (-x) = -truncate x := by
  unfold truncate
  rcases lt_trichotomy x 0 with h | h | h
  · rw [if_pos (by linarith), if_neg (by linarith), Int.floor_neg]
  · subst h; simp
  · rw [if_neg (by linarith), if_pos (by linarith), Int.ceil_neg]

theorem truncate_int (n : Int) : truncate (n : ℝ) = n := by
  unfold truncate; split <;> simp

theorem truncate_le (x : ℝ) : |(truncate x : ℝ)| ≤ |x| := by
  wlog h : 0 ≤ x generalizing x
  · have := this (-x) (by linarith)
    rwa [truncate_neg, Int.cast_neg, abs_neg, abs_neg] at this
  · rw [truncate_of_nonneg h, abs_of_nonneg h, abs_of_nonneg (by exact_mod_cast Int.floor_nonneg.2 h)]
    exact Int.floor_le x

theorem truncate_near (x : ℝ) : |(truncate x : ℝ) - x| < 1 := by
  wlog h : 0 ≤ x generalizing x
  · have := this (-x) (by linarith)
    rw [truncate_neg, Int.cast_neg, ← abs_neg] at this
    rwa [show -(-(truncate x : ℝ) - -x) = truncate x - x by ring] at this
  · rw [truncate_of_nonneg h, abs_lt]
    constructor <;> linarith [Int.floor_le x, Int.lt_floor_add_one x]

theorem castLong_ok {x : ℝ} (h : |x| < 2 ^ 63) : castLong x = .ok (truncate x) := by
  have h1 := lt_of_le_of_lt (truncate_le x) h
  rw [abs_lt] at h1
  have h2 : (truncate x : ℝ) < ((2 ^ 63 : Int) : ℝ) := by norm_num at h1 ⊢; exact h1.2
  have h3 : ((-2 ^ 63 : Int) : ℝ) < (truncate x : ℝ) := by norm_num at h1 ⊢; exact h1.1
  rw [Int.cast_lt] at h2 h3
  refine if_pos ?_
  unfold InLong longMin longMax
  omega

end Ecl
