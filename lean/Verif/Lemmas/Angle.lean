import Verif.Model.Angle
import Mathlib.Tactic.Linarith

/-! # Range of the C remainder -/
set_option autoImplicit false

namespace Ecl.Angle

theorem fmod_bounds (x : ℝ) {y : ℝ} (hy : 0 < y) :
    (0 ≤ x → 0 ≤ fmod x y ∧ fmod x y < y) ∧ (x ≤ 0 → -y < fmod x y ∧ fmod x y ≤ 0) := by
  have hx : x / y * y = x := div_mul_cancel₀ x hy.ne'
  constructor
  · intro h
    have h0 : 0 ≤ x / y := div_nonneg h hy.le
    unfold fmod truncQuot
    rw [if_pos h0]
    have h1 := Int.floor_le (x / y)
    have h2 := Int.lt_floor_add_one (x / y)
    constructor
    · have := mul_le_mul_of_nonneg_right h1 hy.le
      linarith
    · have := mul_lt_mul_of_pos_right h2 hy
      linarith [add_mul (⌊x / y⌋ : ℝ) 1 y]
  · intro h
    unfold fmod truncQuot
    split
    next h0 =>
      have : x / y = 0 := le_antisymm (div_nonpos_of_nonpos_of_nonneg h hy.le) h0
      have hx0 : x = 0 := by rw [← hx, this, zero_mul]
      rw [this, Int.floor_zero]
      constructor <;> push_cast <;> linarith
    next h0 =>
      have h1 := Int.le_ceil (x / y)
      have h2 := Int.ceil_lt_add_one (x / y)
      constructor
      · have := mul_lt_mul_of_pos_right h2 hy
        linarith [add_mul (x / y) 1 y]
      · have := mul_le_mul_of_nonneg_right h1 hy.le
        linarith

end Ecl.Angle
