import Mathlib.Analysis.SpecialFunctions.Trigonometric.Basic

/-! # Directions: angles up to whole turns -/
set_option autoImplicit false

namespace Ecl.Props
open Real

/-- `a` and `b` differ by a whole number of turns. -/
def SameDirection (a b : ℝ) : Prop := ∃ k : ℤ, a = b + k * (2 * π)

theorem sameDirection_refl (a : ℝ) : SameDirection a a := ⟨0, by simp⟩

theorem sameDirection_trans {a b c : ℝ} (h : SameDirection a b) (h' : SameDirection b c) :
    SameDirection a c := by
  obtain ⟨k, hk⟩ := h; obtain ⟨l, hl⟩ := h'
  exact ⟨k + l, by rw [hk, hl]; push_cast; ring⟩

end Ecl.Props
