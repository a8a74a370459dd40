import Verif.Props.C130_Special
import Verif.Spec.PlainAngle
import Mathlib.Tactic.Linarith
import Mathlib.Tactic.Ring

/-! # C130: the value of an angle after a history of operations -/
set_option autoImplicit false

namespace Ecl.Props
open Ecl Ecl.Poly Ecl.Poly.Ext Ecl.Special Ecl.Spec

namespace C130

theorem same_wrap {a b : ℝ} (h : SameDirection a b) : SameDirection (Angle.wrapAngle a) b := by
  obtain ⟨k, hk⟩ := (C51_wrap a).2.2.1
  obtain ⟨n, hn⟩ := h
  exact ⟨k + n, by rw [hk, hn]; push_cast; ring⟩

theorem apply_same {v w : ℝ} (h : SameDirection v w) (op : AngleOp) (hn : Numeric (operand op)) (hw : WholeScale op) :
    ∃ r, applyAngle (num v) op = num r ∧ SameDirection r (plainly w op) := by
  obtain ⟨n, rfl⟩ := h
  obtain ⟨x, hx⟩ := (finite_iff _).1 hn
  cases op <;> simp only [operand] at hx <;> subst hx <;>
    simp only [applyAngle, Ext.add, Ext.sub, Ext.neg, Ext.mul, wrap_num, plainly, numberOf]
  case assign => exact ⟨_, rfl, same_wrap ⟨0, by simp⟩⟩
  case degrees => exact ⟨_, rfl, same_wrap ⟨0, by simp⟩⟩
  case addAssign => exact ⟨_, rfl, same_wrap ⟨n, by ring⟩⟩
  case add => exact ⟨_, rfl, same_wrap (same_wrap ⟨n, by ring⟩)⟩
  case subAssign => exact ⟨_, rfl, same_wrap ⟨n, by ring⟩⟩
  case sub => exact ⟨_, rfl, same_wrap (same_wrap ⟨n, by ring⟩)⟩
  case mulAssign =>
    obtain ⟨k, hk⟩ := hw
    cases hk
    exact ⟨_, rfl, same_wrap ⟨n * k, by push_cast; ring⟩⟩
  case mul =>
    obtain ⟨k, hk⟩ := hw
    cases hk
    exact ⟨_, rfl, same_wrap (same_wrap ⟨n * k, by push_cast; ring⟩)⟩

theorem plainly_assigns {op : AngleOp} (h : Assigns op) (v w : ℝ) : plainly v op = plainly w op := by
  cases op <;> first | rfl | exact h.elim

end C130
open C130

/-- **C130, partial.** After any history of operations on a new `Angle` with numbers, in which it is multiplied by
whole numbers only, its value is in [-π, π] and it points in the same direction as the number that the
same operations give on plain numbers, started at 0; only what comes after the last assignment matters.  Missing: other
factors (`C130_fails_scale`). -/
theorem C130_angle_value_partial (ops : List AngleOp) (hn : ∀ op ∈ sinceAssigned ops, Numeric (operand op))
    (hw : ∀ op ∈ sinceAssigned ops, WholeScale op) :
    ∃ r, runAngle ops = num r ∧ -Real.pi ≤ r ∧ r ≤ Real.pi ∧ SameDirection r ((sinceAssigned ops).foldl plainly 0) := by
  have key : ∃ r, runAngle ops = num r ∧ SameDirection r ((sinceAssigned ops).foldl plainly 0) := by
    induction ops using List.reverseRecOn with
    | nil =>
      refine ⟨Angle.wrapAngle 0, by simp [runAngle, wrap_num], ?_⟩
      exact same_wrap ⟨0, by simp [sinceAssigned]⟩
    | append_singleton l op ih =>
      have hrun : runAngle (l ++ [op]) = applyAngle (runAngle l) op := by simp [runAngle]
      by_cases h : Assigns op
      · rw [(sinceAssigned_snoc l op).1 h] at hn hw ⊢
        have ha : applyAngle (runAngle l) op = applyAngle (num 0) op := by
          cases op <;> first | rfl | exact h.elim
        obtain ⟨r, h1, h2⟩ := apply_same (v := 0) (w := 0) ⟨0, by simp⟩ op (hn op (by simp)) (hw op (by simp))
        exact ⟨r, by rw [hrun, ha, h1], by simpa using h2⟩
      · rw [(sinceAssigned_snoc l op).2 h] at hn hw ⊢
        obtain ⟨v, h1, h2⟩ := ih (fun o ho => hn o (by simp [ho])) (fun o ho => hw o (by simp [ho]))
        obtain ⟨r, h3, h4⟩ := apply_same h2 op (hn op (by simp)) (hw op (by simp))
        exact ⟨r, by rw [hrun, h1, h3], by simpa using h4⟩
  obtain ⟨r, h1, h2⟩ := key
  obtain ⟨r', h3, h4, h5⟩ := (C130_angle ops).1 hn
  rw [h1] at h3
  cases h3
  exact ⟨r, h1, h4, h5, h2⟩

/-- A new angle is 0; after `+= 3` and `* 3` it points in the direction of 9. -/
example : runAngle [] = num 0 ∧
    ∃ r, runAngle [.addAssign (num 3), .mul (num 3)] = num r ∧ -Real.pi ≤ r ∧ r ≤ Real.pi ∧ SameDirection r 9 := by
  constructor
  · rw [runAngle, List.foldl_nil, wrap_num, (C51_wrap 0).2.2.2 (by linarith [Real.pi_pos]) Real.pi_pos.le]
  · obtain ⟨r, h1, h2, h3, h4⟩ := C130_angle_value_partial [.addAssign (num 3), .mul (num 3)]
      (by simp [sinceAssigned, operand, Numeric])
      (by simp only [sinceAssigned, List.foldl_cons, List.foldl_nil, List.nil_append, List.cons_append, List.mem_cons,
            List.not_mem_nil, or_false]
          rintro op (rfl | rfl)
          · trivial
          · exact ⟨3, by norm_num⟩)
    refine ⟨r, h1, h2, h3, ?_⟩
    have e : (sinceAssigned [.addAssign (num 3), .mul (num 3)]).foldl plainly 0 = 9 := by
      simp [sinceAssigned, plainly, numberOf]; norm_num
    rwa [e] at h4

/-- **C130 fails.** Half of a full turn is not half a turn: the turn is forgotten when it is assigned. -/
theorem C130_fails_scale : ∃ ops : List AngleOp, (∀ op ∈ ops, Numeric (operand op)) ∧
    ∃ r, runAngle ops = num r ∧ ¬ SameDirection r (ops.foldl plainly 0) := by
  refine ⟨[.assign (num (2 * Real.pi)), .mulAssign (num (1 / 2))], by simp [operand, Numeric], ?_⟩
  have hz : Angle.wrapAngle (2 * Real.pi) = 0 := by
    have hp := Real.pi_pos
    have h := C51_wrap (2 * Real.pi)
    obtain ⟨k, hk⟩ := h.2.2.1
    have h1 := h.1
    have h2 := h.2.1
    rw [hk] at h1 h2 ⊢
    have h3 : (k : ℝ) < 0 := by nlinarith
    have h4 : (-2 : ℝ) < k := by nlinarith
    have h5 : k < 0 := by exact_mod_cast h3
    have h6 : -2 < k := by exact_mod_cast h4
    have : k = -1 := by omega
    subst this
    push_cast; ring
  refine ⟨0, ?_, ?_⟩
  · simp only [runAngle, List.foldl_cons, List.foldl_nil, applyAngle, wrap_num, hz, Ext.mul, zero_mul]
    rw [(C51_wrap 0).2.2.2 (by linarith [Real.pi_pos]) Real.pi_pos.le]
  · rintro ⟨k, hk⟩
    have hp := Real.pi_pos
    simp only [List.foldl_cons, List.foldl_nil, plainly, numberOf] at hk
    have h1 : (2 * k + 1 : ℝ) * Real.pi = 0 := by linarith
    have h2 : (2 * k + 1 : ℝ) = 0 := by
      rcases mul_eq_zero.1 h1 with h | h
      · exact h
      · linarith
    have h3 : 2 * k + 1 = 0 := by exact_mod_cast h2
    omega

end Ecl.Props
