import Verif.Model.MathSimple
import Mathlib.Tactic.Linarith
import Mathlib.Tactic.NormNum
import Mathlib.Tactic.FieldSimp
import Mathlib.Tactic.Positivity
import Mathlib.Analysis.InnerProductSpace.PiL2

/-!
# C39, C77: signs, approximate comparison, cube root, norms
-/
set_option autoImplicit false

namespace Ecl.Props
open Ecl.Math

/-- **C39**: `sign` is -1, 0 or 1 according to the order, `psign` and `nsign` agree with it except at 0,
where they are 1 and -1. -/
theorem C39_sign {α : Type} [LinearOrder α] [Zero α] (x : α) :
    (sign x = 1 ↔ 0 < x) ∧ (sign x = -1 ↔ x < 0) ∧ (sign x = 0 ↔ x = 0) ∧
    (x ≠ 0 → psign x = sign x ∧ nsign x = sign x) ∧ psign (0 : α) = 1 ∧ nsign (0 : α) = -1 ∧
    psign x ≠ 0 ∧ nsign x ≠ 0 := by
  rcases lt_trichotomy x 0 with h | h | h
  · simp [sign, psign, nsign, h, h.ne, not_lt.2 h.le, not_le.2 h]
  · subst h; simp [sign, psign, nsign]
  · simp [sign, psign, nsign, h, h.ne', not_lt.2 h.le, h.le]

/-- **C39**: with the same precision `isApprox` is symmetric, reflexive for precisions that are not
negative, invariant under scaling by any nonzero factor, and equality for precision 0. -/
theorem C39_isApprox {α : Type} [Field α] [LinearOrder α] [IsStrictOrderedRing α] (x y p k : α) :
    (isApprox x y p ↔ isApprox y x p) ∧
    (0 ≤ p → isApprox x x p) ∧
    (k ≠ 0 → (isApprox (k * x) (k * y) p ↔ isApprox x y p)) ∧
    (isApprox x y 0 ↔ x = y) ∧
    (∀ q, p ≤ q → isApprox x y p → isApprox x y q) := by
  unfold isApprox
  refine ⟨by rw [abs_sub_comm, min_comm], fun hp => ?_, fun hk => ?_, ?_, fun q hq h => ?_⟩
  · simp only [sub_self, abs_zero, min_self]; positivity
  · have hk' : 0 < |k| := abs_pos.2 hk
    rw [← mul_sub, abs_mul, abs_mul, abs_mul, ← mul_min_of_nonneg _ _ hk'.le, mul_assoc,
      mul_le_mul_iff_right₀ hk']
  · rw [mul_zero]
    exact ⟨fun h => sub_eq_zero.1 (abs_eq_zero.1 (le_antisymm h (abs_nonneg _))),
      fun h => by simp [h]⟩
  · exact h.trans (mul_le_mul_of_nonneg_left hq (le_min (abs_nonneg _) (abs_nonneg _)))

/-- **C39**: `isApprox` means a relative difference of at most the precision. -/
theorem C39_relative {α : Type} [Field α] [LinearOrder α] [IsStrictOrderedRing α] (x y p : α)
    (hx : x ≠ 0) (hy : y ≠ 0) :
    isApprox x y p ↔ |x - y| / |x| ≤ p ∧ |x - y| / |y| ≤ p := by
  have hx' : 0 < |x| := abs_pos.2 hx
  have hy' : 0 < |y| := abs_pos.2 hy
  unfold isApprox
  rw [div_le_iff₀ hx', div_le_iff₀ hy', mul_comm p, mul_comm p]
  constructor
  · intro h
    have hp : 0 ≤ p := by
      by_contra hp
      have := mul_neg_of_pos_of_neg (lt_min hx' hy') (not_le.1 hp)
      have := abs_nonneg (x - y)
      linarith
    exact ⟨h.trans (mul_le_mul_of_nonneg_right (min_le_left _ _) hp),
      h.trans (mul_le_mul_of_nonneg_right (min_le_right _ _) hp)⟩
  · rintro ⟨h1, h2⟩
    rcases min_choice |x| |y| with h | h <;> rw [h] <;> assumption

/-- **C39**: `isApproxOrLessThan` is total and holds for everything not larger; for equal or smaller
numbers and integers it is the order. -/
theorem C39_lessThan {α : Type} [Field α] [LinearOrder α] (x y p : α) (i : Int) :
    (isApproxOrLessThan x y p ∨ isApproxOrLessThan y x p) ∧
    (isApproxOrLessThan x y p ↔ x ≤ y ∨ isApprox x y p) ∧
    (isApproxOrLessThanInt i y ↔ (i : α) ≤ y) :=
  ⟨(le_total x y).elim (fun h => .inl (.inl h)) (fun h => .inr (.inl h)), Iff.rfl, Iff.rfl⟩

/-- **C39**, integers: for two integers it is equality; an integer and a floating point number are
compared like two numbers, unless the precision is 0. -/
theorem C39_integers_partial {α : Type} [Field α] [LinearOrder α] (dummy : α) (i j : Int) (y p : α) (hp : p ≠ 0) :
    (isApproxInt i j ↔ i = j) ∧ (isApproxIntFloat dummy i y p ↔ isApprox (i : α) y p) := by
  refine ⟨Iff.rfl, ?_⟩
  simp [isApproxIntFloat, isApprox, hp]

/-- **C39**, default precisions: an `int` or larger integer and a `double` are compared with the precision of `double`,
as the `double` and the integer are; a `char` or `short` with that of `float`. -/
theorem C39_defaults (i : Int) (y : ℚ) :
    (isApproxIntFloat dummyDouble i y dummyInt ↔ |(i : ℚ) - y| ≤ min |(i : ℚ)| |y| / 1000000000000) ∧
    (isApproxIntFloat dummyDouble i y dummyInt ↔ isApprox y i dummyDouble) ∧
    (isApproxIntFloat dummyDouble i y dummySmall ↔ |(i : ℚ) - y| ≤ min |(i : ℚ)| |y| / 100000) := by
  refine ⟨?_, ?_, ?_⟩
  · simp [isApproxIntFloat, dummyInt, dummyDouble, div_eq_mul_inv]
  · simp only [isApproxIntFloat, isApprox, dummyInt, if_true]
    rw [abs_sub_comm, min_comm]
  · have : dummySmall ≠ 0 := by norm_num [dummySmall]
    simp only [isApproxIntFloat, if_neg this]
    rw [dummySmall, mul_one_div]

/-- **C39 fails** for an integer compared to a `double`: precision 0 does not mean equality. -/
theorem C39_fails_zero_precision :
    isApproxIntFloat dummyDouble 1 (1 + 1 / 10000000000000 : ℚ) 0 ∧ (1 : ℚ) ≠ 1 + 1 / 10000000000000 := by
  unfold isApproxIntFloat dummyDouble
  norm_num [abs_le]

/-- **C39 fails**: with default precisions `isApprox` of a `short` and a `double` is not symmetric. -/
theorem C39_fails_symmetry :
    isApproxIntFloat dummyDouble 1 (1 + 1 / 1000000 : ℚ) dummySmall ∧
    ¬ isApprox (1 + 1 / 1000000 : ℚ) 1 dummyDouble := by
  unfold isApproxIntFloat isApprox dummyDouble dummySmall
  norm_num [abs_le]

example : isApprox (100 : ℚ) 101 (1 / 100) ∧ ¬ isApprox (100 : ℚ) 102 (1 / 100) := by
  unfold isApprox; norm_num [abs_of_nonneg]

/-- **C77**: `cube_root` is the real cube root, for every number, also negative ones. -/
theorem C77_cube_root (x y : ℝ) : cubeRoot x ^ 3 = x ∧ (cubeRoot x = y ↔ y ^ 3 = x) := by
  have h : ∀ x : ℝ, cubeRoot x ^ 3 = x := by
    intro x
    have h3 : (|x| ^ ((1 : ℝ) / 3)) ^ 3 = |x| := by
      rw [← Real.rpow_natCast, ← Real.rpow_mul (abs_nonneg x)]; norm_num
    unfold cubeRoot
    rw [mul_pow, h3]
    unfold psign
    by_cases hx : x ≥ 0
    · simp [hx, abs_of_nonneg hx]
    · rw [if_neg hx, abs_of_neg (not_le.1 hx)]; norm_num
  refine ⟨h x, fun e => e ▸ h x, fun e => ?_⟩
  have : cubeRoot x ^ 3 = y ^ 3 := by rw [h x, e]
  exact (Odd.strictMono_pow (by decide : Odd 3)).injective this

/-- **C77**: the norms are the Euclidean lengths: nonnegative, zero only for zero vectors, absolutely
homogeneous, and they satisfy the triangle inequality. -/
theorem C77_norms (x y z a b c k : ℝ) :
    norm2 x y = ‖(!₂[x, y] : EuclideanSpace ℝ (Fin 2))‖ ∧
    norm3 x y z = ‖(!₂[x, y, z] : EuclideanSpace ℝ (Fin 3))‖ ∧
    (norm2 x y = 0 ↔ x = 0 ∧ y = 0) ∧ (norm3 x y z = 0 ↔ x = 0 ∧ y = 0 ∧ z = 0) ∧
    norm3 (k * x) (k * y) (k * z) = |k| * norm3 x y z ∧
    norm3 (x + a) (y + b) (z + c) ≤ norm3 x y z + norm3 a b c := by
  have h2 : ∀ x y : ℝ, norm2 x y = ‖(!₂[x, y] : EuclideanSpace ℝ (Fin 2))‖ := by
    intro x y
    rw [EuclideanSpace.norm_eq]
    simp [norm2, Fin.sum_univ_two, sq]
  have h3 : ∀ x y z : ℝ, norm3 x y z = ‖(!₂[x, y, z] : EuclideanSpace ℝ (Fin 3))‖ := by
    intro x y z
    rw [EuclideanSpace.norm_eq]
    simp [norm3, Fin.sum_univ_three, sq]
  refine ⟨h2 x y, h3 x y z, ?_, ?_, ?_, ?_⟩
  · unfold norm2
    rw [Real.sqrt_eq_zero (add_nonneg (mul_self_nonneg x) (mul_self_nonneg y))]
    constructor
    · intro h; constructor <;> nlinarith [mul_self_nonneg x, mul_self_nonneg y]
    · rintro ⟨rfl, rfl⟩; ring
  · unfold norm3
    rw [Real.sqrt_eq_zero (add_nonneg (add_nonneg (mul_self_nonneg x) (mul_self_nonneg y))
      (mul_self_nonneg z))]
    constructor
    · intro h
      refine ⟨?_, ?_, ?_⟩ <;> nlinarith [mul_self_nonneg x, mul_self_nonneg y, mul_self_nonneg z]
    · rintro ⟨rfl, rfl, rfl⟩; ring
  · unfold norm3
    rw [← Real.sqrt_sq_eq_abs, ← Real.sqrt_mul (sq_nonneg k)]
    congr 1; ring
  · rw [h3, h3, h3]
    have : (!₂[x + a, y + b, z + c] : EuclideanSpace ℝ (Fin 3)) = !₂[x, y, z] + !₂[a, b, c] := by
      ext i; fin_cases i <;> simp
    rw [this]; exact norm_add_le _ _

example : cubeRoot (-8) = -2 := (C77_cube_root (-8) (-2)).2.2 (by norm_num)
example : norm2 3 4 = 5 := by
  unfold norm2; rw [show (3 * 3 + 4 * 4 : ℝ) = 5 ^ 2 by norm_num]; simp

end Ecl.Props
