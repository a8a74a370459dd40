import Verif.Spec.Double
import Mathlib.Algebra.Order.Archimedean.Basic
import Mathlib.Algebra.Order.Field.Power
import Mathlib.Data.Real.Archimedean
import Mathlib.Data.Int.Log
import Mathlib.Algebra.Order.Round
import Mathlib.Tactic.Linarith
import Mathlib.Tactic.Positivity
import Mathlib.Tactic.NormNum
import Mathlib.Tactic.FieldSimp
import Mathlib.Tactic.Ring

/-! # Rounding to double precision -/
set_option autoImplicit false

namespace Ecl.Spec

theorem isDouble_int {n : ℤ} (h : |n| < 2 ^ 53) : IsDouble n := ⟨n, 0, h, by simp⟩

theorem IsDouble.neg {x : ℝ} (h : IsDouble x) : IsDouble (-x) := by
  obtain ⟨m, e, hm, rfl⟩ := h
  exact ⟨-m, e, by simpa using hm, by push_cast; ring⟩

/-- Doubles that are not small are multiples of the spacing. -/
theorem IsDouble.grid {y : ℝ} (h : IsDouble y) {E : ℤ} (hE : (2 : ℝ) ^ E ≤ |y|) :
    ∃ k : ℤ, y = k * (2 : ℝ) ^ (E - 52) := by
  obtain ⟨m, e, hm, rfl⟩ := h
  have h2 : (0 : ℝ) < 2 ^ e := by positivity
  have hlt : (2 : ℝ) ^ E < 2 ^ (53 + e) := by
    have h3 : |(m : ℝ) * 2 ^ e| < 2 ^ (53 : ℤ) * 2 ^ e := by
      rw [abs_mul, abs_of_pos h2]
      refine mul_lt_mul_of_pos_right ?_ h2
      have : ((|m| : ℤ) : ℝ) < ((2 ^ 53 : ℤ) : ℝ) := Int.cast_lt.2 hm
      rw [Int.cast_abs] at this
      rw [show (2 : ℝ) ^ (53 : ℤ) = ((2 ^ 53 : ℤ) : ℝ) by norm_num]
      exact this
    rw [zpow_add₀ (by norm_num)]
    exact lt_of_le_of_lt hE h3
  have hle : E < 53 + e := (zpow_lt_zpow_iff_right₀ (by norm_num : (1 : ℝ) < 2)).1 hlt
  obtain ⟨j, hj⟩ : ∃ j : ℕ, e - (E - 52) = j := ⟨(e - (E - 52)).toNat, by omega⟩
  refine ⟨m * 2 ^ j, ?_⟩
  have : (2 : ℝ) ^ e = 2 ^ j * 2 ^ (E - 52) := by
    rw [← zpow_natCast, ← hj, ← zpow_add₀ (by norm_num)]
    congr 1
    omega
  rw [this]
  push_cast
  ring

/-- Multiples of the spacing are doubles, the next power of two included. -/
theorem isDouble_grid {k E : ℤ} (h : |k| ≤ 2 ^ 53) : IsDouble (k * (2 : ℝ) ^ E) := by
  rcases lt_or_eq_of_le h with h | h
  · exact ⟨k, E, h, rfl⟩
  · rcases abs_eq (by norm_num : (0 : ℤ) ≤ 2 ^ 53) |>.1 h with rfl | rfl
    · refine ⟨2 ^ 52, E + 1, by norm_num, ?_⟩
      rw [zpow_add₀ (by norm_num)]
      push_cast
      ring
    · refine ⟨-2 ^ 52, E + 1, by norm_num, ?_⟩
      rw [zpow_add₀ (by norm_num)]
      push_cast
      ring

theorem round_abs_le {x : ℝ} {n : ℤ} (h : |x| ≤ n) : |round x| ≤ n := by
  obtain ⟨h1, h2⟩ := abs_le.1 h
  rw [abs_le, round_eq]
  refine ⟨Int.le_floor.2 ?_, Int.lt_add_one_iff.1 (Int.floor_lt.2 ?_)⟩ <;> push_cast <;> linarith

section
variable {fl : ℝ → ℝ} (hfl : RoundsToNearest fl)
include hfl

theorem RoundsToNearest.self {x : ℝ} (h : IsDouble x) : fl x = x := by
  have h1 := (hfl x).2 x h
  rw [sub_self, abs_zero] at h1
  have := abs_nonpos_iff.1 h1
  linarith

theorem RoundsToNearest.lt {x y b : ℝ} (hy : IsDouble y) (h : 2 * x < y + b) (hyb : y < b) :
    fl x < b := by
  by_contra hb
  have h1 := (hfl x).2 y hy
  have h2 : b - x ≤ |fl x - x| := le_trans (by linarith) (le_abs_self _)
  have h3 : |y - x| < b - x := abs_lt.2 ⟨by linarith, by linarith⟩
  linarith

theorem RoundsToNearest.le {x y : ℝ} (hy : IsDouble y) (h : x ≤ y) : fl x ≤ y := by
  by_contra hb
  have h1 := (hfl x).2 y hy
  rw [abs_of_nonneg (by linarith), abs_of_nonneg (by linarith)] at h1
  linarith

theorem RoundsToNearest.ge {x y : ℝ} (hy : IsDouble y) (h : y ≤ x) : y ≤ fl x := by
  by_contra hb
  have h1 := (hfl x).2 y hy
  rw [abs_of_nonpos (by linarith), abs_of_nonpos (by linarith)] at h1
  linarith

/-- The rounded value of a number near the middle of a double's neighbourhood. -/
theorem RoundsToNearest.eq {x : ℝ} {k E : ℤ} (h1 : 2 ^ 52 < k) (h2 : k < 2 ^ 53)
    (h : |x - k * 2 ^ E| < 2 ^ E / 2) : fl x = k * 2 ^ E := by
  have hg : (0 : ℝ) < 2 ^ E := by positivity
  have h3 := (hfl x).2 (k * 2 ^ E) ⟨k, E, by rw [abs_of_pos (by linarith)]; exact h2, rfl⟩
  rw [abs_sub_comm ((k : ℝ) * 2 ^ E)] at h3
  have h4 := abs_lt.1 (lt_of_le_of_lt h3 h)
  have h5 := abs_lt.1 h
  have h6 : ((k - 1 : ℤ) : ℝ) * 2 ^ E ≤ fl x := by push_cast; linarith
  have h7 : (2 : ℝ) ^ (E + 52) ≤ |fl x| := by
    refine le_trans (le_trans ?_ h6) (le_abs_self _)
    rw [zpow_add₀ (by norm_num), mul_comm]
    refine mul_le_mul_of_nonneg_right ?_ hg.le
    have : ((2 ^ 52 : ℤ) : ℝ) ≤ ((k - 1 : ℤ) : ℝ) := Int.cast_le.2 (by omega)
    refine le_trans (le_of_eq ?_) this
    norm_num
  obtain ⟨j, hj⟩ := (hfl x).1.grid h7
  rw [show E + 52 - 52 = E by omega] at hj
  rw [hj] at h4 ⊢
  have h8 : ((j - k : ℤ) : ℝ) * 2 ^ E < (1 : ℤ) * 2 ^ E := by push_cast; linarith
  have h9 : ((-1 : ℤ) : ℝ) * 2 ^ E < ((j - k : ℤ) : ℝ) * 2 ^ E := by push_cast; linarith
  have h10 := Int.cast_lt.1 (lt_of_mul_lt_mul_right h8 hg.le)
  have h11 := Int.cast_lt.1 (lt_of_mul_lt_mul_right h9 hg.le)
  rw [show j = k by omega]

/-- The error of rounding, absolute. -/
theorem RoundsToNearest.error {x : ℝ} {E : ℤ} (h : |x| ≤ 2 ^ E) : |fl x - x| ≤ 2 ^ (E - 54) := by
  have hg : (0 : ℝ) < 2 ^ (E - 53) := by positivity
  have hk : |round (x / 2 ^ (E - 53))| ≤ 2 ^ 53 := by
    have hx : |x / 2 ^ (E - 53)| ≤ (2 ^ 53 : ℤ) := by
      rw [abs_div, abs_of_pos hg, div_le_iff₀ hg]
      refine h.trans (le_of_eq ?_)
      have : (2 : ℝ) ^ E = 2 ^ (53 : ℤ) * 2 ^ (E - 53) := by
        rw [← zpow_add₀ (by norm_num)]; congr 1; omega
      rw [this]; norm_num
    exact round_abs_le hx
  have h1 := (hfl x).2 _ (isDouble_grid (E := E - 53) hk)
  refine h1.trans ?_
  have h2 := abs_sub_round (x / 2 ^ (E - 53))
  have h3 : (round (x / 2 ^ (E - 53)) : ℝ) * 2 ^ (E - 53) - x =
      -((x / 2 ^ (E - 53) - round (x / 2 ^ (E - 53))) * 2 ^ (E - 53)) := by
    field_simp
    ring
  rw [h3, abs_neg, abs_mul, abs_of_pos hg]
  have h4 : (2 : ℝ) ^ (E - 54) = 1 / 2 * 2 ^ (E - 53) := by
    rw [show E - 53 = E - 54 + 1 by omega, zpow_add₀ (by norm_num)]
    ring
  rw [h4]
  exact mul_le_mul_of_nonneg_right h2 hg.le

/-- The error of rounding, relative. -/
theorem RoundsToNearest.relative (x : ℝ) : |fl x - x| ≤ |x| / 2 ^ 53 := by
  rcases eq_or_ne x 0 with rfl | hx
  · rw [hfl.self ⟨0, 0, by norm_num, by simp⟩]
    simp
  · obtain ⟨E, h1, h2⟩ := exists_mem_Ico_zpow (abs_pos.2 hx) (by norm_num : (1 : ℝ) < 2)
    refine (hfl.error h2.le).trans ?_
    rw [show E + 1 - 54 = E - 53 by omega, zpow_sub₀ (by norm_num)]
    have : (2 : ℝ) ^ (53 : ℤ) = 2 ^ 53 := by norm_num
    rw [this]
    gcongr

end

/-! ### There is such a rounding -/

/-- Rounding to nearest, within the binade of the number. -/
noncomputable def round53 (x : ℝ) : ℝ :=
  round (x / 2 ^ (Int.log 2 |x| - 52)) * 2 ^ (Int.log 2 |x| - 52)

theorem round53_nearest : RoundsToNearest round53 := by
  intro x
  rcases eq_or_ne x 0 with rfl | hx
  · have h0 : round53 0 = 0 := by simp [round53]
    rw [h0]
    exact ⟨⟨0, 0, by norm_num, by simp⟩, fun y _ => by simp⟩
  have hp := abs_pos.2 hx
  generalize hE : Int.log 2 |x| = E
  have h1 : (2 : ℝ) ^ E ≤ |x| := by
    have := Int.zpow_log_le_self (b := 2) (by norm_num) hp
    rw [hE] at this
    exact_mod_cast this
  have h2 : |x| < (2 : ℝ) ^ (E + 1) := by
    have := Int.lt_zpow_succ_log_self (b := 2) (by norm_num) |x|
    rw [hE] at this
    exact_mod_cast this
  have hr : round53 x = round (x / 2 ^ (E - 52)) * 2 ^ (E - 52) := by rw [round53, hE]
  have hg : (0 : ℝ) < 2 ^ (E - 52) := by positivity
  have hE1 : (2 : ℝ) ^ (E + 1) = (2 ^ 53 : ℤ) * 2 ^ (E - 52) := by
    rw [show E + 1 = 53 + (E - 52) by omega, zpow_add₀ (by norm_num)]
    norm_num
  have hE0 : (2 : ℝ) ^ E = (2 ^ 52 : ℤ) * 2 ^ (E - 52) := by
    rw [show E = 52 + (E - 52) by omega, zpow_add₀ (by norm_num)]
    norm_num
  rw [hr]
  constructor
  · apply isDouble_grid
    have hx : |x / 2 ^ (E - 52)| ≤ (2 ^ 53 : ℤ) := by
      rw [abs_div, abs_of_pos hg, div_le_iff₀ hg, ← hE1]
      exact h2.le
    exact round_abs_le hx
  · -- no multiple of the spacing is nearer
    have hmul : ∀ k : ℤ, |round (x / 2 ^ (E - 52)) * 2 ^ (E - 52) - x| ≤ |k * 2 ^ (E - 52) - x| := by
      intro k
      have e : ∀ k : ℤ, |(k : ℝ) * 2 ^ (E - 52) - x| = |x / 2 ^ (E - 52) - k| * 2 ^ (E - 52) := by
        intro k
        rw [abs_sub_comm]
        conv_rhs => rw [← abs_of_pos hg, ← abs_mul, abs_of_pos hg]
        congr 1
        field_simp
      rw [e, e]
      exact mul_le_mul_of_nonneg_right (round_le _ _) hg.le
    intro y hy
    rcases le_or_gt ((2 : ℝ) ^ E) |y| with hy1 | hy1
    · obtain ⟨k, rfl⟩ := hy.grid hy1
      exact hmul k
    · rcases le_or_gt 0 x with h0 | h0
      · refine (hmul (2 ^ 52)).trans ?_
        rw [← hE0]
        rw [abs_of_nonneg h0] at h1 h2
        rw [abs_of_nonpos (by linarith), abs_of_nonpos (by linarith [(abs_lt.1 hy1).2])]
        linarith [(abs_lt.1 hy1).2]
      · refine (hmul (-2 ^ 52)).trans ?_
        have : ((-2 ^ 52 : ℤ) : ℝ) * 2 ^ (E - 52) = -2 ^ E := by rw [hE0]; push_cast; ring
        rw [this]
        rw [abs_of_neg h0] at h1 h2
        rw [abs_of_nonneg (by linarith), abs_of_nonneg (by linarith [(abs_lt.1 hy1).1])]
        linarith [(abs_lt.1 hy1).1]

/-- The part behind the point of a double is a double, and so is the part in front of it. -/
theorem IsDouble.parts {v : ℝ} (h : IsDouble v) (h0 : 0 ≤ v) :
    IsDouble ⌊v⌋ ∧ IsDouble (v - ⌊v⌋) ∧ v - ⌊v⌋ ≤ 1 - 1 / 2 ^ 53 := by
  obtain ⟨m, e, hm, rfl⟩ := h
  have he : (0 : ℝ) < 2 ^ e := by positivity
  have hm0 : 0 ≤ m := by
    have := nonneg_of_mul_nonneg_left h0 he
    exact_mod_cast this
  rw [abs_of_nonneg hm0] at hm
  rcases le_or_gt 0 e with h | h
  · obtain ⟨j, rfl⟩ : ∃ j : ℕ, e = j := ⟨e.toNat, by omega⟩
    have hi : (m : ℝ) * 2 ^ (j : ℤ) = ((m * 2 ^ j : ℤ) : ℝ) := by push_cast; simp
    rw [hi, Int.floor_intCast, sub_self]
    refine ⟨hi ▸ ⟨m, j, by rwa [abs_of_nonneg hm0], rfl⟩, ⟨0, 0, by norm_num, by simp⟩, by norm_num⟩
  · obtain ⟨j, rfl⟩ : ∃ j : ℕ, e = -(j : ℤ) := ⟨(-e).toNat, by omega⟩
    generalize ha : ⌊(m : ℝ) * 2 ^ (-(j : ℤ))⌋ = a
    have ha0 : 0 ≤ a := by rw [← ha]; exact Int.floor_nonneg.2 h0
    have h1 : (a : ℝ) ≤ m * 2 ^ (-(j : ℤ)) := by rw [← ha]; exact Int.floor_le _
    have h2 : (m : ℝ) * 2 ^ (-(j : ℤ)) < a + 1 := by rw [← ha]; exact Int.lt_floor_add_one _
    have hj : (2 : ℝ) ^ (-(j : ℤ)) = 1 / 2 ^ j := by simp
    have hp : (0 : ℝ) < 2 ^ j := by positivity
    rw [hj] at h1 h2 ⊢
    rw [mul_one_div, le_div_iff₀ hp] at h1
    rw [mul_one_div, div_lt_iff₀ hp] at h2
    have h1' : a * 2 ^ j ≤ m := by exact_mod_cast h1
    have h2' : m < (a + 1) * 2 ^ j := by exact_mod_cast h2
    have hr : (m : ℝ) * (1 / 2 ^ j) - a = ((m - a * 2 ^ j : ℤ) : ℝ) / 2 ^ j := by
      push_cast; field_simp
    have hpz : (1 : ℤ) ≤ 2 ^ j := one_le_pow₀ (by norm_num)
    refine ⟨isDouble_int ?_, ⟨m - a * 2 ^ j, -(j : ℤ), ?_, ?_⟩, ?_⟩
    · rw [abs_of_nonneg ha0]; nlinarith
    · rw [abs_of_nonneg (by linarith)]; nlinarith
    · rw [hr, hj]; ring
    · rw [hr, div_le_iff₀ hp]
      have h3 : m - a * 2 ^ j ≤ 2 ^ j - 1 := by linarith
      have h4 : m - a * 2 ^ j ≤ 2 ^ 53 - 1 := by nlinarith
      have h3' : ((m - a * 2 ^ j : ℤ) : ℝ) ≤ 2 ^ j - 1 := by exact_mod_cast h3
      have h4' : ((m - a * 2 ^ j : ℤ) : ℝ) ≤ 2 ^ 53 - 1 := by exact_mod_cast h4
      rcases le_or_gt j 53 with hj | hj
      · have : (2 : ℝ) ^ j ≤ 2 ^ 53 := pow_le_pow_right₀ (by norm_num) hj
        have : (2 : ℝ) ^ j * (1 / 2 ^ 53) ≤ 1 := by
          rw [mul_one_div, div_le_one (by norm_num)]; exact this
        linarith [mul_sub ((2 : ℝ) ^ j) 1 (1 / 2 ^ 53), mul_comm ((2 : ℝ) ^ j) (1 - 1 / 2 ^ 53)]
      · have : (2 : ℝ) ^ 54 ≤ 2 ^ j := pow_le_pow_right₀ (by norm_num) hj
        nlinarith

end Ecl.Spec
