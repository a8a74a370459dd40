import Verif.Lemmas.Double

/-! # Rounding to single precision -/
set_option autoImplicit false

namespace Ecl.Spec

theorem isSingle_int {n : ℤ} (h : |n| < 2 ^ 24) : IsSingle n := ⟨n, 0, h, by simp⟩

theorem IsSingle.neg {x : ℝ} (h : IsSingle x) : IsSingle (-x) := by
  obtain ⟨m, e, hm, rfl⟩ := h
  exact ⟨-m, e, by simpa using hm, by push_cast; ring⟩

/-- Singles that are not small are multiples of the spacing. -/
theorem IsSingle.grid {y : ℝ} (h : IsSingle y) {E : ℤ} (hE : (2 : ℝ) ^ E ≤ |y|) :
    ∃ k : ℤ, y = k * (2 : ℝ) ^ (E - 23) := by
  obtain ⟨m, e, hm, rfl⟩ := h
  have h2 : (0 : ℝ) < 2 ^ e := by positivity
  have hlt : (2 : ℝ) ^ E < 2 ^ (24 + e) := by
    have h3 : |(m : ℝ) * 2 ^ e| < 2 ^ (24 : ℤ) * 2 ^ e := by
      rw [abs_mul, abs_of_pos h2]
      refine mul_lt_mul_of_pos_right ?_ h2
      have : ((|m| : ℤ) : ℝ) < ((2 ^ 24 : ℤ) : ℝ) := Int.cast_lt.2 hm
      rw [Int.cast_abs] at this
      rw [show (2 : ℝ) ^ (24 : ℤ) = ((2 ^ 24 : ℤ) : ℝ) by norm_num]
      exact this
    rw [zpow_add₀ (by norm_num)]
    exact lt_of_le_of_lt hE h3
  have hle : E < 24 + e := (zpow_lt_zpow_iff_right₀ (by norm_num : (1 : ℝ) < 2)).1 hlt
  obtain ⟨j, hj⟩ : ∃ j : ℕ, e - (E - 23) = j := ⟨(e - (E - 23)).toNat, by omega⟩
  refine ⟨m * 2 ^ j, ?_⟩
  have : (2 : ℝ) ^ e = 2 ^ j * 2 ^ (E - 23) := by
    rw [← zpow_natCast, ← hj, ← zpow_add₀ (by norm_num)]
    congr 1
    omega
  rw [this]
  push_cast
  ring

/-- Multiples of the spacing are singles, the next power of two included. -/
theorem isSingle_grid {k E : ℤ} (h : |k| ≤ 2 ^ 24) : IsSingle (k * (2 : ℝ) ^ E) := by
  rcases lt_or_eq_of_le h with h | h
  · exact ⟨k, E, h, rfl⟩
  · rcases abs_eq (by norm_num : (0 : ℤ) ≤ 2 ^ 24) |>.1 h with rfl | rfl
    · refine ⟨2 ^ 23, E + 1, by norm_num, ?_⟩
      rw [zpow_add₀ (by norm_num)]
      push_cast
      ring
    · refine ⟨-2 ^ 23, E + 1, by norm_num, ?_⟩
      rw [zpow_add₀ (by norm_num)]
      push_cast
      ring

section
variable {fl : ℝ → ℝ} (hfl : RoundsToSingle fl)
include hfl

theorem RoundsToSingle.self {x : ℝ} (h : IsSingle x) : fl x = x := by
  have h1 := (hfl x).2 x h
  rw [sub_self, abs_zero] at h1
  have := abs_nonpos_iff.1 h1
  linarith

theorem RoundsToSingle.lt {x y b : ℝ} (hy : IsSingle y) (h : 2 * x < y + b) (hyb : y < b) :
    fl x < b := by
  by_contra hb
  have h1 := (hfl x).2 y hy
  have h2 : b - x ≤ |fl x - x| := le_trans (by linarith) (le_abs_self _)
  have h3 : |y - x| < b - x := abs_lt.2 ⟨by linarith, by linarith⟩
  linarith

theorem RoundsToSingle.le {x y : ℝ} (hy : IsSingle y) (h : x ≤ y) : fl x ≤ y := by
  by_contra hb
  have h1 := (hfl x).2 y hy
  rw [abs_of_nonneg (by linarith), abs_of_nonneg (by linarith)] at h1
  linarith

theorem RoundsToSingle.ge {x y : ℝ} (hy : IsSingle y) (h : y ≤ x) : y ≤ fl x := by
  by_contra hb
  have h1 := (hfl x).2 y hy
  rw [abs_of_nonpos (by linarith), abs_of_nonpos (by linarith)] at h1
  linarith

/-- The rounded value of a number near the middle of a single's neighbourhood. -/
theorem RoundsToSingle.eq {x : ℝ} {k E : ℤ} (h1 : 2 ^ 23 < k) (h2 : k < 2 ^ 24)
    (h : |x - k * 2 ^ E| < 2 ^ E / 2) : fl x = k * 2 ^ E := by
  have hg : (0 : ℝ) < 2 ^ E := by positivity
  have h3 := (hfl x).2 (k * 2 ^ E) ⟨k, E, by rw [abs_of_pos (by linarith)]; exact h2, rfl⟩
  rw [abs_sub_comm ((k : ℝ) * 2 ^ E)] at h3
  have h4 := abs_lt.1 (lt_of_le_of_lt h3 h)
  have h5 := abs_lt.1 h
  have h6 : ((k - 1 : ℤ) : ℝ) * 2 ^ E ≤ fl x := by push_cast; linarith
  have h7 : (2 : ℝ) ^ (E + 23) ≤ |fl x| := by
    refine le_trans (le_trans ?_ h6) (le_abs_self _)
    rw [zpow_add₀ (by norm_num), mul_comm]
    refine mul_le_mul_of_nonneg_right ?_ hg.le
    have : ((2 ^ 23 : ℤ) : ℝ) ≤ ((k - 1 : ℤ) : ℝ) := Int.cast_le.2 (by omega)
    refine le_trans (le_of_eq ?_) this
    norm_num
  obtain ⟨j, hj⟩ := (hfl x).1.grid h7
  rw [show E + 23 - 23 = E by omega] at hj
  rw [hj] at h4 ⊢
  have h8 : ((j - k : ℤ) : ℝ) * 2 ^ E < (1 : ℤ) * 2 ^ E := by push_cast; linarith
  have h9 : ((-1 : ℤ) : ℝ) * 2 ^ E < ((j - k : ℤ) : ℝ) * 2 ^ E := by push_cast; linarith
  have h10 := Int.cast_lt.1 (lt_of_mul_lt_mul_right h8 hg.le)
  have h11 := Int.cast_lt.1 (lt_of_mul_lt_mul_right h9 hg.le)
  rw [show j = k by omega]

/-- The error of rounding, absolute. -/
theorem RoundsToSingle.error {x : ℝ} {E : ℤ} (h : |x| ≤ 2 ^ E) : |fl x - x| ≤ 2 ^ (E - 25) := by
  have hg : (0 : ℝ) < 2 ^ (E - 24) := by positivity
  have hk : |round (x / 2 ^ (E - 24))| ≤ 2 ^ 24 := by
    have hx : |x / 2 ^ (E - 24)| ≤ (2 ^ 24 : ℤ) := by
      rw [abs_div, abs_of_pos hg, div_le_iff₀ hg]
      refine h.trans (le_of_eq ?_)
      have : (2 : ℝ) ^ E = 2 ^ (24 : ℤ) * 2 ^ (E - 24) := by
        rw [← zpow_add₀ (by norm_num)]; congr 1; omega
      rw [this]; norm_num
    exact round_abs_le hx
  have h1 := (hfl x).2 _ (isSingle_grid (E := E - 24) hk)
  refine h1.trans ?_
  have h2 := abs_sub_round (x / 2 ^ (E - 24))
  have h3 : (round (x / 2 ^ (E - 24)) : ℝ) * 2 ^ (E - 24) - x =
      -((x / 2 ^ (E - 24) - round (x / 2 ^ (E - 24))) * 2 ^ (E - 24)) := by
    field_simp
    ring
  rw [h3, abs_neg, abs_mul, abs_of_pos hg]
  have h4 : (2 : ℝ) ^ (E - 25) = 1 / 2 * 2 ^ (E - 24) := by
    rw [show E - 24 = E - 25 + 1 by omega, zpow_add₀ (by norm_num)]
    ring
  rw [h4]
  exact mul_le_mul_of_nonneg_right h2 hg.le

/-- The error of rounding, relative. -/
theorem RoundsToSingle.relative (x : ℝ) : |fl x - x| ≤ |x| / 2 ^ 24 := by
  rcases eq_or_ne x 0 with rfl | hx
  · rw [hfl.self ⟨0, 0, by norm_num, by simp⟩]
    simp
  · obtain ⟨E, h1, h2⟩ := exists_mem_Ico_zpow (abs_pos.2 hx) (by norm_num : (1 : ℝ) < 2)
    refine (hfl.error h2.le).trans ?_
    rw [show E + 1 - 25 = E - 24 by omega, zpow_sub₀ (by norm_num)]
    have : (2 : ℝ) ^ (24 : ℤ) = 2 ^ 24 := by norm_num
    rw [this]
    gcongr

end
/-! ### There is such a rounding -/

/-- Rounding to nearest, within the binade of the number. -/
noncomputable def round24 (x : ℝ) : ℝ :=
  round (x / 2 ^ (Int.log 2 |x| - 23)) * 2 ^ (Int.log 2 |x| - 23)

theorem round24_nearest : RoundsToSingle round24 := by
  intro x
  rcases eq_or_ne x 0 with rfl | hx
  · have h0 : round24 0 = 0 := by simp [round24]
    rw [h0]
    exact ⟨⟨0, 0, by norm_num, by simp⟩, fun y _ => by simp⟩
  have hp := abs_pos.2 hx
  generalize hE : Int.log 2 |x| = E
  have h1 : (2 : ℝ) ^ E ≤ |x| := by
    have := Int.zpow_log_le_self (b := 2) (by norm_num) hp
    rw [hE] at this
    exact_mod_cast this
  have h2 : |x| < (2 : ℝ) ^ (E + 1) := by
    have := Int.lt_zpow_succ_log_self (b := 2) (by norm_num) |x|
    rw [hE] at this
    exact_mod_cast this
  have hr : round24 x = round (x / 2 ^ (E - 23)) * 2 ^ (E - 23) := by rw [round24, hE]
  have hg : (0 : ℝ) < 2 ^ (E - 23) := by positivity
  have hE1 : (2 : ℝ) ^ (E + 1) = (2 ^ 24 : ℤ) * 2 ^ (E - 23) := by
    rw [show E + 1 = 24 + (E - 23) by omega, zpow_add₀ (by norm_num)]
    norm_num
  have hE0 : (2 : ℝ) ^ E = (2 ^ 23 : ℤ) * 2 ^ (E - 23) := by
    rw [show E = 23 + (E - 23) by omega, zpow_add₀ (by norm_num)]
    norm_num
  rw [hr]
  constructor
  · apply isSingle_grid
    have hx : |x / 2 ^ (E - 23)| ≤ (2 ^ 24 : ℤ) := by
      rw [abs_div, abs_of_pos hg, div_le_iff₀ hg, ← hE1]
      exact h2.le
    exact round_abs_le hx
  · -- no multiple of the spacing is nearer
    have hmul : ∀ k : ℤ, |round (x / 2 ^ (E - 23)) * 2 ^ (E - 23) - x| ≤ |k * 2 ^ (E - 23) - x| := by
      intro k
      have e : ∀ k : ℤ, |(k : ℝ) * 2 ^ (E - 23) - x| = |x / 2 ^ (E - 23) - k| * 2 ^ (E - 23) := by
        intro k
        rw [abs_sub_comm]
        conv_rhs => rw [← abs_of_pos hg, ← abs_mul, abs_of_pos hg]
        congr 1
        field_simp
      rw [e, e]
      exact mul_le_mul_of_nonneg_right (round_le _ _) hg.le
    intro y hy
    rcases le_or_gt ((2 : ℝ) ^ E) |y| with hy1 | hy1
    · obtain ⟨k, rfl⟩ := hy.grid hy1
      exact hmul k
    · rcases le_or_gt 0 x with h0 | h0
      · refine (hmul (2 ^ 23)).trans ?_
        rw [← hE0]
        rw [abs_of_nonneg h0] at h1 h2
        rw [abs_of_nonpos (by linarith), abs_of_nonpos (by linarith [(abs_lt.1 hy1).2])]
        linarith [(abs_lt.1 hy1).2]
      · refine (hmul (-2 ^ 23)).trans ?_
        have : ((-2 ^ 23 : ℤ) : ℝ) * 2 ^ (E - 23) = -2 ^ E := by rw [hE0]; push_cast; ring
        rw [this]
        rw [abs_of_neg h0] at h1 h2
        rw [abs_of_nonneg (by linarith), abs_of_nonneg (by linarith [(abs_lt.1 hy1).1])]
        linarith [(abs_lt.1 hy1).1]

end Ecl.Spec
