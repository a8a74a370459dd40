import Verif.Spec.Rounding
import Verif.Lemmas.Double
import Verif.Lemmas.Single

/-! # Rounding to any precision -/
set_option autoImplicit false

namespace Ecl.Spec

theorem rounds_double {fl : ℝ → ℝ} : Rounds 53 fl ↔ RoundsToNearest fl := Iff.rfl
theorem rounds_single {fl : ℝ → ℝ} : Rounds 24 fl ↔ RoundsToSingle fl := Iff.rfl

theorem isFloat_zero (p : ℕ) : IsFloat p 0 := ⟨0, 0, by simp, by simp⟩

theorem IsFloat.neg {p : ℕ} {x : ℝ} (h : IsFloat p x) : IsFloat p (-x) := by
  obtain ⟨m, e, hm, rfl⟩ := h
  exact ⟨-m, e, by simpa using hm, by push_cast; ring⟩

/-- Multiples of the spacing, the next power of two included. -/
theorem isFloat_grid {p : ℕ} (hp : 1 ≤ p) {k E : ℤ} (h : |k| ≤ 2 ^ p) : IsFloat p (k * (2 : ℝ) ^ E) := by
  obtain ⟨q, rfl⟩ : ∃ q, p = q + 1 := ⟨p - 1, by omega⟩
  have hlt : (2 : ℤ) ^ q < 2 ^ (q + 1) := by rw [pow_succ]; linarith [pow_pos (by norm_num : (0 : ℤ) < 2) q]
  rcases lt_or_eq_of_le h with h | h
  · exact ⟨k, E, h, rfl⟩
  · rcases abs_eq (by positivity : (0 : ℤ) ≤ 2 ^ (q + 1)) |>.1 h with rfl | rfl
    · refine ⟨2 ^ q, E + 1, by rwa [abs_of_pos (by positivity)], ?_⟩
      rw [zpow_add₀ (by norm_num)]
      push_cast
      ring
    · refine ⟨-2 ^ q, E + 1, by rwa [abs_neg, abs_of_pos (by positivity)], ?_⟩
      rw [zpow_add₀ (by norm_num)]
      push_cast
      ring

theorem isFloat_nat {p n : ℕ} (hp : 1 ≤ p) (h : n ≤ 2 ^ p) : IsFloat p n := by
  have := isFloat_grid hp (k := n) (E := 0) (by rw [abs_of_nonneg (by positivity)]; exact_mod_cast h)
  simpa using this

section
variable {p : ℕ} {fl : ℝ → ℝ} (hfl : Rounds p fl)
include hfl

theorem Rounds.self {x : ℝ} (h : IsFloat p x) : fl x = x := by
  have h1 := (hfl x).2 x h
  rw [sub_self, abs_zero] at h1
  have := abs_nonpos_iff.1 h1
  linarith

theorem Rounds.le {x y : ℝ} (hy : IsFloat p y) (h : x ≤ y) : fl x ≤ y := by
  by_contra hb
  have h1 := (hfl x).2 y hy
  rw [abs_of_nonneg (by linarith), abs_of_nonneg (by linarith)] at h1
  linarith

theorem Rounds.ge {x y : ℝ} (hy : IsFloat p y) (h : y ≤ x) : y ≤ fl x := by
  by_contra hb
  have h1 := (hfl x).2 y hy
  rw [abs_of_nonpos (by linarith), abs_of_nonpos (by linarith)] at h1
  linarith

theorem Rounds.flip : Rounds p fun x => -fl (-x) := by
  intro x
  refine ⟨(hfl (-x)).1.neg, fun y hy => ?_⟩
  have h := (hfl (-x)).2 (-y) hy.neg
  have e1 : |fl (-x) - -x| = |-fl (-x) - x| := by rw [← abs_neg]; congr 1; ring
  have e2 : |-y - -x| = |y - x| := by rw [← abs_neg]; congr 1; ring
  rwa [e1, e2] at h

/-- The error of rounding, relative. -/
theorem Rounds.relative (hp : 1 ≤ p) (x : ℝ) : |fl x - x| ≤ |x| / 2 ^ p := by
  rcases eq_or_ne x 0 with rfl | hx
  · rw [hfl.self (isFloat_zero p)]
    simp
  · obtain ⟨E, h1, h2⟩ := exists_mem_Ico_zpow (abs_pos.2 hx) (by norm_num : (1 : ℝ) < 2)
    obtain ⟨g, hgd⟩ : ∃ g : ℤ, g = E + 1 - p := ⟨_, rfl⟩
    have hg : (0 : ℝ) < 2 ^ g := by positivity
    have hE : (2 : ℝ) ^ (E + 1) = 2 ^ p * 2 ^ g := by
      rw [← zpow_natCast, ← zpow_add₀ (by norm_num)]; congr 1; omega
    have hk : |round (x / 2 ^ g)| ≤ 2 ^ p := by
      have hx : |x / 2 ^ g| ≤ (2 ^ p : ℤ) := by
        rw [abs_div, abs_of_pos hg, div_le_iff₀ hg]
        push_cast
        rw [← hE]
        exact h2.le
      exact round_abs_le hx
    refine ((hfl x).2 _ (isFloat_grid hp (E := g) hk)).trans ?_
    have h3 := abs_sub_round (x / 2 ^ g)
    have h4 : (round (x / 2 ^ g) : ℝ) * 2 ^ g - x = -((x / 2 ^ g - round (x / 2 ^ g)) * 2 ^ g) := by
      field_simp
      ring
    rw [h4, abs_neg, abs_mul, abs_of_pos hg]
    refine (mul_le_mul_of_nonneg_right h3 hg.le).trans ?_
    rw [le_div_iff₀ (by positivity)]
    have h5 : (2 : ℝ) ^ (E + 1) = 2 * 2 ^ E := by rw [zpow_add₀ (by norm_num)]; ring
    rw [h5] at hE
    nlinarith

end

end Ecl.Spec
