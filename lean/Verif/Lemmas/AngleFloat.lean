import Verif.Model.AngleFloat
import Verif.Spec.AngleFloat
import Verif.Lemmas.Double
import Verif.Lemmas.Single
import Mathlib.Analysis.Real.Pi.Bounds

/-! # Lemmas on floating point angles -/
set_option autoImplicit false

namespace Ecl.AngleFloat
open Real Ecl.Angle Ecl.Spec Ecl.AngleFloat.Spec

theorem piD_val : piD = 884279719003555 / 2 ^ 48 := rfl

theorem pi_sub : |2 * piD - 2 * π| ≤ 1 / 2 ^ 51 := by
  have h1 := pi_gt_d20
  have h2 := pi_lt_d20
  unfold piD
  rw [abs_le]
  constructor <;> norm_num at h1 h2 ⊢ <;> linarith

theorem piD_lt : piD < π := by
  have h1 := pi_gt_d20
  unfold piD
  norm_num at h1 ⊢
  linarith

theorem piD_double : IsDouble piD :=
  ⟨884279719003555 * 8, -51, by norm_num, by unfold piD; norm_num⟩

theorem two_piD_double : IsDouble (2 * piD) :=
  ⟨884279719003555 * 8, -50, by norm_num, by unfold piD; norm_num⟩

theorem piS_single : IsSingle piS := ⟨13176795, -22, by norm_num, by unfold piS; norm_num⟩

theorem two_piS_single : IsSingle (2 * piS) := ⟨13176795, -21, by norm_num, by unfold piS; norm_num⟩

theorem fmod_nonneg {s q : ℝ} (hs : 0 ≤ s) (hq : 0 < q) :
    0 ≤ fmod s q ∧ fmod s q < q := by
  have h : 0 ≤ s / q := div_nonneg hs hq.le
  unfold fmod truncQuot
  rw [if_pos h]
  have h1 := Int.floor_le (s / q)
  have h2 := Int.lt_floor_add_one (s / q)
  rw [le_div_iff₀ hq] at h1
  rw [div_lt_iff₀ hq] at h2
  constructor <;> nlinarith

theorem fmod_nonpos {s q : ℝ} (hs : s < 0) (hq : 0 < q) :
    -q < fmod s q ∧ fmod s q ≤ 0 := by
  have h : ¬ 0 ≤ s / q := not_le.2 (div_neg_of_neg_of_pos hs hq)
  unfold fmod truncQuot
  rw [if_neg h]
  have h1 := Int.le_ceil (s / q)
  have h2 := Int.ceil_lt_add_one (s / q)
  rw [div_le_iff₀ hq] at h1
  have h3 : (⌈s / q⌉ : ℝ) * q < (s / q + 1) * q := mul_lt_mul_of_pos_right h2 hq
  rw [add_mul, div_mul_cancel₀ _ hq.ne'] at h3
  constructor <;> linarith

theorem fmod_quot {s q : ℝ} (hq : 0 < q) : ∃ k : ℤ, fmod s q = s - k * q ∧ |(k : ℝ)| ≤ |s| / q := by
  refine ⟨truncQuot s q, rfl, ?_⟩
  have e : |s| / q = |s / q| := by rw [abs_div, abs_of_pos hq]
  rw [e]
  unfold truncQuot
  by_cases h : 0 ≤ s / q
  · rw [if_pos h, abs_of_nonneg h, abs_of_nonneg (by exact_mod_cast Int.floor_nonneg.2 h)]
    exact Int.floor_le _
  · rw [if_neg h]
    have h' : s / q ≤ 0 := (not_le.1 h).le
    have h2 : ⌈s / q⌉ ≤ 0 := Int.ceil_le.2 (by simpa using h')
    rw [abs_of_nonpos h', abs_of_nonpos (by exact_mod_cast h2)]
    linarith [Int.le_ceil (s / q)]

/-- `fmod` of two floating point numbers of any precision is one of that precision: nothing is rounded. -/
theorem fmod_exact {p : ℕ} {s q : ℝ} (hs : ∃ m e : ℤ, |m| < 2 ^ p ∧ s = m * (2 : ℝ) ^ e)
    (hq' : ∃ m e : ℤ, |m| < 2 ^ p ∧ q = m * (2 : ℝ) ^ e) (hq : 0 < q) :
    ∃ m e : ℤ, |m| < 2 ^ p ∧ fmod s q = m * (2 : ℝ) ^ e := by
  have hle : |fmod s q| ≤ |s| := by
    rcases lt_or_ge s 0 with h | h
    · have := fmod_nonpos h hq
      have h2 : truncQuot s q ≤ 0 := by
        unfold truncQuot
        rw [if_neg (not_le.2 (div_neg_of_neg_of_pos h hq))]
        exact Int.ceil_le.2 (by simpa using (div_neg_of_neg_of_pos h hq).le)
      rw [abs_of_nonpos this.2, abs_of_neg h]
      have h3 : ((truncQuot s q : ℤ) : ℝ) ≤ 0 := by exact_mod_cast h2
      unfold fmod
      nlinarith
    · have := fmod_nonneg h hq
      have h2 : 0 ≤ truncQuot s q := by
        unfold truncQuot
        rw [if_pos (div_nonneg h hq.le)]
        exact Int.floor_nonneg.2 (div_nonneg h hq.le)
      rw [abs_of_nonneg this.1, abs_of_nonneg h]
      have h3 : (0 : ℝ) ≤ (truncQuot s q : ℤ) := by exact_mod_cast h2
      unfold fmod
      nlinarith
  have hlt : |fmod s q| < |q| := by
    rw [abs_of_pos hq, abs_lt]
    rcases lt_or_ge s 0 with h | h
    · have := fmod_nonpos h hq
      exact ⟨this.1, by linarith⟩
    · have := fmod_nonneg h hq
      exact ⟨by linarith, this.2⟩
  obtain ⟨m, e, hm, rfl⟩ := hs
  obtain ⟨n, f, hn, rfl⟩ := hq'
  have he : (0 : ℝ) < 2 ^ e := by positivity
  have hf : (0 : ℝ) < 2 ^ f := by positivity
  generalize hk : truncQuot (m * (2 : ℝ) ^ e) (n * (2 : ℝ) ^ f) = k at *
  have hfm : fmod (m * (2 : ℝ) ^ e) (n * (2 : ℝ) ^ f) = m * (2 : ℝ) ^ e - k * (n * (2 : ℝ) ^ f) := by
    unfold fmod; rw [hk]
  rcases le_total f e with hfe | hfe
  · obtain ⟨j, hj⟩ : ∃ j : ℕ, e = f + j := ⟨(e - f).toNat, by omega⟩
    have e1 : fmod (m * (2 : ℝ) ^ e) (n * (2 : ℝ) ^ f) = ((m * 2 ^ j - k * n : ℤ) : ℝ) * 2 ^ f := by
      rw [hfm, hj, zpow_add₀ (by norm_num), zpow_natCast]
      push_cast
      ring
    refine ⟨_, f, ?_, e1⟩
    rw [e1, abs_mul, abs_mul, abs_of_pos hf] at hlt
    have := lt_of_mul_lt_mul_right hlt hf.le
    rw [← Int.cast_abs, ← Int.cast_abs, Int.cast_lt] at this
    omega
  · obtain ⟨j, hj⟩ : ∃ j : ℕ, f = e + j := ⟨(f - e).toNat, by omega⟩
    have e1 : fmod (m * (2 : ℝ) ^ e) (n * (2 : ℝ) ^ f) = ((m - k * n * 2 ^ j : ℤ) : ℝ) * 2 ^ e := by
      rw [hfm, hj, zpow_add₀ (by norm_num), zpow_natCast]
      push_cast
      ring
    refine ⟨_, e, ?_, e1⟩
    rw [e1, abs_mul, abs_mul, abs_of_pos he] at hle
    have := le_of_mul_le_mul_right hle he
    rw [← Int.cast_abs, ← Int.cast_abs, Int.cast_le] at this
    omega

/-- The error of wrapping, from those of its steps. -/
theorem wrap_error {a c s q y e₁ e₂ d : ℝ} (hq : 0 < q) (h1 : |s - (a + c)| ≤ e₁)
    (h2 : |y - (fmod s q - c)| ≤ e₂) (h3 : |q - 2 * π| ≤ d) : Near (e₁ + e₂ + |s| / q * d) y a := by
  obtain ⟨k, hk, hk'⟩ := fmod_quot (s := s) hq
  refine ⟨-k, ?_⟩
  have e : y - (a + ((-k : ℤ) : ℝ) * (2 * π)) =
      (s - (a + c)) + (y - (fmod s q - c)) - k * (q - 2 * π) := by
    rw [hk]; push_cast; ring
  rw [e]
  refine (abs_sub _ _).trans (add_le_add ((abs_add_le _ _).trans (add_le_add h1 h2)) ?_)
  rw [abs_mul]
  exact mul_le_mul hk' h3 (abs_nonneg _) ((abs_nonneg _).trans hk')

theorem Near.mono {ε ε' a b : ℝ} (h : Near ε a b) (hε : ε ≤ ε') : Near ε' a b := by
  obtain ⟨k, hk⟩ := h
  exact ⟨k, hk.trans hε⟩

theorem Near.trans {ε ε' a b c : ℝ} (h : Near ε a b) (h' : |b - c| ≤ ε') : Near (ε + ε') a c := by
  obtain ⟨k, hk⟩ := h
  refine ⟨k, ?_⟩
  have : a - (c + k * (2 * π)) = (a - (b + k * (2 * π))) + (b - c) := by ring
  rw [this]
  exact (abs_add_le _ _).trans (add_le_add hk h')

theorem near_self {ε a : ℝ} (h : 0 ≤ ε) : Near ε a a := ⟨0, by simpa using h⟩

end Ecl.AngleFloat
