import Verif.Model.RandomNumbers
import Verif.Lemmas.Double

/-! # Random numbers: rounding and the state -/
set_option autoImplicit false

namespace Ecl.Rng
open Ecl.Spec

section
variable {fl : ℝ → ℝ} (hfl : RoundsToNearest fl)
include hfl

theorem fl_pos {x : ℝ} (h : 0 < x) : 0 < fl x := by
  have := abs_le.1 (hfl.relative x)
  rw [abs_of_pos h] at this
  have h1 : x / 2 ^ 53 < x := by norm_num; linarith
  linarith

theorem fl_neg {x : ℝ} (h : x < 0) : fl x < 0 := by
  have := abs_le.1 (hfl.relative x)
  rw [abs_of_neg h] at this
  have h1 : -x / 2 ^ 53 < -x := by norm_num; linarith
  linarith

theorem fl_zero : fl 0 = 0 := hfl.self ⟨0, 0, by norm_num, by simp⟩

theorem fl_ne_zero {x : ℝ} (h : x ≠ 0) : fl x ≠ 0 := by
  rcases lt_or_gt_of_ne h with h | h
  · exact (fl_neg hfl h).ne
  · exact (fl_pos hfl h).ne'

theorem fl_nat {n : ℕ} (h : n ≤ randMax) : fl n = n := by
  have := hfl.self (isDouble_int (n := n) (by unfold randMax at h; simp; omega))
  simpa using this

theorem uniform_eq {lib : Lib} (hlib : ∀ seed i, lib seed i ≤ randMax) (s : World) :
    (uniform fl lib s).1 = fl ((lib s.seed s.drawn : ℝ) / randMax) := by
  unfold uniform rand
  rw [fl_nat hfl (hlib _ _), fl_nat hfl le_rfl]

theorem uniform_mem {lib : Lib} (hlib : ∀ seed i, lib seed i ≤ randMax) (s : World) :
    0 ≤ (uniform fl lib s).1 ∧ (uniform fl lib s).1 ≤ 1 := by
  rw [uniform_eq hfl hlib]
  refine ⟨hfl.ge ⟨0, 0, by norm_num, by simp⟩ (by positivity), hfl.le ⟨1, 0, by norm_num, by simp⟩ ?_⟩
  rw [div_le_one (by unfold randMax; norm_num)]
  exact_mod_cast hlib _ _

theorem uniform_ne_half {lib : Lib} (hlib : ∀ seed i, lib seed i ≤ randMax) (s : World) :
    (uniform fl lib s).1 ≠ 1 / 2 := by
  rw [uniform_eq hfl hlib]
  intro h
  generalize hr : lib s.seed s.drawn = r at h
  have hle : r ≤ randMax := hr ▸ hlib _ _
  have hM : (0 : ℝ) < randMax := by unfold randMax; norm_num
  have h1 := hfl.relative ((r : ℝ) / randMax)
  have h2 : |(r : ℝ) / randMax| ≤ 1 := by
    rw [abs_of_nonneg (by positivity), div_le_one hM]
    exact_mod_cast hle
  have h3 : |(r : ℝ) / randMax| / 2 ^ 53 ≤ 1 / 2 ^ 53 := by gcongr
  have h4 := abs_le.1 (h1.trans h3)
  rw [h] at h4
  have h5 : ((r : ℝ) / randMax) * randMax = r := by field_simp
  have h6 : (r : ℝ) < 2147483647 / 2 + 1 / 4 := by
    rw [← h5]; unfold randMax at *; norm_num at h4 ⊢; nlinarith
  have h7 : 2147483647 / 2 - 1 / 4 < (r : ℝ) := by
    rw [← h5]; unfold randMax at *; norm_num at h4 ⊢; nlinarith
  have h8 : (r : ℝ) < ((1073741824 : ℕ) : ℝ) := lt_of_lt_of_le h6 (by norm_num)
  have h9 : ((1073741823 : ℕ) : ℝ) < (r : ℝ) := lt_of_le_of_lt (by norm_num) h7
  rw [Nat.cast_lt] at h8 h9
  omega

theorem isDouble_two_mul {x : ℝ} (h : IsDouble x) : IsDouble (2 * x) := by
  obtain ⟨m, e, hm, rfl⟩ := h
  refine ⟨m, e + 1, hm, ?_⟩
  rw [zpow_add₀ (by norm_num)]
  ring

theorem coordinate_eq {lib : Lib} (s : World) :
    (coordinate fl lib s).1 = fl (2 * (uniform fl lib s).1 - 1) := by
  have hd : IsDouble (uniform fl lib s).1 := (hfl _).1
  unfold coordinate
  rw [hfl.self (isDouble_two_mul hfl hd)]

theorem coordinate_ne_zero {lib : Lib} (hlib : ∀ seed i, lib seed i ≤ randMax) (s : World) :
    (coordinate fl lib s).1 ≠ 0 := by
  rw [coordinate_eq hfl]
  refine fl_ne_zero hfl fun h => uniform_ne_half hfl hlib s ?_
  linarith

theorem point_pos {lib : Lib} (hlib : ∀ seed i, lib seed i ≤ randMax) (s : World) :
    0 < (point fl lib s).1.w := by
  have h1 := coordinate_ne_zero hfl hlib s
  have h2 := coordinate_ne_zero hfl hlib (coordinate fl lib s).2
  unfold point
  refine fl_pos hfl (add_pos (fl_pos hfl ?_) (fl_pos hfl ?_))
  · exact mul_self_pos.2 h1
  · exact mul_self_pos.2 h2

theorem loop_pos {lib : Lib} (hlib : ∀ seed i, lib seed i ≤ randMax) {fuel : Nat} {s s' : World}
    {p : Point} (h : loop fl lib fuel s = some (p, s')) : 0 < p.w ∧ p.w < 1 ∧ s'.last = s.last := by
  induction fuel generalizing s with
  | zero => simp [loop] at h
  | succ n ih =>
    rw [loop] at h
    split at h
    · have := ih h
      exact ⟨this.1, this.2.1, this.2.2⟩
    · rename_i hw
      have e := Option.some.inj h
      have h1 := point_pos hfl hlib s
      rw [e] at h1 hw
      refine ⟨h1, not_le.1 hw, ?_⟩
      have : (point fl lib s).2 = s' := by rw [e]
      rw [← this]
      rfl

/-- For `0 < w < 1` the factor is positive. -/
theorem factor_pos {w : ℝ} (h0 : 0 < w) (h1 : w < 1) : ∃ f, factor fl w = some f ∧ 0 < f := by
  refine ⟨_, if_neg h0.ne', fl_pos hfl (Real.sqrt_pos.2 (fl_pos hfl (div_pos (fl_pos hfl ?_) h0)))⟩
  have := fl_neg hfl (Real.log_neg h0 h1)
  linarith

end

/-- Whether a call of `gaussian` leaves a number for the next one. -/
theorem gaussian_last {fl : ℝ → ℝ} {lib : Lib} {fuel : Nat} {std mu : ℝ} {s s' : World} {y : Option ℝ}
    (h : gaussian fl lib fuel std mu s = some (y, s')) : s'.last.isSome = !s.last.isSome := by
  unfold gaussian at h
  cases hl : s.last with
  | some z =>
    rw [hl] at h
    cases h
    rfl
  | none =>
    rw [hl] at h
    simp only at h
    split at h
    · cases h
    · cases h; rfl

/-- The number of `gaussian` calls. -/
def gaussians : List Op → Nat
  | [] => 0
  | .gaussian _ _ :: ops => gaussians ops + 1
  | .construct _ :: ops => gaussians ops
  | .uniform :: ops => gaussians ops
  | .uniformIn _ :: ops => gaussians ops

theorem run_last {fl : ℝ → ℝ} {lib : Lib} {fuel : Nat} (ops : List Op) {s s' : World}
    {out : List (Option ℝ)} (h : run fl lib fuel ops s = some (out, s')) :
    s'.last.isSome = (s.last.isSome ^^ decide (gaussians ops % 2 = 1)) := by
  induction ops generalizing s out with
  | nil => simp [run] at h; rw [h.2]; simp [gaussians]
  | cons o ops ih =>
    cases o with
    | construct seed => exact ih (s := construct seed s) h
    | uniform =>
      simp only [run, Option.map_eq_some_iff, Prod.mk.injEq] at h
      obtain ⟨r, hr, -, rfl⟩ := h
      exact ih (s := (uniform fl lib s).2) (out := r.1) hr
    | uniformIn range =>
      simp only [run, Option.map_eq_some_iff, Prod.mk.injEq] at h
      obtain ⟨r, hr, -, rfl⟩ := h
      exact ih (s := (uniformIn fl lib range s).2) (out := r.1) hr
    | gaussian std mu =>
      simp only [run] at h
      split at h
      · cases h
      · rename_i y t ht
        simp only [Option.map_eq_some_iff, Prod.mk.injEq] at h
        obtain ⟨r, hr, -, rfl⟩ := h
        rw [ih (out := r.1) hr, gaussian_last ht]
        simp only [gaussians]
        rcases Nat.mod_two_eq_zero_or_one (gaussians ops) with h | h <;> cases s.last.isSome <;>
          simp [h, Nat.add_mod]

end Ecl.Rng
