import Verif.Lemmas.Polynomial
import Mathlib.Analysis.Calculus.LocalExtr.Basic
import Mathlib.Analysis.Calculus.Deriv.Polynomial
import Mathlib.Topology.Algebra.Polynomial
import Mathlib.Topology.Order.Compact
import Mathlib.Topology.Order.LocalExtr
import Mathlib.Tactic.FieldSimp
import Mathlib.Tactic.Ring
import Mathlib.Tactic.Linarith
import Mathlib.Tactic.LinearCombination

/-! # Extreme values of a cubic on an interval -/
set_option autoImplicit false
set_option linter.unusedSimpArgs false

namespace Ecl.Poly
open Ecl Ecl.Spec

/-- The critical points the code looks at. -/
def Tested (p : Coeffs ℝ) (r : ℝ) : Prop :=
  3 * p 3 * r ^ 2 + 2 * p 2 * r + p 1 = 0 ∧
    ((p 3 = 0 ∧ p 2 ≠ 0) ∨ (p 3 ≠ 0 ∧ 0 < (2 * p 2) * (2 * p 2) - 4 * (3 * p 3) * p 1))

theorem eval3 (p : Coeffs ℝ) (x : ℝ) : eval 3 p x = p 0 + p 1 * x + p 2 * x ^ 2 + p 3 * x ^ 3 := by
  simp [eval, evalLoop]; ring

theorem interior_max {p : Coeffs ℝ} {xb xe y : ℝ} (hy : y ∈ Set.Ioo xb xe)
    (hmax : ∀ x ∈ Set.Icc xb xe, eval 3 p x ≤ eval 3 p y) :
    3 * p 3 * y ^ 2 + 2 * p 2 * y + p 1 = 0 := by
  have hl : IsLocalMax (fun x => (toPoly 3 p).eval x) y := by
    refine Filter.mem_of_superset (Icc_mem_nhds hy.1 hy.2) ?_
    intro x hx
    simp only [Set.mem_setOf_eq, eval_toPoly]
    exact hmax x hx
  have hd := hl.hasDerivAt_eq_zero ((toPoly 3 p).hasDerivAt y)
  rw [← derivativeAt_eq] at hd
  rw [← hd]
  simp [derivativeAt, derivative, eval, evalLoop]; ring

theorem le_of_tested {p : Coeffs ℝ} {xb xe M : ℝ} (hle : xb ≤ xe) (hb : eval 3 p xb ≤ M)
    (he : eval 3 p xe ≤ M) (hc : ∀ r ∈ Set.Ioo xb xe, Tested p r → eval 3 p r ≤ M) :
    ∀ x ∈ Set.Icc xb xe, eval 3 p x ≤ M := by
  have hcont : ContinuousOn (fun x => eval 3 p x) (Set.Icc xb xe) := by
    have : (fun x => eval 3 p x) = fun x => (toPoly 3 p).eval x := by
      funext x; rw [eval_toPoly]
    rw [this]; exact (toPoly 3 p).continuous.continuousOn
  obtain ⟨y, hy, hmax⟩ := isCompact_Icc.exists_isMaxOn (Set.nonempty_Icc.2 hle) hcont
  have hmax' : ∀ x ∈ Set.Icc xb xe, eval 3 p x ≤ eval 3 p y := fun x hx => hmax hx
  intro x hx
  refine le_trans (hmax' x hx) ?_
  rcases eq_or_lt_of_le hy.1 with h1 | h1
  · rw [← h1]; exact hb
  rcases eq_or_lt_of_le hy.2 with h2 | h2
  · rw [h2]; exact he
  have hz := interior_max ⟨h1, h2⟩ hmax'
  by_cases ht : Tested p y
  · exact hc y ⟨h1, h2⟩ ht
  have ht' : ¬ ((p 3 = 0 ∧ p 2 ≠ 0) ∨ (p 3 ≠ 0 ∧ 0 < (2 * p 2) * (2 * p 2) - 4 * (3 * p 3) * p 1)) :=
    fun h => ht ⟨hz, h⟩
  by_cases h3 : p 3 = 0
  · have h20 : p 2 = 0 := by
      by_contra h; exact ht' (Or.inl ⟨h3, h⟩)
    rw [h3, h20] at hz
    have h10 : p 1 = 0 := by linarith
    have : eval 3 p y = eval 3 p xb := by simp [eval3, h3, h20, h10]
    rw [this]; exact hb
  · have hD : (2 * p 2) * (2 * p 2) - 4 * (3 * p 3) * p 1 ≤ 0 := by
      by_contra h; exact ht' (Or.inr ⟨h3, not_le.1 h⟩)
    have hsq : (6 * p 3 * y + 2 * p 2) ^ 2 = (2 * p 2) * (2 * p 2) - 4 * (3 * p 3) * p 1 := by
      linear_combination 12 * p 3 * hz
    have h0 : 6 * p 3 * y + 2 * p 2 = 0 := by
      have := sq_nonneg (6 * p 3 * y + 2 * p 2)
      exact pow_eq_zero_iff (two_ne_zero) |>.1 (by linarith)
    have hp2 : p 2 = -3 * p 3 * y := by linarith
    have hp1 : p 1 = 3 * p 3 * y ^ 2 := by rw [hp2] at hz; linarith
    have hf : ∀ x, eval 3 p x = eval 3 p y + p 3 * (x - y) ^ 3 := by
      intro x; rw [eval3, eval3, hp2, hp1]; ring
    rcases lt_or_gt_of_ne h3 with hn | hp
    · refine le_trans ?_ hb
      rw [hf xb]
      have : 0 ≤ p 3 * (xb - y) ^ 3 := by
        have h5 : (xb - y) ^ 3 ≤ 0 := by
          have : (xb - y) ^ 3 = -((y - xb) ^ 3) := by ring
          rw [this]; exact neg_nonpos.2 (pow_nonneg (by linarith) 3)
        exact mul_nonneg_of_nonpos_of_nonpos hn.le h5
      linarith
    · refine le_trans ?_ he
      rw [hf xe]
      have : 0 ≤ p 3 * (xe - y) ^ 3 := mul_nonneg hp.le (pow_nonneg (by linarith) 3)
      linarith

theorem ge_of_tested {p : Coeffs ℝ} {xb xe M : ℝ} (hle : xb ≤ xe) (hb : M ≤ eval 3 p xb)
    (he : M ≤ eval 3 p xe) (hc : ∀ r ∈ Set.Ioo xb xe, Tested p r → M ≤ eval 3 p r) :
    ∀ x ∈ Set.Icc xb xe, M ≤ eval 3 p x := by
  have hneg : ∀ x, eval 3 (fun i => -p i) x = -eval 3 p x := by
    intro x; rw [eval3, eval3]; ring
  have htest : ∀ r, Tested (fun i => -p i) r → Tested p r := by
    intro r h
    refine ⟨by have := h.1; simp only at this; linarith, ?_⟩
    rcases h.2 with h | h
    · left; simpa using h
    · right
      refine ⟨by simpa using h.1, ?_⟩
      have := h.2; simp only at this; linarith
  intro x hx
  have := le_of_tested (p := fun i => -p i) (M := -M) hle (by rw [hneg]; linarith)
    (by rw [hneg]; linarith) (fun r hr ht => by rw [hneg]; have := hc r hr (htest r ht); linarith) x hx
  rw [hneg] at this
  linarith

theorem tested_iff {p : Coeffs ℝ} {r : ℝ} : Tested p r ↔
    (3 * p 3 = 0 ∧ 2 * p 2 ≠ 0 ∧ r = -p 1 / (2 * p 2)) ∨
    (3 * p 3 ≠ 0 ∧ 0 < 2 * p 2 * (2 * p 2) - 4 * (3 * p 3) * p 1 ∧
      (r = (-(2 * p 2) + Real.sqrt (2 * p 2 * (2 * p 2) - 4 * (3 * p 3) * p 1)) / (2 * (3 * p 3)) ∨
       r = (-(2 * p 2) - Real.sqrt (2 * p 2 * (2 * p 2) - 4 * (3 * p 3) * p 1)) / (2 * (3 * p 3)))) := by
  unfold Tested
  by_cases h3 : p 3 = 0
  · rw [h3]
    by_cases h2 : p 2 = 0
    · simp [h2]
    · have : (2 * p 2) ≠ 0 := mul_ne_zero two_ne_zero h2
      simp only [h2, ne_eq, not_false_eq_true, and_true, true_and, mul_zero, zero_mul, zero_add,
        not_true_eq_false, false_and, or_false, this]
      rw [eq_div_iff this]
      constructor <;> intro h <;> linarith
  · have h30 : (3 * p 3) ≠ 0 := mul_ne_zero (by norm_num) h3
    have h6 : (2 * (3 * p 3)) ≠ 0 := mul_ne_zero two_ne_zero h30
    simp only [h3, h30, ne_eq, not_false_eq_true, true_and, false_and, false_or]
    generalize hd : 2 * p 2 * (2 * p 2) - 4 * (3 * p 3) * p 1 = d
    constructor
    · rintro ⟨hz, hpos⟩
      refine ⟨hpos, ?_⟩
      have hs : √d ^ 2 = d := Real.sq_sqrt hpos.le
      have : (2 * (3 * p 3) * r + 2 * p 2) ^ 2 = √d ^ 2 := by
        rw [hs, ← hd]; linear_combination 12 * p 3 * hz
      rw [eq_div_iff h6, eq_div_iff h6]
      rcases sq_eq_sq_iff_eq_or_eq_neg.1 this with h | h
      · left; linarith
      · right; linarith
    · rintro ⟨hpos, h⟩
      refine ⟨?_, hpos⟩
      have hs : √d ^ 2 = d := Real.sq_sqrt hpos.le
      rw [eq_div_iff h6, eq_div_iff h6] at h
      have h12 : (12 * p 3) ≠ 0 := mul_ne_zero (by norm_num) h3
      apply mul_left_cancel₀ h12
      rcases h with h | h
      · linear_combination (r * (2 * (3 * p 3)) + 2 * p 2 + √d) * h + hs - hd
      · linear_combination (r * (2 * (3 * p 3)) + 2 * p 2 - √d) * h + hs - hd

/-- What the two comparisons have in common. -/
structure Picks (better : ℝ → ℝ → ℝ) (R : ℝ → ℝ → Prop) : Prop where
  pick : ∀ s t, better s t = s ∨ better s t = t
  left : ∀ s t, R s (better s t)
  right : ∀ s t, R t (better s t)
  refl : ∀ s, R s s
  trans : ∀ s t u, R s t → R t u → R s u

theorem raise_picks : Picks raise (· ≤ ·) where
  pick s t := by unfold raise; split <;> simp
  left s t := by unfold raise; split <;> linarith
  right s t := by unfold raise; split <;> linarith
  refl s := le_refl s
  trans _ _ _ := le_trans

theorem lower_picks : Picks lower (fun a b => b ≤ a) where
  pick s t := by unfold lower; split <;> simp
  left s t := by unfold lower; split <;> linarith
  right s t := by unfold lower; split <;> linarith
  refl s := le_refl s
  trans _ _ _ h h' := le_trans h' h

theorem consider_spec {better : ℝ → ℝ → ℝ} {R : ℝ → ℝ → Prop} (hp : Picks better R) (p : Coeffs ℝ)
    (xb xe root best : ℝ) :
    R best (consider better p xb xe root best) ∧
    (root ∈ Set.Ioo xb xe → R (eval 3 p root) (consider better p xb xe root best)) ∧
    (consider better p xb xe root best = best ∨
      (root ∈ Set.Ioo xb xe ∧ consider better p xb xe root best = eval 3 p root)) := by
  unfold consider
  split
  next h =>
    refine ⟨hp.right _ _, fun _ => hp.left _ _, ?_⟩
    rcases hp.pick (eval 3 p root) best with h' | h'
    · exact Or.inr ⟨⟨h.1, h.2⟩, h'⟩
    · exact Or.inl h'
  next h => exact ⟨hp.refl _, fun h' => absurd ⟨h'.1, h'.2⟩ h, Or.inl rfl⟩

theorem cubicExtremum_spec {better : ℝ → ℝ → ℝ} {R : ℝ → ℝ → Prop} (hp : Picks better R) (p : Coeffs ℝ)
    {xb xe : ℝ} (hle : xb ≤ xe) :
    R (eval 3 p xb) (cubicExtremum better xb xe p) ∧ R (eval 3 p xe) (cubicExtremum better xb xe p) ∧
    (∀ r ∈ Set.Ioo xb xe, Tested p r → R (eval 3 p r) (cubicExtremum better xb xe p)) ∧
    ∃ x ∈ Set.Icc xb xe, eval 3 p x = cubicExtremum better xb xe p := by
  have hbest : ∃ x ∈ Set.Icc xb xe, eval 3 p x = better (eval 3 p xe) (eval 3 p xb) := by
    rcases hp.pick (eval 3 p xe) (eval 3 p xb) with h | h
    · exact ⟨xe, ⟨hle, le_refl _⟩, h.symm⟩
    · exact ⟨xb, ⟨le_refl _, hle⟩, h.symm⟩
  have step : ∀ (root best : ℝ), (∃ x ∈ Set.Icc xb xe, eval 3 p x = best) →
      ∃ x ∈ Set.Icc xb xe, eval 3 p x = consider better p xb xe root best := by
    intro root best h
    rcases (consider_spec hp p xb xe root best).2.2 with h' | ⟨h1, h2⟩
    · rw [h']; exact h
    · exact ⟨root, ⟨h1.1.le, h1.2.le⟩, h2.symm⟩
  simp only [cubicExtremum]
  set best := better (eval 3 p xe) (eval 3 p xb) with hb
  have hl : R (eval 3 p xb) best := hp.right _ _
  have hr : R (eval 3 p xe) best := hp.left _ _
  split
  next ha =>
    split
    next hb0 =>
      refine ⟨hl, hr, ?_, hbest⟩
      intro r _ ht
      rcases tested_iff.1 ht with h | h
      · exact absurd hb0 h.2.1
      · exact absurd ha h.1
    next hb0 =>
      have hc := consider_spec hp p xb xe (-p 1 / (2 * p 2)) best
      refine ⟨hp.trans _ _ _ hl hc.1, hp.trans _ _ _ hr hc.1, ?_, step _ _ hbest⟩
      intro r hr' ht
      rcases tested_iff.1 ht with h | h
      · rw [h.2.2] at hr' ⊢; exact hc.2.1 hr'
      · exact absurd ha h.1
  next ha =>
    split
    next hD =>
      have hc1 := consider_spec hp p xb xe
        ((-(2 * p 2) + √(2 * p 2 * (2 * p 2) - 4 * (3 * p 3) * p 1)) / (2 * (3 * p 3))) best
      have hc2 := consider_spec hp p xb xe
        ((-(2 * p 2) - √(2 * p 2 * (2 * p 2) - 4 * (3 * p 3) * p 1)) / (2 * (3 * p 3)))
        (consider better p xb xe
          ((-(2 * p 2) + √(2 * p 2 * (2 * p 2) - 4 * (3 * p 3) * p 1)) / (2 * (3 * p 3))) best)
      refine ⟨hp.trans _ _ _ (hp.trans _ _ _ hl hc1.1) hc2.1,
        hp.trans _ _ _ (hp.trans _ _ _ hr hc1.1) hc2.1, ?_, step _ _ (step _ _ hbest)⟩
      intro r hr' ht
      rcases tested_iff.1 ht with h | h
      · exact absurd h.1 ha
      · rcases h.2.2 with h | h
        · rw [h] at hr' ⊢; exact hp.trans _ _ _ (hc1.2.1 hr') hc2.1
        · rw [h] at hr' ⊢; exact hc2.2.1 hr'
    next hD =>
      refine ⟨hl, hr, ?_, hbest⟩
      intro r _ ht
      rcases tested_iff.1 ht with h | h
      · exact absurd h.1 ha
      · exact absurd h.2.1 hD

end Ecl.Poly
