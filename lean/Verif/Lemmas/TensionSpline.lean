import Verif.Model.TensionSpline
import Verif.Lemmas.CubicSpline

/-! # Tension splines: elimination, joins -/
set_option autoImplicit false
set_option linter.unusedSimpArgs false

namespace Ecl.TensionSpline
open Ecl Ecl.CubicSpline Ecl.Glue Ecl.Spec Set

/-! ## Hyperbolic inequalities -/

theorem sinh_lt_mul_cosh {s : ℝ} (hs : 0 < s) : Real.sinh s < s * Real.cosh s := by
  have hd : ∀ x : ℝ, HasDerivAt (fun x => x * Real.cosh x - Real.sinh x) (x * Real.sinh x) x := by
    intro x
    have := ((hasDerivAt_id x).mul (Real.hasDerivAt_cosh x)).sub (Real.hasDerivAt_sinh x)
    refine (this.congr_deriv ?_)
    simp
  have hmono : StrictMonoOn (fun x => x * Real.cosh x - Real.sinh x) (Ici 0) := by
    apply strictMonoOn_of_deriv_pos (convex_Ici 0)
    · exact fun x _ => (hd x).continuousAt.continuousWithinAt
    · intro x hx
      rw [interior_Ici] at hx
      rw [(hd x).deriv]
      exact mul_pos hx (Real.sinh_pos_iff.2 hx)
  have := hmono (self_mem_Ici) (mem_Ici.2 hs.le) hs
  simp at this
  linarith

theorem two_sinh_lt {w : ℝ} (hw : 0 < w) : 2 * Real.sinh w < w * (Real.cosh w + 1) := by
  have h := sinh_lt_mul_cosh (s := w / 2) (by linarith)
  have e1 : Real.sinh w = 2 * Real.sinh (w / 2) * Real.cosh (w / 2) := by
    rw [← Real.sinh_two_mul]; congr 1; ring
  have e2 : Real.cosh w + 1 = 2 * Real.cosh (w / 2) ^ 2 := by
    have : Real.cosh w = Real.cosh (2 * (w / 2)) := by congr 1; ring
    rw [this, Real.cosh_two_mul, Real.sinh_sq]; ring
  rw [e1, e2]
  have hc := Real.cosh_pos (w / 2)
  nlinarith

theorem a_pos {tau h : ℝ} (ht : 0 < tau) (hh : 0 < h) : 0 < 1 / h - tau / Real.sinh (tau * h) := by
  have hw : 0 < tau * h := mul_pos ht hh
  have hs := Real.sinh_pos_iff.2 hw
  have := Real.self_lt_sinh_iff.2 hw
  rw [sub_pos, div_lt_div_iff₀ hs hh]
  linarith

theorem a_lt_beta {tau h : ℝ} (ht : 0 < tau) (hh : 0 < h) :
    1 / h - tau / Real.sinh (tau * h) < tau * (Real.cosh (tau * h) / Real.sinh (tau * h)) - 1 / h := by
  have hw : 0 < tau * h := mul_pos ht hh
  have hs := Real.sinh_pos_iff.2 hw
  have h2 := two_sinh_lt hw
  have : 2 / h < tau * (Real.cosh (tau * h) + 1) / Real.sinh (tau * h) := by
    rw [div_lt_div_iff₀ hh hs]; linarith
  have e : tau * (Real.cosh (tau * h) + 1) / Real.sinh (tau * h) =
      tau * (Real.cosh (tau * h) / Real.sinh (tau * h)) + tau / Real.sinh (tau * h) := by
    field_simp
  rw [e] at this
  have e2 : 2 / h = 1 / h + 1 / h := by ring
  linarith

/-! ## Elimination -/

theorem forward_spec (a beta gamma : ℕ → ℝ) : ∀ (left i : ℕ) (w : Work), 0 < i →
    let w' := forward a beta gamma left i w
    (∀ j, j < i ∨ i + left ≤ j → w'.u j = w.u j ∧ w'.v j = w.v j) ∧
    (∀ j, i ≤ j → j < i + left →
      w'.u j = beta j + beta (j - 1) - a (j - 1) * a (j - 1) / w'.u (j - 1) ∧
      w'.v j = gamma j - gamma (j - 1) - a (j - 1) * w'.v (j - 1) / w'.u (j - 1)) := by
  intro left
  induction left with
  | zero => intro i w _; exact ⟨fun j _ => ⟨rfl, rfl⟩, fun j h1 h2 => by omega⟩
  | succ left ih =>
    intro i w hi
    rw [forward]
    generalize hw1 : (Work.mk (Function.update w.u i (beta i + beta (i - 1) - a (i - 1) * a (i - 1) / w.u (i - 1)))
      (Function.update w.v i (gamma i - gamma (i - 1) - a (i - 1) * w.v (i - 1) / w.u (i - 1)))) = w1
    have H := ih (i + 1) w1 (by omega)
    simp only at H ⊢
    generalize forward a beta gamma left (i + 1) w1 = w' at H ⊢
    have hother : ∀ j, j ≠ i → w1.u j = w.u j ∧ w1.v j = w.v j := by
      intro j hj
      rw [← hw1]
      simp [Function.update_of_ne hj]
    refine ⟨?_, ?_⟩
    · intro j hj
      have h1 := H.1 j (by omega)
      have h2 := hother j (by omega)
      exact ⟨h1.1.trans h2.1, h1.2.trans h2.2⟩
    · intro j h1 h2
      rcases Nat.eq_or_lt_of_le h1 with e | e
      · subst e
        have a1 := H.1 i (by omega)
        have a2 := H.1 (i - 1) (by omega)
        have a3 := hother (i - 1) (by omega)
        rw [a1.1, a1.2, a2.1, a2.2, a3.1, a3.2, ← hw1]
        simp
      · exact H.2 j (by omega) (by omega)

theorem backward_spec (a : ℕ → ℝ) (w : Work) : ∀ (k : ℕ) (z : ℕ → ℝ),
    (∀ j, j = 0 ∨ k < j → backward a w k z j = z j) ∧
    (∀ j, j < k → backward a w k z (j + 1) = (w.v (j + 1) - a (j + 1) * backward a w k z (j + 2)) / w.u (j + 1)) := by
  intro k
  induction k with
  | zero => intro z; exact ⟨fun j _ => rfl, fun j h => by omega⟩
  | succ k ih =>
    intro z
    have H := ih (Function.update z (k + 1) ((w.v (k + 1) - a (k + 1) * z (k + 2)) / w.u (k + 1)))
    rw [backward]
    refine ⟨?_, ?_⟩
    · intro j hj
      rw [H.1 j (by omega), Function.update_of_ne (by omega)]
    · intro j hj
      rcases Nat.eq_or_lt_of_le (Nat.lt_succ_iff.1 hj) with e | e
      · subst e
        rw [H.1 (j + 1) (by omega), H.1 (j + 2) (by omega), Function.update_self, Function.update_of_ne (by omega)]
      · exact H.2 j e

/-- The rows of the system solved by the elimination. -/
theorem system_spec {a beta gamma : ℕ → ℝ} {m : ℕ}
    (ha : ∀ i, i < m + 2 → 0 < a i) (hab : ∀ i, i < m + 2 → a i < beta i) {w0 : Work} {z0 : ℕ → ℝ}
    (hu : w0.u 1 = beta 1 + beta 0) (hv : w0.v 1 = gamma 1 - gamma 0) (hz0 : z0 0 = 0) (hzn : z0 (m + 2) = 0) :
    let z := backward a (forward a beta gamma m 2 w0) (m + 1) z0
    z 0 = 0 ∧ z (m + 2) = 0 ∧
    ∀ i, i < m + 1 → a i * z i + (beta i + beta (i + 1)) * z (i + 1) + a (i + 1) * z (i + 2) = gamma (i + 1) - gamma i := by
  intro z
  have hF := forward_spec a beta gamma m 2 w0 (by omega)
  simp only at hF
  have hB := backward_spec a (forward a beta gamma m 2 w0) (m + 1) z0
  generalize hw : forward a beta gamma m 2 w0 = w at hF hB
  have hz : backward a w (m + 1) z0 = z := by rw [← hw]
  rw [hz] at hB
  have h0 : z 0 = 0 := by rw [hB.1 0 (by omega), hz0]
  have hn : z (m + 2) = 0 := by rw [hB.1 (m + 2) (by omega), hzn]
  refine ⟨h0, hn, ?_⟩
  have u1 : w.u 1 = beta 1 + beta 0 := by rw [(hF.1 1 (by omega)).1, hu]
  have v1 : w.v 1 = gamma 1 - gamma 0 := by rw [(hF.1 1 (by omega)).2, hv]
  have hpos : ∀ j, j < m + 1 → a (j + 1) < w.u (j + 1) := by
    intro j
    induction j with
    | zero =>
      intro _
      rw [u1]
      linarith [hab 1 (by omega), hab 0 (by omega), ha 0 (by omega)]
    | succ j ih =>
      intro hj
      have hlt := ih (by omega)
      have h := (hF.2 (j + 1 + 1) (by omega) (by omega)).1
      rw [Nat.add_sub_cancel] at h
      rw [h]
      have hap := ha (j + 1) (by omega)
      have hq : a (j + 1) * a (j + 1) / w.u (j + 1) < a (j + 1) := by
        rw [div_lt_iff₀ (by linarith)]
        nlinarith
      linarith [hab (j + 1) (by omega), hab (j + 1 + 1) (by omega)]
  have hzj : ∀ j, j < m + 1 → w.u (j + 1) * z (j + 1) = w.v (j + 1) - a (j + 1) * z (j + 2) := by
    intro j hj
    have hp := hpos j hj
    have := hB.2 j hj
    rw [this]
    exact mul_div_cancel₀ _ (by linarith [ha (j + 1) (by omega)])
  intro i hi
  cases i with
  | zero =>
    have := hzj 0 (by omega)
    rw [h0]
    simp only [Nat.zero_add] at this ⊢
    rw [u1, v1] at this
    linarith
  | succ i =>
    have h1 := hzj i (by omega)
    have h2 := hzj (i + 1) (by omega)
    have h := hF.2 (i + 1 + 1) (by omega) (by omega)
    rw [Nat.add_sub_cancel] at h
    have hne : w.u (i + 1) ≠ 0 := by
      have := hpos i (by omega)
      linarith [ha (i + 1) (by omega)]
    rw [h.1, h.2] at h2
    simp only [show i + 1 + 1 = i + 2 by omega, show i + 1 + 2 = i + 3 by omega, show i + 2 + 1 = i + 3 by omega] at h1 h2 ⊢
    have e : z (i + 1) = (w.v (i + 1) - a (i + 1) * z (i + 2)) / w.u (i + 1) := by
      rw [eq_div_iff hne]; linarith
    rw [e]
    field_simp at h2 ⊢
    linarith

/-! ## Pieces -/

theorem hasDerivAt_value (f : Func) {tau : ℝ} (ht : tau ≠ 0) (x : ℝ) :
    HasDerivAt (fun x => f.value tau x) (f.slope tau x) x := by
  have l1 : HasDerivAt (fun x => tau * (f.xf - x)) (-tau) x := by
    have := ((hasDerivAt_id x).const_sub f.xf).const_mul tau
    refine this.congr_deriv ?_; simp
  have l2 : HasDerivAt (fun x => tau * (x - f.x0)) tau x := by
    have := ((hasDerivAt_id x).sub_const f.x0).const_mul tau
    refine this.congr_deriv ?_; simp
  have s1 := (l1.sinh).const_mul f.z0
  have s2 := (l2.sinh).const_mul f.zf
  have p1 := (s1.add s2).div_const (tau * tau * Real.sinh (tau * (f.xf - f.x0)))
  have q1 := ((((hasDerivAt_id x).const_sub f.xf).const_mul (f.y0 - f.z0 / (tau * tau)))).div_const (f.xf - f.x0)
  have q2 := ((((hasDerivAt_id x).sub_const f.x0).const_mul (f.yf - f.zf / (tau * tau)))).div_const (f.xf - f.x0)
  refine ((p1.add q1).add q2).congr_deriv ?_
  unfold Func.slope
  ring

theorem hasDerivAt_slope (f : Func) {tau : ℝ} (ht : tau ≠ 0) (x : ℝ) :
    HasDerivAt (fun x => f.slope tau x) (f.curvature tau x) x := by
  have l1 : HasDerivAt (fun x => tau * (f.xf - x)) (-tau) x := by
    have := ((hasDerivAt_id x).const_sub f.xf).const_mul tau
    refine this.congr_deriv ?_; simp
  have l2 : HasDerivAt (fun x => tau * (x - f.x0)) tau x := by
    have := ((hasDerivAt_id x).sub_const f.x0).const_mul tau
    refine this.congr_deriv ?_; simp
  have s1 := (l1.cosh).const_mul (-1 * tau * f.z0)
  have s2 := (l2.cosh).const_mul (tau * f.zf)
  have p1 := (s1.add s2).div_const (tau * tau * Real.sinh (tau * (f.xf - f.x0)))
  refine ((p1.add_const (-1 * (f.y0 - f.z0 / (tau * tau)) / (f.xf - f.x0))).add_const
    ((f.yf - f.zf / (tau * tau)) / (f.xf - f.x0))).congr_deriv ?_
  unfold Func.curvature
  ring

theorem continuous_curvature (f : Func) (tau : ℝ) : Continuous (fun x => f.curvature tau x) := by
  unfold Func.curvature
  have c1 : Continuous fun x => Real.sinh (tau * (f.xf - x)) := by fun_prop
  have c2 : Continuous fun x => Real.sinh (tau * (x - f.x0)) := by fun_prop
  exact ((c1.const_mul _).add (c2.const_mul _)).div_const _

/-- End values of a piece. -/
theorem piece {xi yi zi xf yf zf tau : ℝ} (ht : 0 < tau) (h : xi < xf) :
    let f := interpolation xi yi zi xf yf zf
    let a := 1 / (xf - xi) - tau / Real.sinh (tau * (xf - xi))
    let b := tau * (Real.cosh (tau * (xf - xi)) / Real.sinh (tau * (xf - xi))) - 1 / (xf - xi)
    let g := tau * tau * (yf - yi) / (xf - xi)
    f.value tau xi = yi ∧ f.value tau xf = yf ∧
    tau * tau * f.slope tau xi = g - b * zi - a * zf ∧ tau * tau * f.slope tau xf = g + a * zi + b * zf ∧
    f.curvature tau xi = zi ∧ f.curvature tau xf = zf := by
  intro f a b g
  have hd : xf - xi ≠ 0 := (sub_pos.2 h).ne'
  have hs : Real.sinh (tau * (xf - xi)) ≠ 0 := (Real.sinh_pos_iff.2 (mul_pos ht (sub_pos.2 h))).ne'
  have ht' := ht.ne'
  simp only [f, a, b, g, interpolation, Func.value, Func.slope, Func.curvature, sub_self, mul_zero, Real.sinh_zero,
    Real.cosh_zero]
  refine ⟨?_, ?_, ?_, ?_, ?_, ?_⟩ <;> field_simp <;> ring

theorem serves (mode : Mode) {xs : List ℝ} {fs : List Func} {tau : ℝ} {m : ℕ} (hm : xs.length = m + 2)
    (hk : Knots (at' xs) (m + 1)) {c : ℕ → Func} (hc : ∀ k, k < m + 1 → fs[k]? = some (c k)) :
    Serves (at' xs) m (value mode ⟨xs, fs, tau⟩) (fun k x => (c k).value tau x) ∧
    Serves (at' xs) m (slope mode ⟨xs, fs, tau⟩) (fun k x => (c k).slope tau x) ∧
    Serves (at' xs) m (curvature mode ⟨xs, fs, tau⟩) (fun k x => (c k).curvature tau x) := by
  refine ⟨?_, ?_, ?_⟩ <;>
  · intro k hkm x hx h1 h2
    simp only [value, slope, curvature]
    rw [segment_spec mode hm hk.rising hkm hx h1 h2]
    simp only [Outcome.bind, withFunc, hc k hkm]

end Ecl.TensionSpline
