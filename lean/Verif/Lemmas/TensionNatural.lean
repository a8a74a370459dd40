import Verif.Lemmas.TensionSpline

/-! # Natural tension splines: the second derivatives, the pieces and bounds for both -/
set_option autoImplicit false
set_option linter.unusedSimpArgs false

namespace Ecl.TensionSpline
open Ecl Ecl.CubicSpline Ecl.Glue Ecl.Spec Set

/-- Segment `i` of the spline with the second derivatives `z`. -/
def pieceOf (xs ys : List ℝ) (z : ℕ → ℝ) (i : ℕ) : Func :=
  interpolation (at' xs i) (at' ys i) (z i) (at' xs (i + 1)) (at' ys (i + 1)) (z (i + 1))

/-- A natural spline with second derivatives `z` at its `m + 3` knots. -/
structure Solved (mode : Mode) (xs ys : List ℝ) (tau : ℝ) (m : ℕ) (z : ℕ → ℝ) (s : Spline) : Prop where
  made : natural mode xs ys tau = .ok s
  eq : s = ⟨xs, (List.range (m + 2)).map (pieceOf xs ys z), tau⟩
  knots : Knots (at' xs) (m + 2)
  first : z 0 = 0
  last : z (m + 2) = 0
  row : ∀ i, i < m + 1 → aAt tau (at' xs) i * z i + (betaAt tau (at' xs) i + betaAt tau (at' xs) (i + 1)) * z (i + 1) +
    aAt tau (at' xs) (i + 1) * z (i + 2) = gammaAt tau (at' xs) (at' ys) (i + 1) - gammaAt tau (at' xs) (at' ys) i
  value : Serves (at' xs) (m + 1) (value mode s) (fun k x => (pieceOf xs ys z k).value tau x)
  slope : Serves (at' xs) (m + 1) (slope mode s) (fun k x => (pieceOf xs ys z k).slope tau x)
  curvature : Serves (at' xs) (m + 1) (curvature mode s) (fun k x => (pieceOf xs ys z k).curvature tau x)
  joinValue : Joins (at' xs) (m + 1) (fun k x => (pieceOf xs ys z k).value tau x)
  joinSlope : Joins (at' xs) (m + 1) (fun k x => (pieceOf xs ys z k).slope tau x)
  joinCurvature : Joins (at' xs) (m + 1) (fun k x => (pieceOf xs ys z k).curvature tau x)

theorem natural_solved (mode : Mode) (xs ys : List ℝ) (tau : ℝ) (ht : 0 < tau) (hlen : xs.length = ys.length)
    {m : ℕ} (hm : xs.length = m + 3) (hinc : xs.Pairwise (· < ·)) : ∃ z s, Solved mode xs ys tau m z s := by
  have hk := knots_of_pairwise hinc (m := m + 2) (by omega)
  have hh : ∀ i, i < m + 2 → 0 < hAt (at' xs) i := fun i hi => sub_pos.2 (hk i hi)
  have hS := system_spec (a := aAt tau (at' xs)) (beta := betaAt tau (at' xs)) (gamma := gammaAt tau (at' xs) (at' ys))
    (m := m) (fun i hi => a_pos ht (hh i hi)) (fun i hi => a_lt_beta ht (hh i hi))
    (w0 := { u := Function.update (fun _ => 0) 1 (betaAt tau (at' xs) 1 + betaAt tau (at' xs) 0)
             v := Function.update (fun _ => 0) 1 (gammaAt tau (at' xs) (at' ys) 1 - gammaAt tau (at' xs) (at' ys) 0) })
    (z0 := Function.update (Function.update (fun _ => 0) 0 0) (m + 2) 0)
    (by simp) (by simp) (by simp [Function.update_of_ne]) (by simp)
  have hdata : data mode xs ys tau = .ok (Function.update (backward (aAt tau (at' xs))
      (forward (aAt tau (at' xs)) (betaAt tau (at' xs)) (gammaAt tau (at' xs) (at' ys)) m 2
        { u := Function.update (fun _ => 0) 1 (betaAt tau (at' xs) 1 + betaAt tau (at' xs) 0)
          v := Function.update (fun _ => 0) 1 (gammaAt tau (at' xs) (at' ys) 1 - gammaAt tau (at' xs) (at' ys) 0) })
      (m + 1) (Function.update (Function.update (fun _ => 0) 0 0) (m + 2) 0)) 0 0) := by
    unfold data
    rw [if_neg (by rintro ⟨-, h⟩; exact h hlen), if_neg (by omega), hm]
    rfl
  generalize TensionSpline.backward (aAt tau (at' xs)) _ (m + 1) _ = z at hS hdata
  simp only at hS
  obtain ⟨z0, zn, hz⟩ := hS
  have ez : Function.update z 0 0 = z := by
    conv_lhs => rw [← z0]
    exact Function.update_eq_self 0 z
  rw [ez] at hdata
  have pc := fun i (hi : i < m + 2) => piece (yi := at' ys i) (zi := z i) (yf := at' ys (i + 1)) (zf := z (i + 1))
    ht (hk i hi)
  obtain ⟨sv, sd, sc⟩ := serves mode (tau := tau) (fs := (List.range (m + 2)).map (pieceOf xs ys z)) (m := m + 1) hm hk
    (c := pieceOf xs ys z) (by
    intro k hk'
    simp [List.getElem?_map, List.getElem?_range hk'])
  refine ⟨z, ⟨xs, (List.range (m + 2)).map (pieceOf xs ys z), tau⟩, ?_, rfl, hk, z0, zn, hz, sv, sd, sc, ?_, ?_, ?_⟩
  · unfold TensionSpline.natural
    rw [hdata, hm]
    rfl
  · intro k hk'
    exact (pc k (by omega)).2.1.trans (pc (k + 1) (by omega)).1.symm
  · intro k hk'
    have e1 := (pc k (by omega)).2.2.2.1
    have e2 := (pc (k + 1) (by omega)).2.2.1
    have e3 := hz k hk'
    simp only [aAt, betaAt, gammaAt, hAt, show k + 1 + 1 = k + 2 by omega] at e1 e2 e3
    have htt : tau * tau ≠ 0 := mul_ne_zero ht.ne' ht.ne'
    apply mul_left_cancel₀ htt
    show tau * tau * (pieceOf xs ys z k).slope tau (at' xs (k + 1)) = tau * tau * (pieceOf xs ys z (k + 1)).slope tau (at' xs (k + 1))
    unfold pieceOf
    simp only [show k + 1 + 1 = k + 2 by omega]
    rw [e1, e2]
    linarith
  · intro k hk'
    exact (pc k (by omega)).2.2.2.2.2.trans (pc (k + 1) (by omega)).2.2.2.2.1.symm

theorem Solved.at_knot_value {mode : Mode} {xs ys : List ℝ} {tau : ℝ} {m : ℕ} {z : ℕ → ℝ} {s : Spline}
    (h : Solved mode xs ys tau m z s) (ht : 0 < tau) (i : ℕ) (hi : i ≤ m + 2) :
    TensionSpline.value mode s (at' xs i) = .ok (at' ys i) :=
  at_knots (m := m + 1) h.knots h.value h.joinValue (z := at' ys) (fun k hk => (piece ht (h.knots k (by omega))).1)
    (fun k hk => (piece ht (h.knots k (by omega))).2.1) i hi

theorem Solved.at_knot_curvature {mode : Mode} {xs ys : List ℝ} {tau : ℝ} {m : ℕ} {z : ℕ → ℝ} {s : Spline}
    (h : Solved mode xs ys tau m z s) (ht : 0 < tau) (i : ℕ) (hi : i ≤ m + 2) :
    TensionSpline.curvature mode s (at' xs i) = .ok (z i) :=
  at_knots (m := m + 1) h.knots h.curvature h.joinCurvature (z := z)
    (fun k hk => (piece (yi := at' ys k) (yf := at' ys (k + 1)) ht (h.knots k (by omega))).2.2.2.2.1)
    (fun k hk => (piece (yi := at' ys k) (yf := at' ys (k + 1)) ht (h.knots k (by omega))).2.2.2.2.2) i hi

theorem Solved.smooth {mode : Mode} {xs ys : List ℝ} {tau : ℝ} {m : ℕ} {z : ℕ → ℝ} {s : Spline}
    (h : Solved mode xs ys tau m z s) (ht : 0 < tau) :
    TwiceSmooth (TensionSpline.value mode s) (TensionSpline.slope mode s) (TensionSpline.curvature mode s)
      (at' xs 0) (at' xs (m + 2)) :=
  twiceSmooth_of_pieces (m := m + 1) h.knots.rising h.value h.slope h.curvature h.joinValue h.joinSlope h.joinCurvature
    (fun k _ x => hasDerivAt_value _ ht.ne' x) (fun k _ x => hasDerivAt_slope _ ht.ne' x)
    (fun k _ => continuous_curvature _ tau)

/-- `sinh` is superadditive. -/
theorem sinh_add_le {a b : ℝ} (ha : 0 ≤ a) (hb : 0 ≤ b) : Real.sinh a + Real.sinh b ≤ Real.sinh (a + b) := by
  rw [Real.sinh_add]
  have h1 := Real.one_le_cosh a
  have h2 := Real.one_le_cosh b
  have h3 := Real.sinh_nonneg_iff.2 ha
  have h4 := Real.sinh_nonneg_iff.2 hb
  nlinarith

/-- Between two knots the curvature is no larger than at them. -/
theorem curvature_le (f : Func) {tau x B : ℝ} (ht : 0 < tau) (h : f.x0 < f.xf) (hx : x ∈ Icc f.x0 f.xf)
    (h0 : |f.z0| ≤ B) (hf : |f.zf| ≤ B) : |f.curvature tau x| ≤ B := by
  have hs : 0 < Real.sinh (tau * (f.xf - f.x0)) := Real.sinh_pos_iff.2 (mul_pos ht (sub_pos.2 h))
  have htt : 0 < tau * tau := mul_pos ht ht
  have e : f.curvature tau x =
      (f.z0 * Real.sinh (tau * (f.xf - x)) + f.zf * Real.sinh (tau * (x - f.x0))) / Real.sinh (tau * (f.xf - f.x0)) := by
    unfold Func.curvature
    simp only
    field_simp
  have s1 : 0 ≤ Real.sinh (tau * (f.xf - x)) := Real.sinh_nonneg_iff.2 (mul_nonneg ht.le (by linarith [hx.2]))
  have s2 : 0 ≤ Real.sinh (tau * (x - f.x0)) := Real.sinh_nonneg_iff.2 (mul_nonneg ht.le (by linarith [hx.1]))
  have hadd := sinh_add_le (a := tau * (f.xf - x)) (b := tau * (x - f.x0)) (mul_nonneg ht.le (by linarith [hx.2]))
    (mul_nonneg ht.le (by linarith [hx.1]))
  rw [show tau * (f.xf - x) + tau * (x - f.x0) = tau * (f.xf - f.x0) by ring] at hadd
  have hB : 0 ≤ B := (abs_nonneg _).trans h0
  rw [e, abs_div, abs_of_pos hs, div_le_iff₀ hs]
  calc |f.z0 * Real.sinh (tau * (f.xf - x)) + f.zf * Real.sinh (tau * (x - f.x0))|
      ≤ |f.z0 * Real.sinh (tau * (f.xf - x))| + |f.zf * Real.sinh (tau * (x - f.x0))| := abs_add_le _ _
    _ = |f.z0| * Real.sinh (tau * (f.xf - x)) + |f.zf| * Real.sinh (tau * (x - f.x0)) := by
        rw [abs_mul, abs_mul, abs_of_nonneg s1, abs_of_nonneg s2]
    _ ≤ B * Real.sinh (tau * (f.xf - f.x0)) := by nlinarith

theorem Solved.bounded {mode : Mode} {xs ys : List ℝ} {tau : ℝ} {m : ℕ} {z : ℕ → ℝ} {s : Spline}
    (h : Solved mode xs ys tau m z s) (ht : 0 < tau) {B : ℝ} (hB : ∀ i ≤ m + 2, |z i| ≤ B) {x : ℝ}
    (hx : x ∈ Icc (at' xs 0) (at' xs (m + 2))) : ∃ v, TensionSpline.curvature mode s x = .ok v ∧ |v| ≤ B := by
  obtain ⟨k, h1, h2, h3⟩ := exists_segment (m := m + 1) h.knots.rising hx
  refine ⟨_, h.curvature k h1 x hx h2 h3, ?_⟩
  refine curvature_le _ ht (h.knots k (by omega)) ⟨?_, h2⟩ (hB k (by omega)) (hB (k + 1) (by omega))
  rcases h3 with h3 | h3
  · subst h3; exact hx.1
  · exact h3.le

end Ecl.TensionSpline
