import Verif.Lemmas.TensionSpline

/-! # C58: tension splines -/
set_option autoImplicit false
set_option linter.unusedSimpArgs false

namespace Ecl.Props
open Ecl Ecl.TensionSpline Ecl.CubicSpline Ecl.Glue Ecl.Spec

/-- **C58** (from three points on; for fewer see `C58_fails_two_points`).  The tension spline through
points with increasing abscissae is constructed, passes through every point, is twice continuously
differentiable on the whole domain with `derivative` and `dderivative` as its derivatives, and has no
curvature at its ends. -/
theorem C58_natural_partial (mode : Mode) (xs ys : List ℝ) (tau : ℝ) (ht : 0 < tau)
    (hlen : xs.length = ys.length) (h3 : 3 ≤ xs.length) (hinc : xs.Pairwise (· < ·)) (a b : ℝ)
    (ha : xs.head? = some a) (hb : xs.getLast? = some b) :
    ∃ s, TensionSpline.natural mode xs ys tau = .ok s ∧
      TwiceSmooth (TensionSpline.value mode s) (TensionSpline.slope mode s) (TensionSpline.curvature mode s) a b ∧
      (∀ (i : ℕ) (hx : i < xs.length) (hy : i < ys.length), TensionSpline.value mode s xs[i] = .ok ys[i]) ∧
      TensionSpline.curvature mode s a = .ok 0 ∧ TensionSpline.curvature mode s b = .ok 0 := by
  obtain ⟨m, hm⟩ : ∃ m, xs.length = m + 3 := ⟨xs.length - 3, by omega⟩
  have hk := knots_of_pairwise hinc (m := m + 2) (by omega)
  have hh : ∀ i, i < m + 2 → 0 < hAt (at' xs) i := fun i hi => sub_pos.2 (hk i hi)
  have hS := system_spec (a := aAt tau (at' xs)) (beta := betaAt tau (at' xs)) (gamma := gammaAt tau (at' xs) (at' ys))
    (m := m) (fun i hi => a_pos ht (hh i hi)) (fun i hi => a_lt_beta ht (hh i hi))
    (w0 := { u := Function.update (fun _ => 0) 1 (betaAt tau (at' xs) 1 + betaAt tau (at' xs) 0)
             v := Function.update (fun _ => 0) 1 (gammaAt tau (at' xs) (at' ys) 1 - gammaAt tau (at' xs) (at' ys) 0) })
    (z0 := Function.update (Function.update (fun _ => 0) 0 0) (m + 2) 0)
    (by simp) (by simp) (by simp [Function.update_of_ne]) (by simp)
  have hdata : data mode xs ys tau = .ok (Function.update (backward (aAt tau (at' xs))
      (forward (aAt tau (at' xs)) (betaAt tau (at' xs)) (gammaAt tau (at' xs) (at' ys)) m 2
        { u := Function.update (fun _ => 0) 1 (betaAt tau (at' xs) 1 + betaAt tau (at' xs) 0)
          v := Function.update (fun _ => 0) 1 (gammaAt tau (at' xs) (at' ys) 1 - gammaAt tau (at' xs) (at' ys) 0) })
      (m + 1) (Function.update (Function.update (fun _ => 0) 0 0) (m + 2) 0)) 0 0) := by
    unfold data
    rw [if_neg (by rintro ⟨-, h⟩; exact h hlen), if_neg (by omega), hm]
    rfl
  generalize TensionSpline.backward (aAt tau (at' xs)) _ (m + 1) _ = z at hS hdata
  simp only at hS
  obtain ⟨z0, zn, hz⟩ := hS
  have ez : Function.update z 0 0 = z := by
    conv_lhs => rw [← z0]
    exact Function.update_eq_self 0 z
  rw [ez] at hdata
  set c : ℕ → Func := fun i =>
    interpolation (at' xs i) (at' ys i) (z i) (at' xs (i + 1)) (at' ys (i + 1)) (z (i + 1)) with hc
  have pc := fun i (hi : i < m + 2) => piece (yi := at' ys i) (zi := z i) (yf := at' ys (i + 1)) (zf := z (i + 1))
    ht (hk i hi)
  obtain ⟨sv, sd, sc⟩ := serves mode (tau := tau) (fs := (List.range (m + 2)).map c) (m := m + 1) hm hk (c := c) (by
    intro k hk'
    simp [List.getElem?_map, List.getElem?_range hk'])
  have jv : Joins (at' xs) (m + 1) (fun k x => (c k).value tau x) := by
    intro k hk'
    exact (pc k (by omega)).2.1.trans (pc (k + 1) (by omega)).1.symm
  have jc : Joins (at' xs) (m + 1) (fun k x => (c k).curvature tau x) := by
    intro k hk'
    exact (pc k (by omega)).2.2.2.2.2.trans (pc (k + 1) (by omega)).2.2.2.2.1.symm
  have jd : Joins (at' xs) (m + 1) (fun k x => (c k).slope tau x) := by
    intro k hk'
    have e1 := (pc k (by omega)).2.2.2.1
    have e2 := (pc (k + 1) (by omega)).2.2.1
    have e3 := hz k hk'
    simp only [aAt, betaAt, gammaAt, hAt, show k + 1 + 1 = k + 2 by omega] at e1 e2 e3
    have htt : tau * tau ≠ 0 := mul_ne_zero ht.ne' ht.ne'
    apply mul_left_cancel₀ htt
    show tau * tau * (c k).slope tau (at' xs (k + 1)) = tau * tau * (c (k + 1)).slope tau (at' xs (k + 1))
    rw [hc]
    simp only [show k + 1 + 1 = k + 2 by omega]
    rw [e1, e2]
    linarith
  refine ⟨⟨xs, (List.range (m + 2)).map c, tau⟩, ?_, ?_, ?_, ?_, ?_⟩
  · unfold TensionSpline.natural
    rw [hdata, hm]
    rfl
  · have := twiceSmooth_of_pieces (m := m + 1) hk.rising sv sd sc jv jd jc
      (fun k _ x => hasDerivAt_value _ ht.ne' x) (fun k _ x => hasDerivAt_slope _ ht.ne' x)
      (fun k _ => continuous_curvature _ tau)
    rwa [head_at ha, last_at (m := m + 2) (by omega) hb] at this
  · intro i hx hy
    have := at_knots (m := m + 1) hk sv jv (z := at' ys) (fun k hk' => (pc k (by omega)).1)
      (fun k hk' => (pc k (by omega)).2.1) i (by omega)
    rwa [at_getElem hx, at_getElem hy] at this
  · have := at_knots (m := m + 1) hk sc jc (z := z) (fun k hk' => (pc k (by omega)).2.2.2.2.1)
      (fun k hk' => (pc k (by omega)).2.2.2.2.2) 0 (by omega)
    rwa [head_at ha, z0] at this
  · have := at_knots (m := m + 1) hk sc jc (z := z) (fun k hk' => (pc k (by omega)).2.2.2.2.1)
      (fun k hk' => (pc k (by omega)).2.2.2.2.2) (m + 2) (by omega)
    rwa [last_at (m := m + 2) (by omega) hb, zn] at this

/-- The property fails for two points: the construction reads behind the end of its working arrays. -/
theorem C58_fails_two_points :
    ¬ (∀ (mode : Mode) (xs ys : List ℝ) (tau : ℝ), 0 < tau → xs.length = ys.length → 2 ≤ xs.length →
      xs.Pairwise (· < ·) → ∃ s, TensionSpline.natural mode xs ys tau = .ok s) := by
  intro h
  obtain ⟨s, hs⟩ := h .release [0, 1] [0, 1] 1 (by norm_num) rfl (by simp) (by norm_num)
  simp [TensionSpline.natural, data, Outcome.bind, beyond] at hs

/-- **C58.** What happens instead: any two points, or fewer, are refused in a debug build and undefined
in a release build; so are, in a debug build, arrays of different lengths. -/
theorem C58_refused (xs ys : List ℝ) (tau : ℝ) :
    (xs.length < 3 → TensionSpline.natural .debug xs ys tau = .throw .outOfRange ∧
      TensionSpline.natural .release xs ys tau = .ub) ∧
    (xs.length ≠ ys.length → TensionSpline.natural .debug xs ys tau = .throw .outOfRange) := by
  constructor
  · intro h
    unfold TensionSpline.natural data
    constructor
    · by_cases h' : xs.length ≠ ys.length
      · rw [if_pos ⟨rfl, h'⟩]; rfl
      · rw [if_neg (by rintro ⟨-, h2⟩; exact h' h2), if_pos (Or.inl h)]; rfl
    · rw [if_neg (by rintro ⟨h2, -⟩; cases h2), if_pos (Or.inl h)]; rfl
  · intro h
    unfold TensionSpline.natural data
    rw [if_pos ⟨rfl, h⟩]; rfl

/-- Three points: the hypotheses are met. -/
example : ∃ s, TensionSpline.natural .release [0, 1, 3] [2, 5, 1] 4 = .ok s ∧
    TensionSpline.value .release s 1 = .ok 5 := by
  obtain ⟨s, h1, -, h3, -⟩ := C58_natural_partial .release [0, 1, 3] [2, 5, 1] 4 (by norm_num) rfl (by simp)
    (by norm_num) 0 3 rfl rfl
  exact ⟨s, h1, by simpa using h3 1 (by simp) (by simp)⟩

end Ecl.Props
