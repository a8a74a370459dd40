import Verif.Model.CubicSpline
import Verif.Lemmas.Polynomial
import Verif.Lemmas.Glue
import Mathlib.Analysis.Calculus.Deriv.Polynomial
import Mathlib.Topology.Algebra.Polynomial
import Mathlib.Data.List.GetD
import Mathlib.Tactic.FieldSimp
import Mathlib.Tactic.Ring
import Mathlib.Tactic.LinearCombination

/-! # Cubic splines: lookup, elimination, joins -/
set_option autoImplicit false
set_option linter.unusedSimpArgs false

namespace Ecl.CubicSpline
open Ecl Ecl.Poly Ecl.Glue Set

theorem knots_of_pairwise {xs : List ℝ} (h : xs.Pairwise (· < ·)) {m : ℕ} (hm : xs.length = m + 1) :
    Knots (at' xs) m := by
  intro i hi
  have h1 : i < xs.length := by omega
  have h2 : i + 1 < xs.length := by omega
  have := List.pairwise_iff_getElem.1 h i (i + 1) h1 h2 (by omega)
  unfold at'
  rw [List.getD_eq_getElem _ _ h1, List.getD_eq_getElem _ _ h2]
  exact this

theorem findFrom_spec (mode : Mode) (xs : List ℝ) (x : ℝ) {k : ℕ} (hk : k + 1 < xs.length) (hx : x ≤ at' xs (k + 1)) :
    ∀ (d j : ℕ), j + d = k → (∀ i, j < i → i ≤ k → at' xs i < x) →
      findFrom mode x (xs.drop (j + 1)) j = .ok k := by
  intro d
  induction d with
  | zero =>
    intro j hj _
    have e : j = k := by omega
    subst e
    rw [List.drop_eq_getElem_cons hk, findFrom, if_neg]
    rw [at', List.getD_eq_getElem _ _ hk] at hx
    exact not_lt.2 hx
  | succ d ih =>
    intro j hj hlt
    have hj1 : j + 1 < xs.length := by omega
    rw [List.drop_eq_getElem_cons hj1, findFrom, if_pos]
    · exact ih (j + 1) (by omega) (fun i h1 h2 => hlt i (by omega) h2)
    · have := hlt (j + 1) (by omega) (by omega)
      rwa [at', List.getD_eq_getElem _ _ hj1] at this

theorem segment_spec (mode : Mode) {xs : List ℝ} {m : ℕ} (hm : xs.length = m + 2)
    (hk : Rising (at' xs) (m + 1)) {k : ℕ} (hkm : k < m + 1) {x : ℝ}
    (hx : x ∈ Icc (at' xs 0) (at' xs (m + 1))) (h1 : x ≤ at' xs (k + 1)) (h2 : k = 0 ∨ at' xs k < x) :
    segment mode xs x = .ok k := by
  have hf : findFrom mode x (xs.drop 1) 0 = .ok k := by
    refine findFrom_spec mode xs x (by omega) h1 k 0 (by omega) ?_
    intro i hi hik
    rcases h2 with h | h
    · omega
    · exact lt_of_le_of_lt (hk.le hik (by omega)) h
  cases mode with
  | release => exact hf
  | debug =>
    have hh : xs.head? = some (at' xs 0) := by
      cases xs with
      | nil => simp at hm
      | cons a l => rfl
    have hl : xs.getLast? = some (at' xs (m + 1)) := by
      rw [List.getLast?_eq_getElem?, hm]
      have : m + 2 - 1 < xs.length := by omega
      rw [List.getElem?_eq_getElem this, at', List.getD_eq_getElem _ _ (by omega)]
      rfl
    unfold segment
    simp only [hh, hl]
    rw [if_pos ⟨hx.1, hx.2⟩, hf]

theorem polynomials_spec {mk : ℕ → Outcome (Coeffs ℝ)} : ∀ (left i : ℕ),
    (∀ j, j < left → ∃ c, mk (i + j) = .ok c) →
    ∃ cs, polynomials mk left i = .ok cs ∧ cs.length = left ∧
      ∀ j, j < left → ∃ c, cs[j]? = some c ∧ mk (i + j) = .ok c := by
  intro left
  induction left with
  | zero => intro i _; exact ⟨[], rfl, rfl, fun j hj => by omega⟩
  | succ left ih =>
    intro i h
    obtain ⟨c, hc⟩ := h 0 (by omega)
    obtain ⟨cs, h1, h2, h3⟩ := ih (i + 1) (fun j hj => by
      have := h (j + 1) (by omega)
      rwa [show i + (j + 1) = i + 1 + j by omega] at this)
    refine ⟨c :: cs, ?_, by simp [h2], ?_⟩
    · rw [polynomials]
      rw [Nat.add_zero] at hc
      rw [hc]
      show (polynomials mk left (i + 1)).bind _ = _
      rw [h1]; rfl
    · intro j hj
      cases j with
      | zero => exact ⟨c, rfl, hc⟩
      | succ j =>
        obtain ⟨c', h4, h5⟩ := h3 j (by omega)
        exact ⟨c', by simpa using h4, by rwa [show i + (j + 1) = i + 1 + j by omega]⟩

theorem hasDerivAt_eval3 (c : Coeffs ℝ) (x : ℝ) :
    HasDerivAt (fun x => eval 3 c x) (eval 2 (derivative 3 c) x) x := by
  have h := (Spec.toPoly 3 c).hasDerivAt x
  rw [← toPoly_derivative, eval_toPoly] at h
  have e : (fun x => (Spec.toPoly 3 c).eval x) = fun x => eval 3 c x := by
    funext x; rw [eval_toPoly]
  rwa [e] at h

theorem hasDerivAt_eval2 (c : Coeffs ℝ) (x : ℝ) :
    HasDerivAt (fun x => eval 2 c x) (eval 1 (derivative 2 c) x) x := by
  have h := (Spec.toPoly 2 c).hasDerivAt x
  rw [← toPoly_derivative, eval_toPoly] at h
  have e : (fun x => (Spec.toPoly 2 c).eval x) = fun x => eval 2 c x := by
    funext x; rw [eval_toPoly]
  rwa [e] at h

theorem continuous_eval (n : ℕ) (c : Coeffs ℝ) : Continuous (fun x => eval n c x) := by
  have e : (fun x => (Spec.toPoly n c).eval x) = fun x => eval n c x := by
    funext x; rw [eval_toPoly]
  rw [← e]; exact (Spec.toPoly n c).continuous

/-- The three calls answer from the polynomials of the segments. -/
theorem serves (mode : Mode) {xs : List ℝ} {ps : List (Coeffs ℝ)} {m : ℕ} (hm : xs.length = m + 2)
    (hk : Knots (at' xs) (m + 1)) {c : ℕ → Coeffs ℝ} (hc : ∀ k, k < m + 1 → ps[k]? = some (c k)) :
    Serves (at' xs) m (value mode ⟨xs, ps⟩) (fun k x => eval 3 (c k) x) ∧
    Serves (at' xs) m (slope mode ⟨xs, ps⟩) (fun k x => eval 2 (derivative 3 (c k)) x) ∧
    Serves (at' xs) m (curvature mode ⟨xs, ps⟩)
      (fun k x => eval 1 (derivative 2 (derivative 3 (c k))) x) := by
  refine ⟨?_, ?_, ?_⟩ <;>
  · intro k hkm x hx h1 h2
    simp only [value, slope, curvature]
    rw [segment_spec mode hm hk.rising hkm hx h1 h2]
    simp only [Outcome.bind, withPoly, hc k hkm]

/-! ## Elimination -/

theorem forward_spec (x y : ℕ → ℝ) : ∀ (left i : ℕ) (w : Work), 0 < i →
    let w' := forward x y left i w
    (∀ j, j < i ∨ i + left ≤ j → w'.ydd j = w.ydd j ∧ w'.u j = w.u j) ∧
    (∀ j, i ≤ j → j < i + left →
      w'.ydd j = ((x j - x (j - 1)) / (x (j + 1) - x (j - 1)) - 1) /
        ((x j - x (j - 1)) / (x (j + 1) - x (j - 1)) * w'.ydd (j - 1) + 2) ∧
      w'.u j = (6 * ((y (j + 1) - y j) / (x (j + 1) - x j) - (y j - y (j - 1)) / (x j - x (j - 1))) /
          (x (j + 1) - x (j - 1)) - (x j - x (j - 1)) / (x (j + 1) - x (j - 1)) * w'.u (j - 1)) /
        ((x j - x (j - 1)) / (x (j + 1) - x (j - 1)) * w'.ydd (j - 1) + 2)) := by
  intro left
  induction left with
  | zero => intro i w _; exact ⟨fun j _ => ⟨rfl, rfl⟩, fun j h1 h2 => by omega⟩
  | succ left ih =>
    intro i w hi
    have H := ih (i + 1) (forwardStep x y i w) (by omega)
    simp only [forward] at H ⊢
    generalize forward x y left (i + 1) (forwardStep x y i w) = w' at H ⊢
    have hother : ∀ j, j ≠ i → (forwardStep x y i w).ydd j = w.ydd j ∧ (forwardStep x y i w).u j = w.u j := by
      intro j hj
      simp [forwardStep, Function.update_of_ne hj]
    refine ⟨?_, ?_⟩
    · intro j hj
      have h1 := H.1 j (by omega)
      have h2 := hother j (by omega)
      exact ⟨h1.1.trans h2.1, h1.2.trans h2.2⟩
    · intro j h1 h2
      rcases Nat.eq_or_lt_of_le h1 with e | e
      · subst e
        have a1 := H.1 i (by omega)
        have a2 := H.1 (i - 1) (by omega)
        have a3 := hother (i - 1) (by omega)
        rw [a1.1, a1.2, a2.1, a2.2, a3.1, a3.2]
        simp [forwardStep]
      · exact H.2 j (by omega) (by omega)

theorem backward_spec (u : ℕ → ℝ) : ∀ (k : ℕ) (ydd : ℕ → ℝ),
    (∀ j, k ≤ j → backward u k ydd j = ydd j) ∧
    (∀ j, j < k → backward u k ydd j = ydd j * backward u k ydd (j + 1) + u j) := by
  intro k
  induction k with
  | zero => intro ydd; exact ⟨fun j _ => rfl, fun j h => by omega⟩
  | succ k ih =>
    intro ydd
    have H := ih (Function.update ydd k (ydd k * ydd (k + 1) + u k))
    rw [backward]
    refine ⟨?_, ?_⟩
    · intro j hj
      rw [H.1 j (by omega), Function.update_of_ne (by omega)]
    · intro j hj
      rcases Nat.eq_or_lt_of_le (Nat.lt_succ_iff.1 hj) with e | e
      · subst e
        rw [H.1 j (by omega), H.1 (j + 1) (by omega), Function.update_self, Function.update_of_ne (by omega)]
      · rw [H.2 j e, Function.update_of_ne (by omega)]

/-- The rows of the system solved by the elimination. -/
theorem secondDerivatives_spec {x y : ℕ → ℝ} {m : ℕ} (hk : Knots x (m + 1)) {d0 u0 qn un : ℝ}
    (hd : -1 ≤ d0 ∧ d0 ≤ 0) (hq : 0 ≤ qn ∧ qn < 1) :
    let M := secondDerivatives x y (m + 2) d0 u0 qn un
    M 0 = d0 * M 1 + u0 ∧ qn * M m + M (m + 1) = un ∧
    ∀ i, i < m →
      (x (i + 1) - x i) * M i + 2 * (x (i + 2) - x i) * M (i + 1) + (x (i + 2) - x (i + 1)) * M (i + 2) =
        6 * ((y (i + 2) - y (i + 1)) / (x (i + 2) - x (i + 1)) - (y (i + 1) - y i) / (x (i + 1) - x i)) := by
  intro M
  have e1 : m + 2 - 2 = m := by omega
  have e2 : m + 2 - 1 = m + 1 := by omega
  have hM : M = secondDerivatives x y (m + 2) d0 u0 qn un := rfl
  unfold secondDerivatives at hM
  simp only [e1, e2] at hM
  set w0 : Work := { ydd := Function.update (fun _ => 0) 0 d0, u := Function.update (fun _ => 0) 0 u0 } with hw0
  have hF := forward_spec x y m 1 w0 (by omega)
  simp only at hF
  generalize forward x y m 1 w0 = w at hM hF
  have hB := backward_spec (Function.update w.u (m + 1) un) (m + 1)
    (Function.update w.ydd (m + 1) ((un - qn * w.u m) / (qn * w.ydd m + 1)))
  rw [← hM] at hB
  have w00 : w.ydd 0 = d0 ∧ w.u 0 = u0 := by
    have := hF.1 0 (by omega)
    simpa [hw0] using this
  -- the coefficients stay in [-1, 0]
  have hpos : ∀ j, j < m → 0 < x (j + 1) - x j ∧ 0 < x (j + 2) - x (j + 1) := fun j hj =>
    ⟨sub_pos.2 (hk j (by omega)), sub_pos.2 (hk (j + 1) (by omega))⟩
  have hbound : ∀ j, j ≤ m → -1 ≤ w.ydd j ∧ w.ydd j ≤ 0 := by
    intro j
    induction j with
    | zero => intro _; rw [w00.1]; exact hd
    | succ j ih =>
      intro hj
      have hb := ih (by omega)
      have hp := hpos j (by omega)
      have h := (hF.2 (j + 1) (by omega) (by omega)).1
      rw [Nat.add_sub_cancel] at h
      rw [h]
      have hs0 : 0 < (x (j + 1) - x j) / (x (j + 1 + 1) - x j) := div_pos hp.1 (by linarith)
      have hs1 : (x (j + 1) - x j) / (x (j + 1 + 1) - x j) < 1 := by
        rw [div_lt_one (by linarith)]; linarith [hp.2]
      generalize (x (j + 1) - x j) / (x (j + 1 + 1) - x j) = s at hs0 hs1
      have hpp : 1 < s * w.ydd j + 2 := by nlinarith
      constructor
      · rw [le_div_iff₀ (by linarith)]; linarith
      · exact div_nonpos_of_nonpos_of_nonneg (by linarith) (by linarith)
  have hMj : ∀ j, j ≤ m → M j = w.ydd j * M (j + 1) + w.u j := by
    intro j hj
    have := hB.2 j (by omega)
    rwa [Function.update_of_ne (by omega), Function.update_of_ne (by omega)] at this
  refine ⟨?_, ?_, ?_⟩
  · have := hMj 0 (by omega)
    rwa [w00.1, w00.2] at this
  · have h1 := hB.1 (m + 1) (by omega)
    rw [Function.update_self] at h1
    have h2 := hMj m (by omega)
    have hb := hbound m (by omega)
    have hne : qn * w.ydd m + 1 ≠ 0 := by
      have : 0 < qn * w.ydd m + 1 := by nlinarith
      exact this.ne'
    rw [eq_div_iff hne] at h1
    rw [h2]; linarith
  · intro i hi
    have hp := hpos i hi
    have hb := hbound i (by omega)
    have h := hF.2 (i + 1) (by omega) (by omega)
    rw [Nat.add_sub_cancel] at h
    simp only [show i + 1 + 1 = i + 2 by omega] at h
    have hM0 := hMj i (by omega)
    have hM1 := hMj (i + 1) (by omega)
    simp only [show i + 1 + 1 = i + 2 by omega] at hM1
    have hs : 0 < x (i + 2) - x i := by linarith
    have hs0 : 0 < (x (i + 1) - x i) / (x (i + 2) - x i) := div_pos hp.1 hs
    have hs1 : (x (i + 1) - x i) / (x (i + 2) - x i) < 1 := by
      rw [div_lt_one hs]; linarith [hp.2]
    have hsx : (x (i + 1) - x i) / (x (i + 2) - x i) * (x (i + 2) - x i) = x (i + 1) - x i :=
      div_mul_cancel₀ _ hs.ne'
    generalize (x (i + 1) - x i) / (x (i + 2) - x i) = s at h hs0 hs1 hsx
    generalize (y (i + 2) - y (i + 1)) / (x (i + 2) - x (i + 1)) - (y (i + 1) - y i) / (x (i + 1) - x i) = R at h ⊢
    have hpp : s * w.ydd i + 2 ≠ 0 := by
      have : 1 < s * w.ydd i + 2 := by nlinarith
      linarith
    have h1 := h.1; have h2 := h.2
    rw [eq_div_iff hpp] at h1 h2
    have hR : 6 * R / (x (i + 2) - x i) * (x (i + 2) - x i) = 6 * R := div_mul_cancel₀ _ hs.ne'
    generalize 6 * R / (x (i + 2) - x i) = Q at h2 hR
    have key : s * M i + 2 * M (i + 1) + (1 - s) * M (i + 2) = Q := by
      rw [hM0]
      have : (s * w.ydd i + 2) * M (i + 1) = (s - 1) * M (i + 2) + (Q - s * w.u i) := by
        rw [hM1]
        linear_combination M (i + 2) * h1 + h2
      linarith
    rw [← hR, ← key]
    linear_combination (M (i + 2) - M i) * hsx

end Ecl.CubicSpline

namespace Ecl.CubicSpline
open Ecl Ecl.Poly Ecl.Glue Ecl.Spec Set

/-- End values of a piece given by second derivatives. -/
theorem second_piece {xi yi zi xf yf zf : ℝ} (h : xi < xf) :
    ∃ c, cubicSecondDerivativeInterpolation xi yi zi xf yf zf = .ok c ∧
      eval 3 c xi = yi ∧ eval 3 c xf = yf ∧
      eval 2 (derivative 3 c) xi = (yf - yi) / (xf - xi) - (xf - xi) * (2 * zi + zf) / 6 ∧
      eval 2 (derivative 3 c) xf = (yf - yi) / (xf - xi) + (xf - xi) * (zi + 2 * zf) / 6 ∧
      eval 1 (derivative 2 (derivative 3 c)) xi = zi ∧ eval 1 (derivative 2 (derivative 3 c)) xf = zf := by
  have hd : xf - xi ≠ 0 := (sub_pos.2 h).ne'
  unfold cubicSecondDerivativeInterpolation
  obtain ⟨c', hc, h0, h1, h2⟩ := shiftUnlessZero_spec (n := 3) (by omega) _ xi
  have h1' : ∀ x, eval 2 (derivative 3 c') x = derivativeAt 3 c' x := fun x => rfl
  have h2' : ∀ x, eval 1 (derivative 2 (derivative 3 c')) x = dderivativeAt 3 c' x := fun x => rfl
  refine ⟨c', hc, ?_, ?_, ?_, ?_, ?_, ?_⟩
  · rw [h0]; simp [eval, evalLoop, ofList]
  · rw [h0]; simp [eval, evalLoop, ofList]; field_simp; ring
  · rw [h1', h1]; simp [derivativeAt, derivative, eval, evalLoop, ofList]; field_simp; ring
  · rw [h1', h1]; simp [derivativeAt, derivative, eval, evalLoop, ofList]; field_simp; ring
  · rw [h2', h2]; simp [dderivativeAt, derivative, eval, evalLoop, ofList]; field_simp
  · rw [h2', h2]; simp [dderivativeAt, derivative, eval, evalLoop, ofList]; field_simp; ring

/-- End values of a piece given by slopes. -/
theorem slope_piece {xi yi zi xf yf zf : ℝ} (h : xi < xf) :
    ∃ c, cubicDerivativeInterpolation xi yi zi xf yf zf = .ok c ∧
      eval 3 c xi = yi ∧ eval 3 c xf = yf ∧
      eval 2 (derivative 3 c) xi = zi ∧ eval 2 (derivative 3 c) xf = zf := by
  have hd : xf - xi ≠ 0 := (sub_pos.2 h).ne'
  unfold cubicDerivativeInterpolation
  obtain ⟨c', hc, h0, h1, -⟩ := shiftUnlessZero_spec (n := 3) (by omega) _ xi
  have h1' : ∀ x, eval 2 (derivative 3 c') x = derivativeAt 3 c' x := fun x => rfl
  refine ⟨c', hc, ?_, ?_, ?_, ?_⟩
  · rw [h0]; simp [eval, evalLoop, ofList]
  · rw [h0]; simp [eval, evalLoop, ofList]; field_simp; ring
  · rw [h1', h1]; simp [derivativeAt, derivative, eval, evalLoop, ofList]
  · rw [h1', h1]; simp [derivativeAt, derivative, eval, evalLoop, ofList]; field_simp; ring

theorem head_at {xs : List ℝ} {a : ℝ} (h : xs.head? = some a) : at' xs 0 = a := by
  cases xs with
  | nil => simp at h
  | cons b l => simpa [at'] using h

theorem last_at {xs : List ℝ} {b : ℝ} {m : ℕ} (hm : xs.length = m + 1) (h : xs.getLast? = some b) :
    at' xs m = b := by
  rw [List.getLast?_eq_getElem?, hm, Nat.add_sub_cancel] at h
  rw [at', List.getD_eq_getElem?_getD, h]; rfl

theorem at_getElem {xs : List ℝ} {i : ℕ} (h : i < xs.length) : at' xs i = xs[i] := by
  rw [at', List.getD_eq_getElem _ _ h]

/-- A call that serves a joined family of pieces takes their end values at the knots. -/
theorem at_knots {t : ℕ → ℝ} {m : ℕ} {call : ℝ → Outcome ℝ} {P : ℕ → ℝ → ℝ} (hk : Knots t (m + 1))
    (h : Serves t m call P) (hj : Joins t m P) {z : ℕ → ℝ}
    (hl : ∀ k, k < m + 1 → P k (t k) = z k) (hr : ∀ k, k < m + 1 → P k (t (k + 1)) = z (k + 1)) :
    ∀ i, i ≤ m + 1 → call (t i) = .ok (z i) := by
  intro i hi
  rcases Nat.lt_or_ge i (m + 1) with h1 | h1
  · rw [h.on_segment hk.rising hj h1 ⟨le_refl _, (hk i h1).le⟩, hl i h1]
  · have e : i = m + 1 := by omega
    subst e
    rw [h.on_segment hk.rising hj (k := m) (by omega) ⟨(hk m (by omega)).le, le_refl _⟩, hr m (by omega)]

/-- Second derivatives that satisfy the continuity equations give a spline of class C². -/
theorem applyC2_spec (mode : Mode) {xs ys : List ℝ} {m : ℕ} (hm : xs.length = m + 2)
    (hk : Knots (at' xs) (m + 1)) {M : ℕ → ℝ}
    (hM : ∀ i, i < m → (at' xs (i + 1) - at' xs i) * M i + 2 * (at' xs (i + 2) - at' xs i) * M (i + 1) +
      (at' xs (i + 2) - at' xs (i + 1)) * M (i + 2) =
        6 * ((at' ys (i + 2) - at' ys (i + 1)) / (at' xs (i + 2) - at' xs (i + 1)) -
          (at' ys (i + 1) - at' ys i) / (at' xs (i + 1) - at' xs i))) :
    ∃ s, applyC2 xs ys M = .ok s ∧
      TwiceSmooth (value mode s) (slope mode s) (curvature mode s) (at' xs 0) (at' xs (m + 1)) ∧
      (∀ i, i ≤ m + 1 → value mode s (at' xs i) = .ok (at' ys i)) ∧
      (∀ i, i ≤ m + 1 → curvature mode s (at' xs i) = .ok (M i)) ∧
      slope mode s (at' xs 0) =
        .ok ((at' ys 1 - at' ys 0) / (at' xs 1 - at' xs 0) - (at' xs 1 - at' xs 0) * (2 * M 0 + M 1) / 6) ∧
      slope mode s (at' xs (m + 1)) =
        .ok ((at' ys (m + 1) - at' ys m) / (at' xs (m + 1) - at' xs m) +
          (at' xs (m + 1) - at' xs m) * (M m + 2 * M (m + 1)) / 6) := by
  have hlen : xs.length - 1 = m + 1 := by omega
  have piece := fun i (hi : i < m + 1) => second_piece (yi := at' ys i) (zi := M i)
    (yf := at' ys (i + 1)) (zf := M (i + 1)) (hk i hi)
  obtain ⟨ps, h1, h2, h3⟩ := polynomials_spec (mk := fun i => cubicSecondDerivativeInterpolation (at' xs i) (at' ys i) (M i)
    (at' xs (i + 1)) (at' ys (i + 1)) (M (i + 1))) (m + 1) 0 (by
      intro j hj
      obtain ⟨c, hc, _⟩ := piece j hj
      exact ⟨c, by rw [Nat.zero_add]; exact hc⟩)
  have h3' : ∀ j, ∃ c, j < m + 1 → ps[j]? = some c ∧
      eval 3 c (at' xs j) = at' ys j ∧ eval 3 c (at' xs (j + 1)) = at' ys (j + 1) ∧
      eval 2 (derivative 3 c) (at' xs j) = (at' ys (j + 1) - at' ys j) / (at' xs (j + 1) - at' xs j) -
        (at' xs (j + 1) - at' xs j) * (2 * M j + M (j + 1)) / 6 ∧
      eval 2 (derivative 3 c) (at' xs (j + 1)) = (at' ys (j + 1) - at' ys j) / (at' xs (j + 1) - at' xs j) +
        (at' xs (j + 1) - at' xs j) * (M j + 2 * M (j + 1)) / 6 ∧
      eval 1 (derivative 2 (derivative 3 c)) (at' xs j) = M j ∧
      eval 1 (derivative 2 (derivative 3 c)) (at' xs (j + 1)) = M (j + 1) := by
    intro j
    by_cases hj : j < m + 1
    · obtain ⟨c, hc1, hc2⟩ := h3 j hj
      obtain ⟨c', hc', hrest⟩ := piece j hj
      rw [Nat.zero_add] at hc2
      simp only [hc', Outcome.ok.injEq] at hc2
      subst hc2
      exact ⟨c', fun _ => ⟨hc1, hrest⟩⟩
    · exact ⟨fun _ => 0, fun h => absurd h hj⟩
  choose c hc using h3'
  have happ : applyC2 xs ys M = .ok ⟨xs, ps⟩ := by
    unfold applyC2
    rw [hlen, h1]; rfl
  obtain ⟨sv, sd, sc⟩ := serves mode hm hk (ps := ps) (c := c) (fun k hk' => (hc k hk').1)
  have jv : Joins (at' xs) m (fun k x => eval 3 (c k) x) := by
    intro k hk'
    show eval 3 (c k) (at' xs (k + 1)) = eval 3 (c (k + 1)) (at' xs (k + 1))
    rw [(hc k (by omega)).2.2.1, (hc (k + 1) (by omega)).2.1]
  have jd : Joins (at' xs) m (fun k x => eval 2 (derivative 3 (c k)) x) := by
    intro k hk'
    show eval 2 (derivative 3 (c k)) (at' xs (k + 1)) = eval 2 (derivative 3 (c (k + 1))) (at' xs (k + 1))
    rw [(hc k (by omega)).2.2.2.2.1, (hc (k + 1) (by omega)).2.2.2.1]
    have := hM k hk'
    simp only [show k + 1 + 1 = k + 2 by omega]
    linarith
  have jc : Joins (at' xs) m (fun k x => eval 1 (derivative 2 (derivative 3 (c k))) x) := by
    intro k hk'
    show eval 1 (derivative 2 (derivative 3 (c k))) (at' xs (k + 1)) =
      eval 1 (derivative 2 (derivative 3 (c (k + 1)))) (at' xs (k + 1))
    rw [(hc k (by omega)).2.2.2.2.2.2, (hc (k + 1) (by omega)).2.2.2.2.2.1]
  refine ⟨_, happ, ?_, ?_, ?_, ?_, ?_⟩
  · exact twiceSmooth_of_pieces hk.rising sv sd sc jv jd jc (fun k _ x => hasDerivAt_eval3 _ x)
      (fun k _ x => hasDerivAt_eval2 _ x) (fun k _ => continuous_eval 1 _)
  · exact at_knots hk sv jv (fun k hk' => (hc k hk').2.1) (fun k hk' => (hc k hk').2.2.1)
  · exact at_knots hk sc jc (fun k hk' => (hc k hk').2.2.2.2.2.1) (fun k hk' => (hc k hk').2.2.2.2.2.2)
  · rw [sd.on_segment hk.rising jd (k := 0) (by omega) ⟨le_refl _, (hk 0 (by omega)).le⟩, (hc 0 (by omega)).2.2.2.1]
  · rw [sd.on_segment hk.rising jd (k := m) (by omega) ⟨(hk m (by omega)).le, le_refl _⟩, (hc m (by omega)).2.2.2.2.1]

/-- Slopes at the knots give a spline of class C¹. -/
theorem applyHeuristic_spec (mode : Mode) {xs ys : List ℝ} {m : ℕ} (hm : xs.length = m + 2)
    (hk : Knots (at' xs) (m + 1)) (D : ℕ → ℝ) :
    ∃ s, applyHeuristic xs ys D = .ok s ∧
      OnceSmooth (value mode s) (slope mode s) (at' xs 0) (at' xs (m + 1)) ∧
      (∀ i, i ≤ m + 1 → value mode s (at' xs i) = .ok (at' ys i)) ∧
      (∀ i, i ≤ m + 1 → slope mode s (at' xs i) = .ok (D i)) := by
  have hlen : xs.length - 1 = m + 1 := by omega
  have piece := fun i (hi : i < m + 1) => slope_piece (yi := at' ys i) (zi := D i)
    (yf := at' ys (i + 1)) (zf := D (i + 1)) (hk i hi)
  obtain ⟨ps, h1, h2, h3⟩ := polynomials_spec (mk := fun i => cubicDerivativeInterpolation (at' xs i) (at' ys i) (D i)
    (at' xs (i + 1)) (at' ys (i + 1)) (D (i + 1))) (m + 1) 0 (by
      intro j hj
      obtain ⟨c, hc, _⟩ := piece j hj
      exact ⟨c, by rw [Nat.zero_add]; exact hc⟩)
  have h3' : ∀ j, ∃ c, j < m + 1 → ps[j]? = some c ∧
      eval 3 c (at' xs j) = at' ys j ∧ eval 3 c (at' xs (j + 1)) = at' ys (j + 1) ∧
      eval 2 (derivative 3 c) (at' xs j) = D j ∧ eval 2 (derivative 3 c) (at' xs (j + 1)) = D (j + 1) := by
    intro j
    by_cases hj : j < m + 1
    · obtain ⟨c, hc1, hc2⟩ := h3 j hj
      obtain ⟨c', hc', hrest⟩ := piece j hj
      rw [Nat.zero_add] at hc2
      simp only [hc', Outcome.ok.injEq] at hc2
      subst hc2
      exact ⟨c', fun _ => ⟨hc1, hrest⟩⟩
    · exact ⟨fun _ => 0, fun h => absurd h hj⟩
  choose c hc using h3'
  have happ : applyHeuristic xs ys D = .ok ⟨xs, ps⟩ := by
    unfold applyHeuristic
    rw [hlen, h1]; rfl
  obtain ⟨sv, sd, -⟩ := serves mode hm hk (ps := ps) (c := c) (fun k hk' => (hc k hk').1)
  have jv : Joins (at' xs) m (fun k x => eval 3 (c k) x) := by
    intro k hk'
    show eval 3 (c k) (at' xs (k + 1)) = eval 3 (c (k + 1)) (at' xs (k + 1))
    rw [(hc k (by omega)).2.2.1, (hc (k + 1) (by omega)).2.1]
  have jd : Joins (at' xs) m (fun k x => eval 2 (derivative 3 (c k)) x) := by
    intro k hk'
    show eval 2 (derivative 3 (c k)) (at' xs (k + 1)) = eval 2 (derivative 3 (c (k + 1))) (at' xs (k + 1))
    rw [(hc k (by omega)).2.2.2.2, (hc (k + 1) (by omega)).2.2.2.1]
  refine ⟨_, happ, ?_, ?_, ?_⟩
  · exact onceSmooth_of_pieces hk.rising sv sd jv jd (fun k _ x => hasDerivAt_eval3 _ x)
      (fun k _ => continuous_eval 2 _)
  · exact at_knots hk sv jv (fun k hk' => (hc k hk').2.1) (fun k hk' => (hc k hk').2.2.1)
  · exact at_knots hk sd jd (fun k hk' => (hc k hk').2.2.2.1) (fun k hk' => (hc k hk').2.2.2.2)

theorem heuristicLoop_spec (x y : ℕ → ℝ) : ∀ (left i : ℕ) (yd : ℕ → ℝ) (j : ℕ),
    heuristicLoop x y left i yd j =
      if i ≤ j ∧ j < i + left then
        ((y j - y (j - 1)) / (x j - x (j - 1)) + (y (j + 1) - y j) / (x (j + 1) - x j)) / 2
      else yd j := by
  intro left
  induction left with
  | zero => intro i yd j; rw [heuristicLoop, if_neg (by omega)]
  | succ left ih =>
    intro i yd j
    rw [heuristicLoop, ih]
    by_cases h : j = i
    · subst h
      rw [if_neg (by omega), if_pos (by omega), Function.update_self]
    · by_cases h' : i + 1 ≤ j ∧ j < i + 1 + left
      · rw [if_pos h', if_pos (by omega)]
      · rw [if_neg h', if_neg (by omega), Function.update_of_ne h]

end Ecl.CubicSpline
