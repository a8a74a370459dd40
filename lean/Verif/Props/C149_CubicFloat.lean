import Verif.Lemmas.CubicFloat
import Verif.Lemmas.CubicSingle
import Verif.Lemmas.Double
import Mathlib.Tactic.NormNum

/-! # C149: roots of cubics in floating point arithmetic -/
set_option autoImplicit false
set_option linter.unusedSimpArgs false

namespace Ecl.Props
open Ecl Ecl.CubicFloat Ecl.Spec
open Ecl.Poly (Coeffs ofList)
open Ecl.PolyFloat (round_to round_factor isFloat_int)

namespace C149

theorem eval_iff (c : ℕ → ℝ) (h3 : c 3 ≠ 0) (x : ℝ) : (toPoly 3 c).eval x = 0 ↔
    some x ∈ Poly.depressedRoots (depressedP c) (depressedQ c)
      (depressedP c * depressedP c * depressedP c / 27 + depressedQ c * depressedQ c / 4) (-c 2 / (3 * c 3)) := by
  have e : (toPoly 3 c).eval x = c 0 + c 1 * x + c 2 * x ^ 2 + c 3 * x ^ 3 := by
    rw [Poly.eval_toPoly, Poly.eval_eq_sum]
    simp [Finset.sum_range_succ]
  have hp : (3 * c 3 * c 1 - c 2 * c 2) / (3 * c 3 * c 3) = depressedP c := by rw [depressedP]; ring_nf
  have hq : (2 * c 2 * c 2 * c 2 - 9 * c 3 * c 2 * c 1 + 27 * c 3 * c 3 * c 0) / (27 * c 3 * c 3 * c 3) = depressedQ c := by
    rw [depressedQ]; ring_nf
  rw [e, Poly.cubic_as_depressed h3, hp, hq, mul_eq_zero, or_iff_right h3, ← Poly.mem_depressedRoots, sub_add_cancel]

/-- One real root if the discriminant is positive. -/
theorem one_root (c : ℕ → ℝ) (h3 : c 3 ≠ 0) (hd : 0 < cardano c) (hq : depressedQ c ≠ 0) :
    {x : ℝ | (toPoly 3 c).eval x = 0}.ncard = 1 := by
  have hd' : 0 < depressedP c * depressedP c * depressedP c / 27 + depressedQ c * depressedQ c / 4 := by
    have : cardano c = depressedP c * depressedP c * depressedP c / 27 + depressedQ c * depressedQ c / 4 := by
      rw [cardano]; ring
    rwa [← this]
  obtain ⟨r, hr⟩ : ∃ r, Poly.depressedRoots (depressedP c) (depressedQ c)
      (depressedP c * depressedP c * depressedP c / 27 + depressedQ c * depressedQ c / 4) (-c 2 / (3 * c 3)) =
      [some r] := by
    unfold Poly.depressedRoots
    rw [if_neg (fun h => hq h.2), if_neg hq, if_neg hd'.ne', if_pos hd'.le]
    split
    · exact ⟨_, rfl⟩
    · exact ⟨_, rfl⟩
  rw [Set.ncard_eq_one]
  refine ⟨r, ?_⟩
  ext x
  rw [Set.mem_setOf_eq, eval_iff c h3, hr]
  simp

/-- Three real roots if it is negative. -/
theorem three_roots (c : ℕ → ℝ) (h3 : c 3 ≠ 0) (hd : cardano c < 0) :
    {x : ℝ | (toPoly 3 c).eval x = 0}.ncard = 3 := by
  have hd' : depressedP c * depressedP c * depressedP c / 27 + depressedQ c * depressedQ c / 4 < 0 := by
    have : cardano c = depressedP c * depressedP c * depressedP c / 27 + depressedQ c * depressedQ c / 4 := by
      rw [cardano]; ring
    rwa [← this]
  have hp : depressedP c < 0 := by
    by_contra h
    have h := not_lt.1 h
    have : 0 ≤ depressedP c * depressedP c * depressedP c / 27 + depressedQ c * depressedQ c / 4 := by
      have := mul_self_nonneg (depressedQ c)
      positivity
    linarith
  have hn := Poly.nodup_depressedRoots (depressedP c) (depressedQ c) (-c 2 / (3 * c 3)) (fun h => by linarith [h.2])
  obtain ⟨r, s, t, hr⟩ : ∃ r s t, Poly.depressedRoots (depressedP c) (depressedQ c)
      (depressedP c * depressedP c * depressedP c / 27 + depressedQ c * depressedQ c / 4) (-c 2 / (3 * c 3)) =
      [some r, some s, some t] := by
    unfold Poly.depressedRoots
    rw [if_neg (fun h => hp.ne h.1), if_neg hp.ne]
    split
    · rw [Poly.fsqrt, if_neg (by linarith)]
      exact ⟨_, _, _, rfl⟩
    · rw [if_neg hd'.ne, if_neg (not_le.2 hd')]
      exact ⟨_, _, _, rfl⟩
  rw [hr] at hn
  simp only [List.nodup_cons, List.mem_cons, List.not_mem_nil, or_false, Option.some.injEq, not_or, List.nodup_nil,
    not_false_eq_true, and_true] at hn
  rw [Set.ncard_eq_three]
  refine ⟨r, s, t, hn.1.1, hn.1.2, hn.2, ?_⟩
  ext x
  rw [Set.mem_setOf_eq, eval_iff c h3, hr]
  simp

/-- The argument of `acos` stays in `[-1, 1]` if the discriminant is not close to zero. -/
theorem cosine_le {fl : ℝ → ℝ} (hfl : Rounds 53 fl) {p q : ℝ} (hp : p < 0)
    (h : p ^ 3 / 27 + q ^ 2 / 4 ≤ 1 / 2 ^ 53 * (19 * p ^ 3 / 27)) : |cosine fl p q| ≤ 1 := by
  unfold cosine
  obtain ⟨e1, b1, h1⟩ := round_factor hfl (by norm_num) (3 * q)
  obtain ⟨e2, b2, h2⟩ := round_factor hfl (by norm_num) (fl (3 * q) / (2 * p))
  obtain ⟨e3, b3, h3⟩ := round_factor hfl (by norm_num) (-3 / p)
  obtain ⟨e4, b4, h4⟩ := round_factor hfl (by norm_num) (Real.sqrt (fl (-3 / p)))
  obtain ⟨e5, b5, h5⟩ := round_factor hfl (by norm_num) (fl (fl (3 * q) / (2 * p)) * fl (Real.sqrt (fl (-3 / p))))
  have hpos : 0 ≤ fl (-3 / p) :=
    hfl.ge (isFloat_zero 53) (div_nonneg_of_nonpos (by norm_num) hp.le)
  have hs := Real.sq_sqrt hpos
  rw [← sq_le_one_iff_abs_le_one, h5, h4, h2, h1]
  generalize Real.sqrt (fl (-3 / p)) = s at *
  rw [h3] at hs
  have hu : (0 : ℝ) ≤ 1 / 2 ^ 53 := by positivity
  have hu' : (1 : ℝ) / 2 ^ 53 ≤ 1 / 1000 := by norm_num
  have h9 : (1 + 1 / 2 ^ 53 : ℝ) ^ 9 ≤ 1 + 10 * (1 / 2 ^ 53) := by norm_num
  clear h1 h2 h3 h4 h5 hpos hfl
  generalize (1 : ℝ) / 2 ^ 53 = u at *
  have hp3 : 0 < -(p ^ 3) := by
    have : 0 < (-p) ^ 3 := pow_pos (by linarith) 3
    linarith [show (-p) ^ 3 = -(p ^ 3) by ring]
  have e : ((3 * q * (1 + e1) / (2 * p) * (1 + e2)) * (s * (1 + e4)) * (1 + e5)) ^ 2 =
      27 * q ^ 2 / (4 * -(p ^ 3)) * ((1 + e1) ^ 2 * (1 + e2) ^ 2 * (1 + e3) * (1 + e4) ^ 2 * (1 + e5) ^ 2) := by
    rw [show ((3 * q * (1 + e1) / (2 * p) * (1 + e2)) * (s * (1 + e4)) * (1 + e5)) ^ 2 =
      (3 * q * (1 + e1) / (2 * p) * (1 + e2)) ^ 2 * (s ^ 2) * (1 + e4) ^ 2 * (1 + e5) ^ 2 by ring, hs]
    have := hp.ne
    field_simp
    ring
  rw [e]
  have hX : 27 * q ^ 2 / (4 * -(p ^ 3)) ≤ 1 - 19 * u := by
    rw [div_le_iff₀ (by linarith)]
    linarith
  have f (e : ℝ) (b : |e| ≤ u) : 0 ≤ 1 + e ∧ 1 + e ≤ 1 + u := by
    have := abs_le.1 b
    exact ⟨by linarith, by linarith⟩
  have f2 (e : ℝ) (b : |e| ≤ u) : (1 + e) ^ 2 ≤ (1 + u) ^ 2 := pow_le_pow_left₀ (f e b).1 (f e b).2 2
  have hF : (1 + e1) ^ 2 * (1 + e2) ^ 2 * (1 + e3) * (1 + e4) ^ 2 * (1 + e5) ^ 2 ≤ (1 + u) ^ 9 := by
    have g3 := f e3 b3
    calc (1 + e1) ^ 2 * (1 + e2) ^ 2 * (1 + e3) * (1 + e4) ^ 2 * (1 + e5) ^ 2
        ≤ (1 + u) ^ 2 * (1 + u) ^ 2 * (1 + u) * (1 + u) ^ 2 * (1 + u) ^ 2 := by
          have := f2 e1 b1
          have := f2 e2 b2
          have := f2 e4 b4
          have := f2 e5 b5
          have := g3.1
          have := g3.2
          gcongr
      _ = (1 + u) ^ 9 := by ring
  have hF0 : 0 ≤ (1 + e1) ^ 2 * (1 + e2) ^ 2 * (1 + e3) * (1 + e4) ^ 2 * (1 + e5) ^ 2 := by
    have := (f e3 b3).1
    positivity
  have hF1 := hF.trans h9
  generalize (1 + e1) ^ 2 * (1 + e2) ^ 2 * (1 + e3) * (1 + e4) ^ 2 * (1 + e5) ^ 2 = F at *
  have t1 := mul_le_mul_of_nonneg_right hX hF0
  have t2 : (1 - 19 * u) * F ≤ (1 - 19 * u) * (1 + 10 * u) := mul_le_mul_of_nonneg_left hF1 (by linarith)
  nlinarith

end C149

/-- **C149.** As many numbers are returned as a cubic has real roots, none of them NaN, unless the discriminant is below
`64 / 2^53` of the sum of its terms, or it is positive and `q` below `13 / 2^53` of the sum of its terms.

Missing from the full statement: multiple roots and roots close to each other, see `C149_fails_lost` and
`C149_fails_nan`. -/
theorem C149_count_partial {fl : ℝ → ℝ} (hfl : Rounds 53 fl) (m : Libm) (c : ℕ → ℝ) (h3 : c 3 ≠ 0)
    (hd : 64 / 2 ^ 53 * sizeCardano c < |cardano c|)
    (hq : 0 < cardano c → 13 / 2 ^ 53 * sizeQ c < |depressedQ c|) :
    none ∉ cubicRoots fl m c ∧ (cubicRoots fl m c).length = {x : ℝ | (toPoly 3 c).eval x = 0}.ncard := by
  have np := p_near hfl c h3
  have nq := q_near hfl c h3
  obtain ⟨n28, n24⟩ := discriminant_near hfl np nq
  unfold cubicRoots
  simp only [if_neg h3]
  change Near 28 (sizeCardano c) _ (cardano c) at n28
  change Near 24 (sizeCardano c) _ (cardano c) at n24
  generalize p fl (c 3) (c 2) (c 1) = p' at *
  generalize q fl (c 3) (c 2) (c 1) (c 0) = q' at *
  generalize fl (-c 2 / fl (3 * c 3)) = shift
  have hT0 : 0 ≤ sizeCardano c := (abs_nonneg _).trans n28.size
  have hQ0 : 0 ≤ sizeQ c := (abs_nonneg _).trans nq.size
  have hP0 : 0 ≤ sizeP c := (abs_nonneg _).trans np.size
  have k28 : |discriminant fl p' q' - cardano c| ≤ 29 / 2 ^ 53 * sizeCardano c :=
    n28.err.trans (mul_le_mul_of_nonneg_right (by norm_num) hT0)
  have k24 : |p' ^ 3 / 27 + q' ^ 2 / 4 - cardano c| ≤ 25 / 2 ^ 53 * sizeCardano c :=
    n24.err.trans (mul_le_mul_of_nonneg_right (by norm_num) hT0)
  have k12 : |q' - depressedQ c| ≤ 13 / 2 ^ 53 * sizeQ c :=
    nq.err.trans (mul_le_mul_of_nonneg_right (by norm_num) hQ0)
  have e28 : (29 : ℝ) / 2 ^ 53 * sizeCardano c ≤ 64 / 2 ^ 53 * sizeCardano c :=
    mul_le_mul_of_nonneg_right (by norm_num) hT0
  have e24 : (25 : ℝ) / 2 ^ 53 * sizeCardano c + 39 / 2 ^ 53 * sizeCardano c = 64 / 2 ^ 53 * sizeCardano c := by ring
  have h39 : 0 ≤ (39 : ℝ) / 2 ^ 53 * sizeCardano c := by positivity
  have k28' := abs_le.1 k28
  have k24' := abs_le.1 k24
  rcases lt_or_ge 0 (cardano c) with hpos | hneg
  · rw [abs_of_pos hpos] at hd
    have hq0 : depressedQ c ≠ 0 := by
      intro h
      have := hq hpos
      rw [h, abs_zero] at this
      have : 0 ≤ (13 : ℝ) / 2 ^ 53 * sizeQ c := by positivity
      linarith
    have hq' : q' ≠ 0 := by
      intro h
      rw [h, zero_sub, abs_neg] at k12
      linarith [hq hpos]
    have hd' : 0 < discriminant fl p' q' := by linarith
    rw [C149.one_root c h3 hpos hq0]
    unfold roots
    rw [if_neg (fun h => hq' h.2), if_neg hq', if_neg hd'.ne', if_pos hd'.le]
    split <;> simp
  · rw [abs_of_nonpos hneg] at hd
    have hneg' : cardano c < 0 := by
      have : 0 ≤ (64 : ℝ) / 2 ^ 53 * sizeCardano c := by positivity
      linarith
    have hd' : discriminant fl p' q' < 0 := by linarith
    have hp' : p' < 0 := by
      by_contra h
      have h := not_lt.1 h
      have : 0 ≤ p' ^ 3 / 27 + q' ^ 2 / 4 := by positivity
      linarith
    rw [C149.three_roots c h3 hneg']
    unfold roots
    rw [if_neg (fun h => hp'.ne h.1), if_neg hp'.ne]
    split
    · rw [CubicFloat.fsqrt, if_neg (by linarith)]
      simp
    · rw [if_neg hd'.ne, if_neg (not_le.2 hd'), if_pos]
      · simp
      · refine C149.cosine_le hfl hp' ?_
        have hpabs : -p' ≤ (1 + 1 / 2 ^ 53) ^ 8 * sizeP c := by
          have h1 := abs_sub_abs_le_abs_sub p' (depressedP c)
          have h2 := np.err
          have h4 := np.size
          rw [abs_of_neg hp'] at h1
          linarith
        have hp3 : -(p' ^ 3) ≤ 2 * sizeP c ^ 3 := by
          have h1 := pow_le_pow_left₀ (by linarith) hpabs 3
          have h2 : ((1 + 1 / 2 ^ 53 : ℝ) ^ 8 * sizeP c) ^ 3 ≤ 2 * sizeP c ^ 3 := by
            rw [mul_pow]
            exact mul_le_mul_of_nonneg_right (by norm_num) (by positivity)
          have h4 : (-p') ^ 3 = -(p' ^ 3) := by ring
          linarith
        have hTP : sizeP c ^ 3 / 27 ≤ sizeCardano c := by
          unfold sizeCardano
          have := sq_nonneg (sizeQ c)
          linarith
        have h5 : (1 : ℝ) / 2 ^ 53 * (19 * -(p' ^ 3) / 27) ≤ 39 / 2 ^ 53 * sizeCardano c := by
          rw [show (39 : ℝ) / 2 ^ 53 * sizeCardano c = 1 / 2 ^ 53 * (39 * sizeCardano c) by ring]
          exact mul_le_mul_of_nonneg_left (by linarith) (by positivity)
        have h6 : (1 : ℝ) / 2 ^ 53 * (19 * p' ^ 3 / 27) = -(1 / 2 ^ 53 * (19 * -(p' ^ 3) / 27)) := by ring
        rw [h6]
        linarith

/-- **C149.** Whenever two or three results are returned, the cubic nearly vanishes at those which are numbers: its value there
is a few hundred roundings of the terms of `p` and `q`. -/
theorem C149_residual {fl : ℝ → ℝ} (hfl : Rounds 53 fl) {m : Libm} (hm : AccurateLibm m) (c : ℕ → ℝ)
    (hn : (cubicRoots fl m c).length ≠ 1) {x : ℝ} (hx : some x ∈ cubicRoots fl m c) :
    |(toPoly 3 c).eval x| ≤ |c 3| * (1 / 2 ^ 53 * (650 * Real.sqrt (sizeP c) ^ 3 + 13 * sizeQ c)) := by
  unfold cubicRoots at hn hx
  by_cases h3 : c 3 = 0
  · simp [h3] at hx
  simp only [if_neg h3] at hn hx
  have np := p_near hfl c h3
  have nq := q_near hfl c h3
  have hP0 : 0 ≤ sizeP c := (abs_nonneg _).trans np.size
  have hQ0 : 0 ≤ sizeQ c := (abs_nonneg _).trans nq.size
  obtain ⟨r, τ, hr, hr0, hτ, hsol, hy⟩ := roots_residual hfl hm (shift_err hfl c h3) hn hx
  have hsP : 3 * (-c 2 / (3 * c 3)) ^ 2 ≤ sizeP c := by
    have e : 3 * (-c 2 / (3 * c 3)) ^ 2 = c 2 ^ 2 / (3 * c 3 ^ 2) := by field_simp
    rw [e, sizeP]
    have := abs_nonneg (c 3 * c 1)
    exact div_le_div_of_nonneg_right (by linarith) (by positivity)
  have h := residual hr hr0 hτ hsol hy (p := depressedP c) (q := depressedQ c) (P := sizeP c) (Q := sizeQ c)
    (R := Real.sqrt (sizeP c))
    (np.err.trans (mul_le_mul_of_nonneg_right (by norm_num [CubicFloat.unit]) hP0))
    (nq.err.trans (mul_le_mul_of_nonneg_right (by norm_num [CubicFloat.unit]) hQ0)) np.size hsP (Real.sqrt_nonneg _)
    (Real.sq_sqrt hP0)
  have e : (toPoly 3 c).eval x = c 3 * ((x - -c 2 / (3 * c 3)) ^ 3 + depressedP c * (x - -c 2 / (3 * c 3)) +
      depressedQ c) := by
    rw [Poly.eval_toPoly, Poly.eval_eq_sum]
    simp only [Finset.sum_range_succ, Finset.sum_range_zero, depressedP, depressedQ]
    field_simp
    ring
  rw [e, abs_mul]
  exact mul_le_mul_of_nonneg_left h (abs_nonneg _)

/-- **C149.** Where a single number is returned, the value of the cubic is at most a 512th of the terms of `p` and `q`.
It can be much larger than in `C149_residual`, see `C149_fails_accuracy`. -/
theorem C149_single {fl : ℝ → ℝ} (hfl : Rounds 53 fl) {m : Libm} (hm : AccurateLibm m) (c : ℕ → ℝ) {x : ℝ}
    (hx : cubicRoots fl m c = [some x]) :
    |(toPoly 3 c).eval x| ≤ |c 3| * (1 / 2 ^ 9 * (Real.sqrt (sizeP c) ^ 3 + sizeQ c)) := by
  unfold cubicRoots at hx
  by_cases h3 : c 3 = 0
  · simp [h3] at hx
  simp only [if_neg h3] at hx
  have np := p_near hfl c h3
  have nq := q_near hfl c h3
  have hP0 : 0 ≤ sizeP c := (abs_nonneg _).trans np.size
  have hQ0 : 0 ≤ sizeQ c := (abs_nonneg _).trans nq.size
  have pe := np.err.trans (mul_le_mul_of_nonneg_right
    (show (1 + 1 / 2 ^ 53 : ℝ) ^ 8 - 1 ≤ 9 * CubicFloat.unit by norm_num [CubicFloat.unit]) hP0)
  have qe := nq.err.trans (mul_le_mul_of_nonneg_right
    (show (1 + 1 / 2 ^ 53 : ℝ) ^ 12 - 1 ≤ 13 * CubicFloat.unit by norm_num [CubicFloat.unit]) hQ0)
  have hu := unit_small
  have pb : |p fl (c 3) (c 2) (c 1)| ≤ 1.001 * sizeP c := by
    have h1 := abs_sub_abs_le_abs_sub (p fl (c 3) (c 2) (c 1)) (depressedP c)
    have h2 := np.size
    have h4 : 9 * CubicFloat.unit * sizeP c ≤ 0.001 * sizeP c := mul_le_mul_of_nonneg_right (by linarith) hP0
    linarith
  have qb : |q fl (c 3) (c 2) (c 1) (c 0)| ≤ 1.001 * sizeQ c := by
    have h1 := abs_sub_abs_le_abs_sub (q fl (c 3) (c 2) (c 1) (c 0)) (depressedQ c)
    have h2 := nq.size
    have h4 : 13 * CubicFloat.unit * sizeQ c ≤ 0.001 * sizeQ c := mul_le_mul_of_nonneg_right (by linarith) hQ0
    linarith
  have hsP : 3 * (-c 2 / (3 * c 3)) ^ 2 ≤ sizeP c := by
    have e : 3 * (-c 2 / (3 * c 3)) ^ 2 = c 2 ^ 2 / (3 * c 3 ^ 2) := by field_simp
    rw [e, sizeP]
    have := abs_nonneg (c 3 * c 1)
    exact div_le_div_of_nonneg_right (by linarith) (by positivity)
  have hζ := Poly.cubeRoot_cube (Real.sqrt (sizeP c) ^ 3 + sizeQ c)
  have hζ0 : 0 ≤ Math.cubeRoot (Real.sqrt (sizeP c) ^ 3 + sizeQ c) := by
    by_contra h
    have h1 := pow_pos (neg_pos.2 (not_le.1 h)) 3
    rw [Odd.neg_pow (by decide), hζ] at h1
    have : 0 ≤ Real.sqrt (sizeP c) ^ 3 := by positivity
    linarith
  obtain ⟨w, h1, h2, h4⟩ := roots_single hfl hm (shift_err hfl c h3) hx pb qb (Real.sqrt_nonneg _) (Real.sq_sqrt hP0)
    hQ0 hζ0 hζ
  have h := residual_single h1 h2 h4 pe qe np.size hsP (Real.sqrt_nonneg _) (Real.sq_sqrt hP0) hQ0 hζ0 hζ
  have e : (toPoly 3 c).eval x = c 3 * ((x - -c 2 / (3 * c 3)) ^ 3 + depressedP c * (x - -c 2 / (3 * c 3)) +
      depressedQ c) := by
    rw [Poly.eval_toPoly, Poly.eval_eq_sum]
    simp only [Finset.sum_range_succ, Finset.sum_range_zero, depressedP, depressedQ]
    field_simp
    ring
  rw [e, abs_mul]
  refine mul_le_mul_of_nonneg_left (h.trans ?_) (abs_nonneg _)
  rw [hζ]
  exact mul_le_mul_of_nonneg_right (by norm_num [rough]) (by positivity)

namespace C149

theorem neg_round {fl : ℝ → ℝ} (hfl : Rounds 53 fl) {x : ℝ} (k : ℕ) (E : ℤ) (hk : k ≤ 2 ^ 53) (hk' : 2 ^ 52 < k)
    (h : |x - k * (2 : ℝ) ^ E| < (2 : ℝ) ^ E / 2) : fl (-x) = -(k * (2 : ℝ) ^ E) := by
  have := round_to hfl.flip (by norm_num) k E hk hk' h
  linarith

theorem int {fl : ℝ → ℝ} (hfl : Rounds 53 fl) (z : ℤ) (hz : |z| ≤ 2 ^ 53) : fl (z : ℝ) = z :=
  hfl.self (isFloat_int (by norm_num) hz)

end C149

/-- **C149 fails.** `x^3 + 4 x^2 - 11 x + 6` has the roots -6 and 1; one number is returned. -/
theorem C149_fails_lost {fl : ℝ → ℝ} (hfl : Rounds 53 fl) (m : Libm) :
    (∃ r, cubicRoots fl m (ofList [6, -11, 4, 1]) = [some r]) ∧
    {x : ℝ | (toPoly 3 (ofList [(6 : ℝ), -11, 4, 1])).eval x = 0} = {-6, 1} := by
  constructor
  · have i := C149.int hfl
    have hp : p fl 1 4 (-11) = -(4597424619607381 / 2 ^ 48) := by
      unfold p
      rw [show fl (3 * 1) = 3 by simpa using i 3 (by norm_num), show fl (3 * 1) = 3 by simpa using i 3 (by norm_num),
        show fl (3 * -11) = -33 by have := i (-33) (by norm_num); norm_num at this ⊢; exact this,
        show fl (4 * 4) = 16 by have := i 16 (by norm_num); norm_num at this ⊢; exact this,
        show fl (-33 - 16) = -49 by have := i (-49) (by norm_num); norm_num at this ⊢; exact this, neg_div,
        C149.neg_round hfl 4597424619607381 (-48) (by norm_num) (by norm_num) (by norm_num [abs_lt])]
      norm_num
    have hq : q fl 1 4 (-11) 6 = 7151549408278149 / 2 ^ 48 := by
      unfold q
      rw [show fl (2 * 4 * 4) = 32 by have := i 32 (by norm_num); norm_num at this ⊢; exact this,
        show fl (32 * 4) = 128 by have := i 128 (by norm_num); norm_num at this ⊢; exact this,
        show fl (9 * 1) = 9 by have := i 9 (by norm_num); norm_num at this ⊢; exact this,
        show fl (9 * 4) = 36 by have := i 36 (by norm_num); norm_num at this ⊢; exact this,
        show fl (36 * -11) = -396 by have := i (-396) (by norm_num); norm_num at this ⊢; exact this,
        show fl (128 - -396) = 524 by have := i 524 (by norm_num); norm_num at this ⊢; exact this,
        show fl (27 * 1) = 27 by have := i 27 (by norm_num); norm_num at this ⊢; exact this,
        show fl (27 * 1) = 27 by have := i 27 (by norm_num); norm_num at this ⊢; exact this,
        show fl (27 * 1) = 27 by have := i 27 (by norm_num); norm_num at this ⊢; exact this,
        show fl (27 * 6) = 162 by have := i 162 (by norm_num); norm_num at this ⊢; exact this,
        show fl (524 + 162) = 686 by have := i 686 (by norm_num); norm_num at this ⊢; exact this,
        round_to hfl (by norm_num) 7151549408278149 (-48) (by norm_num) (by norm_num) (by norm_num [abs_lt])]
      norm_num
    have hd : discriminant fl (-(4597424619607381 / 2 ^ 48)) (7151549408278149 / 2 ^ 48) = 1 / 2 ^ 44 := by
      unfold discriminant
      have h1 : fl (-(4597424619607381 / 2 ^ 48) * -(4597424619607381 / 2 ^ 48)) = 4693204299182534 / 2 ^ 44 := by
        rw [round_to hfl (by norm_num) 4693204299182534 (-44) (by norm_num) (by norm_num) (by norm_num [abs_lt])]
        norm_num
      have h2 : fl (4693204299182534 / 2 ^ 44 * -(4597424619607381 / 2 ^ 48)) = -(4790979388748836 / 2 ^ 40) := by
        rw [mul_neg, C149.neg_round hfl 4790979388748836 (-40) (by norm_num) (by norm_num) (by norm_num [abs_lt])]
        norm_num
      have h3 : fl (-(4790979388748836 / 2 ^ 40) / 27) = -(5678197794072695 / 2 ^ 45) := by
        rw [neg_div, C149.neg_round hfl 5678197794072695 (-45) (by norm_num) (by norm_num) (by norm_num [abs_lt])]
        norm_num
      have h4 : fl (7151549408278149 / 2 ^ 48 * (7151549408278149 / 2 ^ 48)) = 5678197794072697 / 2 ^ 43 := by
        rw [round_to hfl (by norm_num) 5678197794072697 (-43) (by norm_num) (by norm_num) (by norm_num [abs_lt])]
        norm_num
      have h5 : fl (-(5678197794072695 / 2 ^ 45) + 5678197794072697 / 2 ^ 43 / 4) = 1 / 2 ^ 44 := by
        rw [show (-(5678197794072695 / 2 ^ 45) + 5678197794072697 / 2 ^ 43 / 4 : ℝ) = 1 / 2 ^ 44 by norm_num]
        refine hfl.self ?_
        have := isFloat_grid (p := 53) (by norm_num) (k := 1) (E := -44) (by norm_num)
        norm_num at this ⊢
        exact this
      rw [h1, h2, h3, h4, h5]
    unfold cubicRoots
    simp only [ofList, List.getD_cons_zero, List.getD_cons_succ]
    rw [if_neg (by norm_num), hp, hq, hd]
    unfold roots
    rw [if_neg (by norm_num), if_neg (by norm_num), if_neg (by norm_num), if_neg (by norm_num), if_pos (by norm_num)]
    exact ⟨_, rfl⟩
  · ext x
    rw [Set.mem_setOf_eq, Poly.eval_toPoly, Poly.eval_eq_sum]
    simp only [Finset.sum_range_succ, Finset.sum_range_zero, ofList, List.getD_cons_zero, List.getD_cons_succ,
      Set.mem_insert_iff, Set.mem_singleton_iff]
    constructor
    · intro h
      have : (x + 6) * ((x - 1) * (x - 1)) = 0 := by linear_combination h
      rcases mul_eq_zero.1 this with h | h
      · left; linarith
      · right
        rcases mul_eq_zero.1 h with h | h <;> linarith
    · rintro (rfl | rfl) <;> norm_num

/-- **C149 fails.** `x^3 - 10637067 x + 13353064774` has the roots 1883 and -3766; three NaN are returned, for rounding
takes the argument of `acos` below -1. -/
theorem C149_fails_nan {fl : ℝ → ℝ} (hfl : Rounds 53 fl) (m : Libm) :
    cubicRoots fl m (ofList [13353064774, -10637067, 0, 1]) = [none, none, none] ∧
    {x : ℝ | (toPoly 3 (ofList [(13353064774 : ℝ), -10637067, 0, 1])).eval x = 0} = {1883, -3766} := by
  constructor
  · have i := C149.int hfl
    have h0 : fl 0 = 0 := hfl.self (isFloat_zero 53)
    have hp : p fl 1 0 (-10637067) = -10637067 := by
      unfold p
      rw [show fl (3 * 1) = 3 by simpa using i 3 (by norm_num), show fl (3 * 1) = 3 by simpa using i 3 (by norm_num),
        show fl (3 * -10637067) = -31911201 by have := i (-31911201) (by norm_num); norm_num at this ⊢; exact this,
        mul_zero, h0, sub_zero,
        show fl (-31911201) = -31911201 by have := i (-31911201) (by norm_num); norm_num at this ⊢; exact this]
      have := i (-10637067) (by norm_num)
      norm_num at this ⊢
      exact this
    have hq : q fl 1 0 (-10637067) 13353064774 = 13353064774 := by
      unfold q
      rw [mul_zero, h0, mul_zero, h0, zero_mul, h0, sub_zero, h0,
        show fl (27 * 1) = 27 by have := i 27 (by norm_num); norm_num at this ⊢; exact this,
        show fl (27 * 1) = 27 by have := i 27 (by norm_num); norm_num at this ⊢; exact this,
        show fl (27 * 1) = 27 by have := i 27 (by norm_num); norm_num at this ⊢; exact this,
        show fl (27 * 13353064774) = 360532748898 by
          have := i 360532748898 (by norm_num); norm_num at this ⊢; exact this,
        show fl (0 + 360532748898) = 360532748898 by
          have := i 360532748898 (by norm_num); norm_num at this ⊢; exact this]
      have := i 13353064774 (by norm_num)
      norm_num at this ⊢
      exact this
    have hd : discriminant fl (-10637067) 13353064774 = -8192 := by
      unfold discriminant
      have h1 : fl (-10637067 * -10637067) = 113147194362489 := by
        have := i 113147194362489 (by norm_num)
        norm_num at this ⊢
        exact this
      have h2 : fl (113147194362489 * -10637067) = -(4591195248778602 * 2 ^ 18) := by
        rw [mul_neg, C149.neg_round hfl 4591195248778602 18 (by norm_num) (by norm_num) (by norm_num [abs_lt])]
        norm_num
      have h3 : fl (-(4591195248778602 * 2 ^ 18) / 27) = -(5441416591145010 * 2 ^ 13) := by
        rw [neg_div, C149.neg_round hfl 5441416591145010 13 (by norm_num) (by norm_num) (by norm_num [abs_lt])]
        norm_num
      have h4 : fl (13353064774 * 13353064774) = 5441416591145009 * 2 ^ 15 := by
        rw [round_to hfl (by norm_num) 5441416591145009 15 (by norm_num) (by norm_num) (by norm_num [abs_lt])]
        norm_num
      rw [h1, h2, h3, h4]
      have := i (-8192) (by norm_num)
      norm_num at this ⊢
      exact this
    have hc : cosine fl (-10637067) 13353064774 = -(4503599627370497 / 2 ^ 52) := by
      unfold cosine
      have h1 : fl (3 * 13353064774) = 40059194322 := by
        have := i 40059194322 (by norm_num)
        norm_num at this ⊢
        exact this
      have h2 : fl (40059194322 / (2 * -10637067)) = -1883 := by
        have := i (-1883) (by norm_num)
        norm_num at this ⊢
        exact this
      have h3 : fl (-3 / -10637067) = 5327445788809617 / 2 ^ 74 := by
        rw [round_to hfl (by norm_num) 5327445788809617 (-74) (by norm_num) (by norm_num) (by norm_num [abs_lt])]
        norm_num
      have h4 : fl (Real.sqrt (5327445788809617 / 2 ^ 74)) = 4898232627113530 / 2 ^ 63 := by
        rw [round_to hfl (by norm_num) 4898232627113530 (-63) (by norm_num) (by norm_num)]
        · norm_num
        · rw [abs_lt]
          constructor
          · have : (4898232627113530 - 1 / 2) / 2 ^ 63 < Real.sqrt (5327445788809617 / 2 ^ 74) := by
              rw [Real.lt_sqrt (by norm_num)]
              norm_num
            norm_num at this ⊢
            linarith
          · have : Real.sqrt (5327445788809617 / 2 ^ 74) < (4898232627113530 + 1 / 2) / 2 ^ 63 := by
              rw [Real.sqrt_lt' (by norm_num)]
              norm_num
            norm_num at this ⊢
            linarith
      have h5 : fl (-1883 * (4898232627113530 / 2 ^ 63)) = -(4503599627370497 / 2 ^ 52) := by
        rw [neg_mul, C149.neg_round hfl 4503599627370497 (-52) (by norm_num) (by norm_num) (by norm_num [abs_lt])]
        norm_num
      rw [h1, h2, h3, h4, h5]
    unfold cubicRoots
    simp only [ofList, List.getD_cons_zero, List.getD_cons_succ]
    rw [if_neg (by norm_num), hp, hq, hd]
    unfold roots
    rw [if_neg (by norm_num), if_neg (by norm_num), if_neg (by norm_num), if_neg (by norm_num), if_neg (by norm_num),
      if_neg]
    rw [hc, abs_neg, abs_of_pos (by norm_num)]
    norm_num
  · ext x
    rw [Set.mem_setOf_eq, Poly.eval_toPoly, Poly.eval_eq_sum]
    simp only [Finset.sum_range_succ, Finset.sum_range_zero, ofList, List.getD_cons_zero, List.getD_cons_succ,
      Set.mem_insert_iff, Set.mem_singleton_iff]
    constructor
    · intro h
      have : (x + 3766) * ((x - 1883) * (x - 1883)) = 0 := by linear_combination h
      rcases mul_eq_zero.1 this with h | h
      · right; linarith
      · left
        rcases mul_eq_zero.1 h with h | h <;> linarith
    · rintro (rfl | rfl) <;> norm_num

/-- **C149 fails.** `x^3 + 3 / 2^17 x - 8` gets the root 2, but has none within a millionth of it: the smaller of the two
cube roots is lost in the rounding of the discriminant. -/
theorem C149_fails_accuracy {fl : ℝ → ℝ} (hfl : Rounds 53 fl) {m : Libm} (h8 : m.cubeRoot 8 = 2) (h0 : m.cubeRoot 0 = 0) :
    cubicRoots fl m (ofList [-8, 3 / 2 ^ 17, 0, 1]) = [some 2] ∧
    ∀ x : ℝ, (toPoly 3 (ofList [(-8 : ℝ), 3 / 2 ^ 17, 0, 1])).eval x = 0 → 1 / 1000000 < |x - 2| := by
  constructor
  · have i := C149.int hfl
    have z : fl 0 = 0 := hfl.self (isFloat_zero 53)
    have i27 : fl (27 * 1) = 27 := by have := i 27 (by norm_num); norm_num at this ⊢; exact this
    have g (k : ℤ) (E : ℤ) (hk : |k| ≤ 2 ^ 53) : fl (k * (2 : ℝ) ^ E) = k * (2 : ℝ) ^ E :=
      hfl.self (isFloat_grid (by norm_num) hk)
    have hp : p fl 1 0 (3 / 2 ^ 17) = 3 / 2 ^ 17 := by
      unfold p
      rw [show fl (3 * 1) = 3 by simpa using i 3 (by norm_num), show fl (3 * 1) = 3 by simpa using i 3 (by norm_num),
        show fl (3 * (3 / 2 ^ 17)) = 9 / 2 ^ 17 by have := g 9 (-17) (by norm_num); norm_num at this ⊢; exact this,
        mul_zero, z, sub_zero,
        show fl (9 / 2 ^ 17) = 9 / 2 ^ 17 by have := g 9 (-17) (by norm_num); norm_num at this ⊢; exact this]
      have := g 3 (-17) (by norm_num)
      norm_num at this ⊢
      exact this
    have hq : q fl 1 0 (3 / 2 ^ 17) (-8) = -8 := by
      unfold q
      rw [mul_zero, z, mul_zero, z, zero_mul, z, sub_zero, z, i27, i27, i27,
        show fl (27 * -8) = -216 by have := i (-216) (by norm_num); norm_num at this ⊢; exact this,
        show fl (0 + -216) = -216 by have := i (-216) (by norm_num); norm_num at this ⊢; exact this]
      have := i (-8) (by norm_num)
      norm_num at this ⊢
      exact this
    have hd : discriminant fl (3 / 2 ^ 17) (-8) = 16 := by
      unfold discriminant
      have a1 : fl (3 / 2 ^ 17 * (3 / 2 ^ 17)) = 9 / 2 ^ 34 := by
        have := g 9 (-34) (by norm_num); norm_num at this ⊢; exact this
      have a2 : fl (9 / 2 ^ 34 * (3 / 2 ^ 17)) = 27 / 2 ^ 51 := by
        have := g 27 (-51) (by norm_num); norm_num at this ⊢; exact this
      have a3 : fl (27 / 2 ^ 51 / 27) = 1 / 2 ^ 51 := by
        have := g 1 (-51) (by norm_num); norm_num at this ⊢; exact this
      have a4 : fl (-8 * -8) = 64 := by have := i 64 (by norm_num); norm_num at this ⊢; exact this
      rw [a1, a2, a3, a4,
        round_to hfl (by norm_num) (2 ^ 53) (-49) (by norm_num) (by norm_num) (by norm_num [abs_lt])]
      norm_num
    have hs : fl (-0 / fl (3 * 1)) = 0 := by rw [neg_zero, zero_div, z]
    unfold cubicRoots
    simp only [ofList, List.getD_cons_zero, List.getD_cons_succ]
    rw [if_neg (by norm_num), hp, hq, hd, hs]
    unfold roots
    rw [if_neg (by norm_num), if_neg (by norm_num), if_neg (by norm_num), if_neg (by norm_num), if_pos (by norm_num)]
    have i4 : fl (Real.sqrt 16) = 4 := by
      rw [show (16 : ℝ) = 4 ^ 2 by norm_num, Real.sqrt_sq (by norm_num)]
      have := i 4 (by norm_num); norm_num at this ⊢; exact this
    have i2 : fl 2 = 2 := by have := i 2 (by norm_num); norm_num at this ⊢; exact this
    have i8 : fl (-(-8) / 2 + 4) = 8 := by have := i 8 (by norm_num); norm_num at this ⊢; exact this
    rw [i4, i8, show (-(-8) / 2 - 4 : ℝ) = 0 by norm_num, z, h8, h0]
    simp only [add_zero, i2]
  · intro x hx
    rw [Poly.eval_toPoly, Poly.eval_eq_sum] at hx
    simp only [Finset.sum_range_succ, Finset.sum_range_zero, ofList, List.getD_cons_zero, List.getD_cons_succ] at hx
    by_contra h
    have h := abs_le.1 (not_lt.1 h)
    have hx' : x ^ 3 + 3 / 2 ^ 17 * x - 8 = 0 := by linear_combination hx
    have h3 : (2 - 1 / 1000000 : ℝ) ^ 3 ≤ x ^ 3 := pow_le_pow_left₀ (by norm_num) (by linarith) 3
    norm_num at h3 hx'
    linarith

/-! ## Examples -/

/-- Some rounding exists, so the theorems speak about something. -/
example : ∃ fl : ℝ → ℝ, Rounds 53 fl := ⟨_, rounds_double.2 round53_nearest⟩

/-- `x^3 - 6 x^2 + 11 x - 6`: three roots, three numbers. -/
example {fl : ℝ → ℝ} (hfl : Rounds 53 fl) (m : Libm) : none ∉ cubicRoots fl m (ofList [-6, 11, -6, 1]) ∧
    (cubicRoots fl m (ofList [-6, 11, -6, 1])).length =
      {x : ℝ | (toPoly 3 (ofList [(-6 : ℝ), 11, -6, 1])).eval x = 0}.ncard := by
  refine C149_count_partial hfl m _ (by simp [ofList]) ?_ ?_ <;>
    simp only [cardano, sizeCardano, sizeP, sizeQ, depressedP, depressedQ, ofList, List.getD_cons_zero,
      List.getD_cons_succ] <;> norm_num [abs_of_neg, abs_of_pos]

/-- The exact functions are an accurate library, with exact cube roots. -/
example : ∃ m : Libm, AccurateLibm m ∧ m.cubeRoot 8 = 2 ∧ m.cubeRoot 0 = 0 := by
  refine ⟨⟨Math.cubeRoot, Real.arccos, Real.cos, Real.pi⟩, ⟨fun x _ => ?_, fun x => ?_, fun x => ?_, ?_⟩,
    ((Poly.cubeRoot_iff 8 2).2 (by norm_num)).symm, ((Poly.cubeRoot_iff 0 0).2 (by norm_num)).symm⟩
  · norm_num
  · norm_num
  · rw [Poly.cubeRoot_cube]
    simp
  · norm_num

/-- `x^3 - 6 x^2 + 11 x - 6` gets three results, as `C149_residual` assumes. -/
example {fl : ℝ → ℝ} (hfl : Rounds 53 fl) (m : Libm) : (cubicRoots fl m (ofList [-6, 11, -6, 1])).length = 3 := by
  rw [(C149_count_partial hfl m _ (by simp [ofList]) ?_ ?_).2, C149.three_roots _ (by simp [ofList])] <;>
    simp only [cardano, sizeCardano, sizeP, sizeQ, depressedP, depressedQ, ofList, List.getD_cons_zero,
      List.getD_cons_succ] <;> norm_num [abs_of_neg, abs_of_pos]

end Ecl.Props
