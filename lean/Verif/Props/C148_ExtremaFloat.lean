import Verif.Lemmas.CriticalFloat
import Verif.Lemmas.Double
import Mathlib.Tactic.NormNum

/-! # C148: division, intersection and extreme values in floating point arithmetic -/
set_option autoImplicit false
set_option linter.unusedSimpArgs false

namespace Ecl.Props
open Ecl Ecl.PolyFloat Ecl.Spec
open Ecl.Poly (Coeffs ofList raise_picks lower_picks le_of_tested ge_of_tested)

namespace C148

/-- A sum of a number and a rounded product. -/
theorem fma {fl : ℝ → ℝ} (hfl : Rounds 53 fl) (a m : ℝ) :
    |fl (a + fl m) - (a + m)| ≤ ((1 + 1 / 2 ^ 53) ^ 2 - 1) * (|a| + |m|) := by
  have h1 := round_step hfl (by norm_num) (a := m) (b := m) (A := 1) (B := |m|) le_rfl (by simp)
  have h2 : |a + fl m - (a + m)| ≤ ((1 + 1 / 2 ^ 53) - 1) * (|a| + |m|) := by
    rw [add_sub_add_left_eq_sub]
    refine h1.trans ?_
    rw [one_mul]
    exact mul_le_mul_of_nonneg_left (by linarith [abs_nonneg a]) (by norm_num)
  have h3 := round_step hfl (by norm_num) (abs_add_le a m) h2
  rw [← sq] at h3
  exact h3

/-- One step of Horner's scheme. -/
theorem horner {fl : ℝ → ℝ} (hfl : Rounds 53 fl) (a f : ℝ) {k : ℕ} {v v' B : ℝ} (hv : |v| ≤ B)
    (h : |v' - v| ≤ ((1 + 1 / 2 ^ 53) ^ k - 1) * B) :
    |a + f * v| ≤ |a| + |f| * B ∧
    |fl (a + fl (f * v')) - (a + f * v)| ≤ ((1 + 1 / 2 ^ 53) ^ (k + 2) - 1) * (|a| + |f| * B) := by
  have hfB : |f * v| ≤ |f| * B := by
    rw [abs_mul]; exact mul_le_mul_of_nonneg_left hv (abs_nonneg f)
  have hs : |a + f * v| ≤ |a| + |f| * B := (abs_add_le _ _).trans (by linarith)
  refine ⟨hs, ?_⟩
  have h1 : |f * v' - f * v| ≤ ((1 + 1 / 2 ^ 53) ^ k - 1) * (|f| * B) := by
    rw [← mul_sub, abs_mul]
    have := mul_le_mul_of_nonneg_left h (abs_nonneg f)
    linarith
  have h2 := round_step hfl (by norm_num) hfB h1
  rw [← pow_succ] at h2
  have h3 : |a + fl (f * v') - (a + f * v)| ≤ ((1 + 1 / 2 ^ 53) ^ (k + 1) - 1) * (|a| + |f| * B) := by
    rw [add_sub_add_left_eq_sub]
    refine h2.trans (mul_le_mul_of_nonneg_left (by linarith [abs_nonneg a]) ?_)
    have : (1 : ℝ) ≤ (1 + 1 / 2 ^ 53) ^ (k + 1) := one_le_pow₀ (by norm_num)
    linarith
  have h4 := round_step hfl (by norm_num) hs h3
  rw [← pow_succ] at h4
  exact h4

end C148

/-- **C148.** Quotient and remainder of a quadratic: `p(x) = (x - f) q(x) + r` up to
`((1 + 2^-53)^2 - 1) (|p 0| + |f q 0| + (|p 1| + |f q 1|) |x|)`. -/
theorem C148_divide_quadratic {fl : ℝ → ℝ} (hfl : Rounds 53 fl) (p : ℕ → ℝ) (f x : ℝ) :
    |(toPoly 2 p).eval x -
        ((x - f) * (toPoly 1 (divideQuadratic fl p f).1).eval x + (divideQuadratic fl p f).2)| ≤
      ((1 + 1 / 2 ^ 53) ^ 2 - 1) * (|p 0| + |f * (divideQuadratic fl p f).1 0| +
        (|p 1| + |f * (divideQuadratic fl p f).1 1|) * |x|) := by
  simp only [Poly.eval_toPoly, Poly.eval_eq_sum, Finset.sum_range_succ, Finset.sum_range_zero, divideQuadratic, ofList,
    List.getD_cons_zero, List.getD_cons_succ]
  have h1 := C148.fma hfl (p 1) (f * p 2)
  have h0 := C148.fma hfl (p 0) (f * fl (p 1 + fl (f * p 2)))
  generalize fl (p 1 + fl (f * p 2)) = b at *
  generalize fl (p 0 + fl (f * b)) = r at *
  generalize ((1 + 1 / 2 ^ 53) ^ 2 - 1 : ℝ) = u at *
  rw [show (0 + p 0 * x ^ 0 + p 1 * x ^ 1 + p 2 * x ^ 2 - ((x - f) * (0 + b * x ^ 0 + p 2 * x ^ 1) + r) : ℝ) =
    -(r - (p 0 + f * b)) + -(b - (p 1 + f * p 2)) * x by ring]
  refine (abs_add_le _ _).trans ?_
  rw [abs_neg, abs_mul, abs_neg]
  have := mul_le_mul_of_nonneg_right h1 (abs_nonneg x)
  linarith

/-- **C148.** The same for a cubic. -/
theorem C148_divide_cubic {fl : ℝ → ℝ} (hfl : Rounds 53 fl) (p : ℕ → ℝ) (f x : ℝ) :
    |(toPoly 3 p).eval x - ((x - f) * (toPoly 2 (divideCubic fl p f).1).eval x + (divideCubic fl p f).2)| ≤
      ((1 + 1 / 2 ^ 53) ^ 2 - 1) * (|p 0| + |f * (divideCubic fl p f).1 0| +
        (|p 1| + |f * (divideCubic fl p f).1 1|) * |x| + (|p 2| + |f * (divideCubic fl p f).1 2|) * |x| ^ 2) := by
  simp only [Poly.eval_toPoly, Poly.eval_eq_sum, Finset.sum_range_succ, Finset.sum_range_zero, divideCubic, ofList,
    List.getD_cons_zero, List.getD_cons_succ]
  have h2 := C148.fma hfl (p 2) (f * p 3)
  have h1 := C148.fma hfl (p 1) (f * fl (p 2 + fl (f * p 3)))
  have h0 := C148.fma hfl (p 0) (f * fl (p 1 + fl (f * fl (p 2 + fl (f * p 3)))))
  generalize fl (p 2 + fl (f * p 3)) = b at *
  generalize fl (p 1 + fl (f * b)) = c at *
  generalize fl (p 0 + fl (f * c)) = r at *
  generalize ((1 + 1 / 2 ^ 53) ^ 2 - 1 : ℝ) = u at *
  rw [show (0 + p 0 * x ^ 0 + p 1 * x ^ 1 + p 2 * x ^ 2 + p 3 * x ^ 3 -
      ((x - f) * (0 + c * x ^ 0 + b * x ^ 1 + p 3 * x ^ 2) + r) : ℝ) =
    -(r - (p 0 + f * c)) + -(c - (p 1 + f * b)) * x + -(b - (p 2 + f * p 3)) * x ^ 2 by ring]
  refine (abs_add_three _ _ _).trans ?_
  rw [abs_neg, abs_mul, abs_neg, abs_mul, abs_neg, abs_pow]
  have t1 := mul_le_mul_of_nonneg_right h1 (abs_nonneg x)
  have t2 := mul_le_mul_of_nonneg_right h2 (pow_nonneg (abs_nonneg x) 2)
  linarith

/-- **C148.** The remainder is the value at `f` up to the error of Horner's scheme. -/
theorem C148_remainder {fl : ℝ → ℝ} (hfl : Rounds 53 fl) (p : ℕ → ℝ) (f : ℝ) :
    |(divideQuadratic fl p f).2 - (toPoly 2 p).eval f| ≤
      ((1 + 1 / 2 ^ 53) ^ 4 - 1) * ∑ i ∈ Finset.range 3, |p i| * |f| ^ i ∧
    |(divideCubic fl p f).2 - (toPoly 3 p).eval f| ≤
      ((1 + 1 / 2 ^ 53) ^ 6 - 1) * ∑ i ∈ Finset.range 4, |p i| * |f| ^ i := by
  simp only [Poly.eval_toPoly, Poly.eval_eq_sum, Finset.sum_range_succ, Finset.sum_range_zero, divideQuadratic,
    divideCubic]
  constructor
  · have h1 := C148.horner hfl (p 1) f (k := 0) (v' := p 2) (v := p 2) (B := |p 2|) le_rfl (by simp)
    have h0 := C148.horner hfl (p 0) f (k := 2) h1.1 h1.2
    refine le_trans (le_of_eq ?_) (h0.2.trans (le_of_eq ?_)) <;> ring_nf
  · have h2 := C148.horner hfl (p 2) f (k := 0) (v' := p 3) (v := p 3) (B := |p 3|) le_rfl (by simp)
    have h1 := C148.horner hfl (p 1) f (k := 2) h2.1 h2.2
    have h0 := C148.horner hfl (p 0) f (k := 4) h1.1 h1.2
    refine le_trans (le_of_eq ?_) (h0.2.trans (le_of_eq ?_)) <;> ring_nf

/-- **C148.** If a point is returned for two lines, they meet in exactly one point.  The abscissa returned has a relative
error of at most `4 / 2^53`, the ordinate an error of at most `7 (|f 0| + |f 1 X|) / 2^53`. -/
theorem C148_intersection {fl : ℝ → ℝ} (hfl : Rounds 53 fl) (f g : ℕ → ℝ) (x y : ℝ)
    (h : intersection fl f g = .ok (x, y)) :
    ∃ X Y : ℝ, (∀ X' Y' : ℝ, Y' = f 0 + f 1 * X' ∧ Y' = g 0 + g 1 * X' ↔ X' = X ∧ Y' = Y) ∧
      |x - X| ≤ 4 / 2 ^ 53 * |X| ∧ |y - Y| ≤ 7 / 2 ^ 53 * (|f 0| + |f 1 * X|) := by
  unfold intersection at h
  simp only at h
  split at h
  next => cases h
  next ha =>
    have h0 : fl 0 = 0 := hfl.self (isFloat_zero 53)
    have hne : g 1 - f 1 ≠ 0 := by
      intro hc
      apply ha
      unfold isApproxFloat
      rw [show f 1 - g 1 = 0 by linarith, h0, abs_zero]
      refine hfl.ge (isFloat_zero 53) (mul_nonneg (le_min (abs_nonneg _) (abs_nonneg _)) ?_)
      exact hfl.ge (isFloat_zero 53) (by norm_num [Math.dummyDouble])
    have hx := quotient_error hfl (f 0 - g 0) (g 1 - f 1) hne
    injection h with h
    injection h with hx' hy'
    rw [hx'] at hx hy'
    have hv := eval_error hfl (by norm_num) (c := f) (c' := f) x (n := 1) (k := 0) (by simp)
    rw [hy'] at hv
    simp only [Finset.sum_range_succ, Finset.sum_range_zero] at hv
    refine ⟨(f 0 - g 0) / (g 1 - f 1), f 0 + f 1 * ((f 0 - g 0) / (g 1 - f 1)), ?_, hx, ?_⟩
    · intro X' Y'
      constructor
      · rintro ⟨e1, e2⟩
        have : X' = (f 0 - g 0) / (g 1 - f 1) := by rw [eq_div_iff hne]; linarith
        exact ⟨this, by rw [← this]; exact e1⟩
      · rintro ⟨rfl, rfl⟩
        refine ⟨rfl, ?_⟩
        field_simp
        ring
    · generalize (f 0 - g 0) / (g 1 - f 1) = X at *
      have hxa : |x| ≤ |X| * (1 + 4 / 2 ^ 53) := by
        have := abs_sub_abs_le_abs_sub x X
        linarith
      have t1 : |f 1 * x - f 1 * X| ≤ 4 / 2 ^ 53 * |f 1 * X| := by
        rw [← mul_sub, abs_mul, abs_mul]
        have := mul_le_mul_of_nonneg_left hx (abs_nonneg (f 1))
        linarith
      have t2 : |f 1| * |x| ≤ |f 1 * X| * (1 + 4 / 2 ^ 53) := by
        rw [abs_mul]
        have := mul_le_mul_of_nonneg_left hxa (abs_nonneg (f 1))
        linarith
      have t3 : |y - (f 0 + f 1 * X)| ≤ |y - (0 + f 0 * x ^ 0 + f 1 * x ^ 1)| + |f 1 * x - f 1 * X| := by
        refine le_trans (le_of_eq ?_) (abs_add_le _ _)
        congr 1
        ring
      have hA := abs_nonneg (f 0)
      have hB := abs_nonneg (f 1 * X)
      have e : ((1 + 1 / 2 ^ 53) ^ (2 * 1 + 0) - 1) * (0 + |f 0| * |x| ^ 0 + |f 1| * |x| ^ 1) ≤
          ((1 + 1 / 2 ^ 53) ^ 2 - 1) * (|f 0| + |f 1 * X| * (1 + 4 / 2 ^ 53)) := by
        rw [pow_zero, pow_one, mul_one, zero_add]
        exact mul_le_mul_of_nonneg_left (by linarith) (by norm_num)
      have e2 : ((1 + 1 / 2 ^ 53) ^ 2 - 1) * (|f 0| + |f 1 * X| * (1 + 4 / 2 ^ 53)) ≤
          3 / 2 ^ 53 * (|f 0| + |f 1 * X|) := by
        generalize |f 0| = A at *
        generalize |f 1 * X| = B at *
        norm_num
        linarith
      have e3 : 4 / 2 ^ 53 * |f 1 * X| ≤ 4 / 2 ^ 53 * (|f 0| + |f 1 * X|) :=
        mul_le_mul_of_nonneg_left (by linarith) (by norm_num)
      have e4 : (7 : ℝ) / 2 ^ 53 * (|f 0| + |f 1 * X|) =
          3 / 2 ^ 53 * (|f 0| + |f 1 * X|) + 4 / 2 ^ 53 * (|f 0| + |f 1 * X|) := by ring
      linarith

/-- **C148.** Which lines are refused: those whose slopes differ by at most `10^-12` of the smaller one - up to
`1 ± 2^-51`. -/
theorem C148_refused {fl : ℝ → ℝ} (hfl : Rounds 53 fl) (f g : ℕ → ℝ) :
    (|f 1 - g 1| ≤ min |f 1| |g 1| / 10 ^ 12 * (1 - 1 / 2 ^ 51) → intersection fl f g = .throw .outOfRange) ∧
    (min |f 1| |g 1| / 10 ^ 12 * (1 + 1 / 2 ^ 51) < |f 1 - g 1| → ∃ pt, intersection fl f g = .ok pt) := by
  unfold intersection
  simp only
  obtain ⟨e1, b1, h1⟩ := round_factor hfl (by norm_num) (f 1 - g 1)
  obtain ⟨e2, b2, h2⟩ := round_factor hfl (by norm_num) ((Math.dummyDouble : ℚ) : ℝ)
  obtain ⟨e3, b3, h3⟩ := round_factor hfl (by norm_num) (min |f 1| |g 1| * fl ((Math.dummyDouble : ℚ) : ℝ))
  have hm : 0 ≤ min |f 1| |g 1| := le_min (abs_nonneg _) (abs_nonneg _)
  have ht : ((Math.dummyDouble : ℚ) : ℝ) = 1 / 10 ^ 12 := by norm_num [Math.dummyDouble]
  have key : isApproxFloat fl (f 1) (g 1) ↔
      |f 1 - g 1| * (1 + e1) ≤ min |f 1| |g 1| / 10 ^ 12 * ((1 + e2) * (1 + e3)) := by
    unfold isApproxFloat
    rw [h1, h3, h2, ht, abs_mul, abs_of_pos (a := 1 + e1)]
    · apply iff_of_eq
      congr 1
      ring
    · rw [abs_le] at b1
      have : (1 : ℝ) / 2 ^ 53 < 1 := by norm_num
      linarith
  rw [key]
  rw [abs_le] at b1 b2 b3
  have h51 : (1 : ℝ) / 2 ^ 51 = 4 * (1 / 2 ^ 53) := by norm_num
  have hu : (1 : ℝ) / 2 ^ 53 ≤ 1 / 1000 := by norm_num
  have hu0 : (0 : ℝ) < 1 / 2 ^ 53 := by norm_num
  rw [h51]
  have hm' : 0 ≤ min |f 1| |g 1| / 10 ^ 12 := by positivity
  have hd := abs_nonneg (f 1 - g 1)
  generalize min |f 1| |g 1| / 10 ^ 12 = m at *
  generalize |f 1 - g 1| = d at *
  generalize (1 : ℝ) / 2 ^ 53 = u at *
  constructor
  · intro h
    rw [if_pos]
    have s1 : d * (1 + e1) ≤ m * (1 - 4 * u) * (1 + u) :=
      (mul_le_mul_of_nonneg_left (by linarith) hd).trans (mul_le_mul_of_nonneg_right h (by linarith))
    have s2 : m * ((1 - 4 * u) * (1 + u)) ≤ m * ((1 + e2) * (1 + e3)) := by
      refine mul_le_mul_of_nonneg_left ?_ hm'
      nlinarith
    linarith
  · intro h
    rw [if_neg]
    · exact ⟨_, rfl⟩
    · intro hc
      have s1 : m * (1 + 4 * u) * (1 - u) < d * (1 - u) := mul_lt_mul_of_pos_right h (by linarith)
      have s2 : d * (1 - u) ≤ d * (1 + e1) := mul_le_mul_of_nonneg_left (by linarith) hd
      have s3 : m * ((1 + e2) * (1 + e3)) ≤ m * ((1 + 4 * u) * (1 - u)) := by
        refine mul_le_mul_of_nonneg_left ?_ hm'
        nlinarith
      linarith

/-- **C148.** The extreme values of a linear function are those of the function on the interval, up to the error of two
roundings. -/
theorem C148_linear {fl : ℝ → ℝ} (hfl : Rounds 53 fl) (c : ℕ → ℝ) (a b : ℝ) (h : a ≤ b) :
    MaxUpTo (((1 + 1 / 2 ^ 53) ^ 2 - 1) * size 1 c a b) (fun x => (toPoly 1 c).eval x) a b (maximumLinear fl a b c) ∧
    MinUpTo (((1 + 1 / 2 ^ 53) ^ 2 - 1) * size 1 c a b) (fun x => (toPoly 1 c).eval x) a b (minimumLinear fl a b c) := by
  have ha : a ∈ Set.Icc a b := ⟨le_rfl, h⟩
  have hb : b ∈ Set.Icc a b := ⟨h, le_rfl⟩
  have ea := eval_size hfl 1 c ha
  have eb := eval_size hfl 1 c hb
  have e : ∀ x, Poly.eval 1 c x = c 0 + c 1 * x := by intro x; simp [Poly.eval, Poly.evalLoop]
  simp only [Poly.eval_toPoly, MaxUpTo, MinUpTo]
  generalize ((1 + 1 / 2 ^ 53) ^ (2 * 1) - 1) * size 1 c a b = E at *
  have ea' := abs_le.1 ea
  have eb' := abs_le.1 eb
  refine ⟨⟨?_, ?_⟩, ⟨?_, ?_⟩⟩
  · rcases raise_picks.pick (eval fl 1 c b) (eval fl 1 c a) with h' | h'
    · exact ⟨b, hb, by rw [maximumLinear, linearExtremum, h']; exact eb⟩
    · exact ⟨a, ha, by rw [maximumLinear, linearExtremum, h']; exact ea⟩
  · intro y hy
    have h1 := raise_picks.left (eval fl 1 c b) (eval fl 1 c a)
    have h2 := raise_picks.right (eval fl 1 c b) (eval fl 1 c a)
    show Poly.eval 1 c y ≤ Poly.raise (eval fl 1 c b) (eval fl 1 c a) + E
    rcases le_total 0 (c 1) with hs | hs
    · have := mul_le_mul_of_nonneg_left hy.2 hs
      rw [e] at eb' ⊢; linarith
    · have := mul_le_mul_of_nonpos_left hy.1 hs
      rw [e] at ea' ⊢; linarith
  · rcases lower_picks.pick (eval fl 1 c b) (eval fl 1 c a) with h' | h'
    · exact ⟨b, hb, by rw [minimumLinear, linearExtremum, h']; exact eb⟩
    · exact ⟨a, ha, by rw [minimumLinear, linearExtremum, h']; exact ea⟩
  · intro y hy
    have h1 := lower_picks.left (eval fl 1 c b) (eval fl 1 c a)
    have h2 := lower_picks.right (eval fl 1 c b) (eval fl 1 c a)
    show Poly.lower (eval fl 1 c b) (eval fl 1 c a) - E ≤ Poly.eval 1 c y
    rcases le_total 0 (c 1) with hs | hs
    · have := mul_le_mul_of_nonneg_left hy.1 hs
      rw [e] at ea' ⊢; linarith
    · have := mul_le_mul_of_nonpos_left hy.2 hs
      rw [e] at eb' ⊢; linarith

/-- **C148.** The extreme values of a cubic are values of it on the interval, and no worse than those at the ends, up to
the error of evaluation.

Missing from the full statement: that they are no worse than the values inside, see `C148_fails_maximum`. -/
theorem C148_cubic_partial {fl : ℝ → ℝ} (hfl : Rounds 53 fl) (c : ℕ → ℝ) (a b : ℝ) (h : a ≤ b) :
    let e := ((1 + 1 / 2 ^ 53) ^ 6 - 1) * size 3 c a b
    let p := fun x => (toPoly 3 c).eval x
    ((∃ x ∈ Set.Icc a b, |maximumCubic fl a b c - p x| ≤ e) ∧
      p a ≤ maximumCubic fl a b c + e ∧ p b ≤ maximumCubic fl a b c + e) ∧
    ((∃ x ∈ Set.Icc a b, |minimumCubic fl a b c - p x| ≤ e) ∧
      minimumCubic fl a b c - e ≤ p a ∧ minimumCubic fl a b c - e ≤ p b) := by
  have hx := fun (x : ℝ) (hx : x ∈ Set.Icc a b) => eval_size hfl 3 c hx
  have ea := abs_le.1 (hx a ⟨le_rfl, h⟩)
  have eb := abs_le.1 (hx b ⟨h, le_rfl⟩)
  simp only [Poly.eval_toPoly]
  generalize ((1 + 1 / 2 ^ 53) ^ (2 * 3) - 1) * size 3 c a b = E at *
  obtain ⟨u1, u2, -, x, hux, u4⟩ := cubicExtremum_spec hfl raise_picks c h
  obtain ⟨l1, l2, -, y, hly, l4⟩ := cubicExtremum_spec hfl lower_picks c h
  change _ ≤ maximumCubic fl a b c at u1
  change _ ≤ maximumCubic fl a b c at u2
  change minimumCubic fl a b c ≤ _ at l1
  change minimumCubic fl a b c ≤ _ at l2
  refine ⟨⟨⟨x, hux, ?_⟩, by linarith, by linarith⟩, ⟨⟨y, hly, ?_⟩, by linarith, by linarith⟩⟩
  · rw [maximumCubic, ← u4]; exact hx x hux
  · rw [minimumCubic, ← l4]; exact hx y hly

/-- **C148.** If the derivative of a cubic is nowhere zero inside the interval, its extreme values are right up to the
error of evaluation. -/
theorem C148_monotone_partial {fl : ℝ → ℝ} (hfl : Rounds 53 fl) (c : ℕ → ℝ) (a b : ℝ) (h : a ≤ b)
    (hm : ∀ x ∈ Set.Ioo a b, (toPoly 3 c).derivative.eval x ≠ 0) :
    MaxUpTo (((1 + 1 / 2 ^ 53) ^ 6 - 1) * size 3 c a b) (fun x => (toPoly 3 c).eval x) a b (maximumCubic fl a b c) ∧
    MinUpTo (((1 + 1 / 2 ^ 53) ^ 6 - 1) * size 3 c a b) (fun x => (toPoly 3 c).eval x) a b (minimumCubic fl a b c) := by
  obtain ⟨⟨u1, u2, u3⟩, ⟨l1, l2, l3⟩⟩ := C148_cubic_partial hfl c a b h
  simp only [Poly.eval_toPoly] at u2 u3 l2 l3
  have hno : ∀ r ∈ Set.Ioo a b, ¬ Poly.Tested c r := by
    intro r hr ht
    apply hm r hr
    rw [← Poly.derivativeAt_eq, ← ht.1]
    simp [Poly.derivativeAt, Poly.derivative, Poly.eval, Poly.evalLoop]
    ring
  refine ⟨⟨u1, fun x hx => ?_⟩, ⟨l1, fun x hx => ?_⟩⟩
  · simp only [Poly.eval_toPoly]
    exact le_of_tested h u2 u3 (fun r hr ht => absurd ht (hno r hr)) x hx
  · simp only [Poly.eval_toPoly]
    exact ge_of_tested h l2 l3 (fun r hr ht => absurd ht (hno r hr)) x hx

/-- **C148.** If the leading coefficient is zero - a quadratic - and the ends are doubles, the extreme values are right. -/
theorem C148_quadratic_partial {fl : ℝ → ℝ} (hfl : Rounds 53 fl) (c : ℕ → ℝ) (a b : ℝ) (h : a ≤ b) (h3 : c 3 = 0)
    (ha : IsDouble a) (hb : IsDouble b) :
    MaxUpTo (((1 + 1 / 2 ^ 53) ^ 7 - 1) * size 3 c a b) (fun x => (toPoly 3 c).eval x) a b (maximumCubic fl a b c) ∧
    MinUpTo (((1 + 1 / 2 ^ 53) ^ 7 - 1) * size 3 c a b) (fun x => (toPoly 3 c).eval x) a b (minimumCubic fl a b c) := by
  obtain ⟨⟨u1, u2, u3⟩, ⟨l1, l2, l3⟩⟩ := C148_cubic_partial hfl c a b h
  simp only [Poly.eval_toPoly] at u1 u2 u3 l1 l2 l3
  have hS := size_nonneg 3 c a b
  have hmono : ((1 + 1 / 2 ^ 53 : ℝ) ^ 6 - 1) * size 3 c a b ≤ ((1 + 1 / 2 ^ 53) ^ 7 - 1) * size 3 c a b :=
    mul_le_mul_of_nonneg_right (by norm_num) hS
  -- the error made at the critical point
  have hr (r : ℝ) (hr : r ∈ Set.Ioo a b) (ht : Poly.Tested c r) : c 2 ≠ 0 ∧ r = -c 1 / (2 * c 2) ∧
      fl r ∈ Set.Icc a b ∧ |Poly.eval 3 c (fl r) - Poly.eval 3 c r| ≤ 1 / 2 ^ 53 / 2 ^ 53 * size 3 c a b := by
    have h2 : c 2 ≠ 0 := by
      rcases ht.2 with h' | h'
      · exact h'.2
      · exact absurd h3 h'.1
    have hz := ht.1
    rw [h3] at hz
    refine ⟨h2, ?_, ⟨hfl.ge ha hr.1.le, hfl.le hb hr.2.le⟩, ?_⟩
    · rw [eq_div_iff (mul_ne_zero two_ne_zero h2)]
      linarith
    · have e : Poly.eval 3 c (fl r) - Poly.eval 3 c r = c 2 * (fl r - r) ^ 2 := by
        rw [Poly.eval3, Poly.eval3, h3]
        linear_combination (fl r - r) * hz
      have hs : |c 2| * max |a| |b| ^ 2 ≤ size 3 c a b := by
        unfold size
        exact Finset.single_le_sum (f := fun i => |c i| * max |a| |b| ^ i) (fun i _ => by positivity)
          (Finset.mem_range.2 (by norm_num))
      have hd := hfl.relative (by norm_num) r
      have hM : |r| ≤ max |a| |b| := abs_le_max_abs_abs hr.1.le hr.2.le
      have hd2 : |fl r - r| ≤ max |a| |b| / 2 ^ 53 := hd.trans (by gcongr)
      rw [e, abs_mul, abs_pow]
      have := pow_le_pow_left₀ (abs_nonneg _) hd2 2
      calc |c 2| * |fl r - r| ^ 2 ≤ |c 2| * (max |a| |b| / 2 ^ 53) ^ 2 :=
            mul_le_mul_of_nonneg_left this (abs_nonneg _)
        _ = 1 / 2 ^ 53 / 2 ^ 53 * (|c 2| * max |a| |b| ^ 2) := by ring
        _ ≤ _ := mul_le_mul_of_nonneg_left hs (by positivity)
  have hsum : ((1 + 1 / 2 ^ 53 : ℝ) ^ 6 - 1) * size 3 c a b + 1 / 2 ^ 53 / 2 ^ 53 * size 3 c a b ≤
      ((1 + 1 / 2 ^ 53) ^ 7 - 1) * size 3 c a b := by
    rw [← add_mul]
    exact mul_le_mul_of_nonneg_right (by norm_num) hS
  have hx := fun (x : ℝ) (hx : x ∈ Set.Icc a b) => eval_size hfl 3 c hx
  rw [show 2 * 3 = 6 by norm_num] at hx
  generalize ((1 + 1 / 2 ^ 53 : ℝ) ^ 6 - 1) * size 3 c a b = E at *
  generalize ((1 + 1 / 2 ^ 53 : ℝ) ^ 7 - 1) * size 3 c a b = E' at *
  generalize 1 / 2 ^ 53 / 2 ^ 53 * size 3 c a b = D at *
  obtain ⟨-, -, u5, -⟩ := cubicExtremum_spec hfl raise_picks c h
  obtain ⟨-, -, l5, -⟩ := cubicExtremum_spec hfl lower_picks c h
  refine ⟨⟨?_, fun x hx' => ?_⟩, ⟨?_, fun x hx' => ?_⟩⟩
  · obtain ⟨x, h1, h2⟩ := u1
    exact ⟨x, h1, by simp only [Poly.eval_toPoly]; exact h2.trans hmono⟩
  · simp only [Poly.eval_toPoly]
    refine le_of_tested h (by linarith) (by linarith) (fun r hr' ht => ?_) x hx'
    obtain ⟨h2, e, hin, herr⟩ := hr r hr' ht
    have herr := abs_le.1 herr
    rcases eq_or_lt_of_le hin.1 with h1 | h1
    · rw [← h1] at herr; linarith
    rcases eq_or_lt_of_le hin.2 with h1' | h1'
    · rw [h1'] at herr; linarith
    have := u5 h3 h2 (by rw [← e]; exact ⟨h1, h1'⟩)
    rw [← e] at this
    change _ ≤ maximumCubic fl a b c at this
    have h6 := abs_le.1 (hx _ hin)
    linarith
  · obtain ⟨x, h1, h2⟩ := l1
    exact ⟨x, h1, by simp only [Poly.eval_toPoly]; exact h2.trans hmono⟩
  · simp only [Poly.eval_toPoly]
    refine ge_of_tested h (by linarith) (by linarith) (fun r hr' ht => ?_) x hx'
    obtain ⟨h2, e, hin, herr⟩ := hr r hr' ht
    have herr := abs_le.1 herr
    rcases eq_or_lt_of_le hin.1 with h1 | h1
    · rw [← h1] at herr; linarith
    rcases eq_or_lt_of_le hin.2 with h1' | h1'
    · rw [h1'] at herr; linarith
    have := l5 h3 h2 (by rw [← e]; exact ⟨h1, h1'⟩)
    rw [← e] at this
    change minimumCubic fl a b c ≤ _ at this
    have h6 := abs_le.1 (hx _ hin)
    linarith

/-- **C148.** The extreme values of any cubic are right up to the error of evaluation and `11 (w / 2^53)^(3/2) / (3 c 3)^2`,
where `w = 4 (c 2)^2 + 12 |c 1 c 3|`.

Missing from the full statement: the second term is not bounded by roundings of the terms of the polynomial, see
`C148_fails_maximum`. -/
theorem C148_extrema_partial {fl : ℝ → ℝ} (hfl : Rounds 53 fl) (c : ℕ → ℝ) (a b : ℝ) (h : a ≤ b) (h3 : c 3 ≠ 0) :
    let v := Real.sqrt ((4 * c 2 ^ 2 + 12 * |c 1 * c 3|) / 2 ^ 53)
    let e := ((1 + 1 / 2 ^ 53) ^ 6 - 1) * size 3 c a b + 11 * v ^ 3 / (3 * c 3) ^ 2
    MaxUpTo e (fun x => (toPoly 3 c).eval x) a b (maximumCubic fl a b c) ∧
    MinUpTo e (fun x => (toPoly 3 c).eval x) a b (minimumCubic fl a b c) := by
  intro v e
  have hv0 : 0 ≤ v := Real.sqrt_nonneg _
  have hv : v * v = 1 / 2 ^ 53 * (4 * c 2 ^ 2 + 12 * |c 1 * c 3|) := by
    have : 0 ≤ (4 * c 2 ^ 2 + 12 * |c 1 * c 3|) / 2 ^ 53 := by positivity
    rw [Real.mul_self_sqrt this]; ring
  have hK : 0 ≤ 11 * v ^ 3 / (3 * c 3) ^ 2 := by positivity
  obtain ⟨⟨⟨x, hx, u1⟩, u2, u3⟩, ⟨⟨y, hy, l1⟩, l2, l3⟩⟩ := C148_cubic_partial hfl c a b h
  have hE := fun (x : ℝ) (hx : x ∈ Set.Icc a b) => abs_le.1 (eval_size hfl 3 c hx)
  rw [show 2 * 3 = 6 by norm_num] at hE
  have htest := fun (r : ℝ) (hr : r ∈ Set.Ioo a b) (ht : Poly.Tested c r) => tested_near hfl c h3 hr ht hv0 hv
  have he : e = ((1 + 1 / 2 ^ 53) ^ 6 - 1) * size 3 c a b + 11 * v ^ 3 / (3 * c 3) ^ 2 := rfl
  clear_value e v
  simp only [Poly.eval_toPoly] at *
  generalize ((1 + 1 / 2 ^ 53) ^ 6 - 1) * size 3 c a b = E at *
  generalize 11 * v ^ 3 / (3 * c 3) ^ 2 = K at *
  refine ⟨⟨⟨x, hx, by simp only [Poly.eval_toPoly]; linarith⟩, fun z hz => ?_⟩,
    ⟨⟨y, hy, by simp only [Poly.eval_toPoly]; linarith⟩, fun z hz => ?_⟩⟩
  · simp only [Poly.eval_toPoly]
    refine le_of_tested h (by linarith) (by linarith) (fun r hr ht => ?_) z hz
    obtain ⟨⟨t, ht1, ht2, ht3⟩, -⟩ := htest r hr ht
    have := hE t ht1
    linarith
  · simp only [Poly.eval_toPoly]
    refine ge_of_tested h (by linarith) (by linarith) (fun r hr ht => ?_) z hz
    obtain ⟨-, ⟨t, ht1, ht2, ht3⟩⟩ := htest r hr ht
    have := hE t ht1
    linarith

namespace C148

/-- The values of `x - x^2 + 2^-60 x^3` at the ends of `[0, 1]`, of its negative, and the numbers tested inside. -/
theorem tiny {fl : ℝ → ℝ} (hfl : Rounds 53 fl) (s : ℝ) (hs : s = 1 ∨ s = -1) :
    eval fl 3 (ofList [0, s, -s, s / 2 ^ 60]) 0 = 0 ∧ eval fl 3 (ofList [0, s, -s, s / 2 ^ 60]) 1 = s / 2 ^ 60 ∧
    ∀ better : ℝ → ℝ → ℝ, cubicExtremum fl better 0 1 (ofList [0, s, -s, s / 2 ^ 60]) =
      better (eval fl 3 (ofList [0, s, -s, s / 2 ^ 60]) 1) (eval fl 3 (ofList [0, s, -s, s / 2 ^ 60]) 0) := by
  have h0 : fl 0 = 0 := hfl.self (isFloat_zero 53)
  have hs1 : fl s = s := by
    rcases hs with rfl | rfl
    · exact hfl.self (by simpa using isFloat_nat (p := 53) (n := 1) (by norm_num) (by norm_num))
    · exact hfl.self (by simpa using isFloat_int (p := 53) (z := -1) (by norm_num) (by norm_num))
  have hsn : fl (-s) = -s := by
    rcases hs with rfl | rfl
    · exact hfl.self (by simpa using isFloat_int (p := 53) (z := -1) (by norm_num) (by norm_num))
    · exact hfl.self (by simpa using isFloat_nat (p := 53) (n := 1) (by norm_num) (by norm_num))
  have h1 : fl 1 = 1 := hfl.self (by simpa using isFloat_nat (p := 53) (n := 1) (by norm_num) (by norm_num))
  have ht : fl (s / 2 ^ 60) = s / 2 ^ 60 := by
    refine hfl.self ?_
    rcases hs with rfl | rfl
    · have := isFloat_grid (p := 53) (by norm_num) (k := 1) (E := -60) (by norm_num)
      norm_num at this ⊢
      exact this
    · have := isFloat_grid (p := 53) (by norm_num) (k := -1) (E := -60) (by norm_num)
      norm_num at this ⊢
      exact this
  have h3 : fl (3 * (s / 2 ^ 60)) = 3 * s / 2 ^ 60 := by
    rw [← mul_div_assoc]
    refine hfl.self ?_
    rcases hs with rfl | rfl
    · have := isFloat_grid (p := 53) (by norm_num) (k := 3) (E := -60) (by norm_num)
      norm_num at this ⊢
      exact this
    · have := isFloat_grid (p := 53) (by norm_num) (k := -3) (E := -60) (by norm_num)
      norm_num at this ⊢
      exact this
  have h4 : fl 4 = 4 := hfl.self (by simpa using isFloat_nat (p := 53) (n := 4) (by norm_num) (by norm_num))
  have h2 : fl 2 = 2 := hfl.self (by simpa using isFloat_nat (p := 53) (n := 2) (by norm_num) (by norm_num))
  have hss : s * s = 1 := by rcases hs with rfl | rfl <;> norm_num
  have h12 : fl (12 / 2 ^ 60) = 12 / 2 ^ 60 := by
    refine hfl.self ?_
    have := isFloat_grid (p := 53) (by norm_num) (k := 12) (E := -60) (by norm_num)
    norm_num at this ⊢
    exact this
  have h44 : fl (4 - 12 / 2 ^ 60) = 4 := by
    rw [round_to hfl (by norm_num) (2 ^ 53) (-51) (by norm_num) (by norm_num) (by norm_num [abs_lt])]
    norm_num
  have hd : discriminant fl (3 * s / 2 ^ 60) (2 * -s) s = 4 := by
    unfold discriminant
    rw [show 2 * -s * (2 * -s) = 4 by linear_combination 4 * hss, h4,
      show 4 * (3 * s / 2 ^ 60) * s = 12 / 2 ^ 60 by linear_combination 12 / 2 ^ 60 * hss, h12, h44]
  have hq : Real.sqrt 4 = 2 := by
    rw [show (4 : ℝ) = 2 ^ 2 by norm_num]
    exact Real.sqrt_sq (by norm_num)
  have hsne : s ≠ 0 := by rcases hs with rfl | rfl <;> norm_num
  refine ⟨?_, ?_, ?_⟩
  · simp [eval, evalLoop, ofList, h0]
  · simp [eval, evalLoop, ofList, h0, h1, hs1, hsn, ht]
  · intro better
    unfold cubicExtremum
    simp only
    simp only [ofList, List.getD_cons_zero, List.getD_cons_succ]
    rw [h3, hd, if_neg (div_ne_zero (mul_ne_zero (by norm_num) hsne) (by norm_num)), if_pos (by norm_num), hq, h2]
    have big : ∀ z : ℝ, 1 ≤ z → ¬ (fl z > 0 ∧ fl z < 1) := by
      intro z hz hc
      have := hfl.ge (by simpa using isFloat_nat (p := 53) (n := 1) (by norm_num) (by norm_num)) hz
      linarith [hc.2]
    rcases hs with rfl | rfl
    · rw [show (-(2 * -1) + 2 : ℝ) = 4 by norm_num, show (-(2 * -1) - 2 : ℝ) = 0 by norm_num, h4, h0, zero_div, h0]
      unfold consider
      rw [if_neg (by simp), if_neg (big _ (by norm_num))]
    · rw [show (-(2 * - -1) + 2 : ℝ) = 0 by norm_num, show (-(2 * - -1) - 2 : ℝ) = -4 by norm_num, h0, zero_div, h0]
      have h4' : fl (-4) = -4 := hfl.self (by simpa using isFloat_int (p := 53) (z := -4) (by norm_num) (by norm_num))
      rw [h4']
      unfold consider
      rw [if_neg (big _ (by norm_num)), if_neg (by simp)]

end C148

/-- **C148 fails.** `x - x^2 + 2^-60 x^3` exceeds 1/4 inside `[0, 1]`; its maximum there comes out as `2^-60`. -/
theorem C148_fails_maximum {fl : ℝ → ℝ} (hfl : Rounds 53 fl) :
    maximumCubic fl 0 1 (ofList [0, 1, -1, 1 / 2 ^ 60]) = 1 / 2 ^ 60 ∧
    1 / 4 < (toPoly 3 (ofList [(0 : ℝ), 1, -1, 1 / 2 ^ 60])).eval (1 / 2) := by
  obtain ⟨e0, e1, h⟩ := C148.tiny hfl 1 (Or.inl rfl)
  constructor
  · rw [maximumCubic, h, e0, e1, Poly.raise, if_pos (by norm_num)]
  · rw [Poly.eval_toPoly, Poly.eval3]
    simp only [ofList, List.getD_cons_zero, List.getD_cons_succ]
    norm_num

/-- **C148 fails.** The minimum of the negative of that cubic is missed, too. -/
theorem C148_fails_minimum {fl : ℝ → ℝ} (hfl : Rounds 53 fl) :
    minimumCubic fl 0 1 (ofList [0, -1, 1, -1 / 2 ^ 60]) = -1 / 2 ^ 60 ∧
    (toPoly 3 (ofList [(0 : ℝ), -1, 1, -1 / 2 ^ 60])).eval (1 / 2) < -1 / 4 := by
  obtain ⟨e0, e1, h⟩ := C148.tiny hfl (-1) (Or.inr rfl)
  rw [neg_neg] at e0 e1 h
  constructor
  · rw [minimumCubic, h, e0, e1, Poly.lower, if_pos (by norm_num)]
  · rw [Poly.eval_toPoly, Poly.eval3]
    simp only [ofList, List.getD_cons_zero, List.getD_cons_succ]
    norm_num

/-- **C148 fails.** The point returned for `y = 49 x - 1` and the x-axis does not lie on the x-axis. -/
theorem C148_fails_on_line {fl : ℝ → ℝ} (hfl : Rounds 53 fl) :
    ∃ x, intersection fl (ofList [-1, 49]) (ofList [0, 0]) = .ok (x, -1 / 2 ^ 53) := by
  have h0 : fl 0 = 0 := hfl.self (isFloat_zero 53)
  have i : ∀ z : ℤ, |z| ≤ 2 ^ 53 → fl (z : ℝ) = z := fun z hz => hfl.self (isFloat_int (by norm_num) hz)
  have h49 : fl (49 - 0) = 49 := by simpa using i 49 (by norm_num)
  have h49' : fl (0 - 49) = -49 := by simpa using i (-49) (by norm_num)
  have h1 : fl (-1 - 0) = -1 := by simpa using i (-1) (by norm_num)
  have hx : fl (-1 / -49) = 5882252574524729 / 2 ^ 58 := by
    rw [round_to hfl (by norm_num) 5882252574524729 (-58) (by norm_num) (by norm_num) (by norm_num [abs_lt])]
    norm_num
  have hp : fl (49 * (5882252574524729 / 2 ^ 58)) = 1 - 1 / 2 ^ 53 := by
    rw [round_to hfl (by norm_num) (2 ^ 53 - 1) (-53) (by norm_num) (by norm_num) (by norm_num [abs_lt])]
    norm_num
  have hy : fl (-1 / 2 ^ 53) = -1 / 2 ^ 53 := by
    refine hfl.self ?_
    have := isFloat_grid (p := 53) (by norm_num) (k := -1) (E := -53) (by norm_num)
    norm_num at this ⊢
    exact this
  refine ⟨5882252574524729 / 2 ^ 58, ?_⟩
  have hn : ¬ isApproxFloat fl (ofList [-1, 49] 1) (ofList [0, 0] 1) := by
    simp only [ofList, List.getD_cons_zero, List.getD_cons_succ]
    unfold isApproxFloat
    rw [h49, abs_zero, min_eq_right (abs_nonneg _), zero_mul, h0]
    norm_num
  unfold intersection
  simp only
  rw [if_neg hn]
  simp only [ofList, List.getD_cons_zero, List.getD_cons_succ]
  rw [h1, h49', hx]
  simp only [eval, evalLoop, ofList, List.getD_cons_zero, List.getD_cons_succ]
  rw [hp, show (-1 + (1 - 1 / 2 ^ 53) : ℝ) = -1 / 2 ^ 53 by norm_num, hy]

/-! ## Examples -/

/-- Some rounding exists, so the theorems speak about something. -/
example : ∃ fl : ℝ → ℝ, Rounds 53 fl := ⟨_, rounds_double.2 round53_nearest⟩

/-- `y = x` and `y = 1 - x` meet, and the point is returned. -/
example {fl : ℝ → ℝ} (hfl : Rounds 53 fl) : ∃ pt, intersection fl (ofList [0, 1]) (ofList [1, -1]) = .ok pt :=
  (C148_refused hfl _ _).2 (by simp [ofList]; norm_num)

/-- `y = x` and `y = (1 + 2^-50) x` are refused. -/
example {fl : ℝ → ℝ} (hfl : Rounds 53 fl) :
    intersection fl (ofList [0, 1]) (ofList [0, 1 + 1 / 2 ^ 50]) = .throw .outOfRange :=
  (C148_refused hfl _ _).1 (by
    simp only [ofList, List.getD_cons_zero, List.getD_cons_succ]
    rw [show (1 : ℝ) - (1 + 1 / 2 ^ 50) = -(1 / 2 ^ 50) by ring, abs_neg, abs_of_pos (by norm_num),
      abs_of_pos (by norm_num), abs_of_pos (by norm_num), min_eq_left (by norm_num)]
    norm_num)

/-- `x^3 + x` is monotone on `[0, 1]`. -/
example : ∀ x ∈ Set.Ioo (0 : ℝ) 1, (toPoly 3 (ofList [(0 : ℝ), 1, 0, 1])).derivative.eval x ≠ 0 := by
  intro x _
  rw [← Poly.derivativeAt_eq]
  simp only [Poly.derivativeAt, Poly.derivative, Poly.eval, Poly.evalLoop, ofList]
  norm_num
  nlinarith [sq_nonneg x]

/-- The maximum of `x^3 - 3 x` on `[-2, 1]`, which is 2, is found up to `2^-45`. -/
example {fl : ℝ → ℝ} (hfl : Rounds 53 fl) : 2 ≤ maximumCubic fl (-2) 1 (ofList [0, -3, 0, 1]) + 1 / 2 ^ 45 := by
  have h := (C148_extrema_partial hfl (ofList [0, -3, 0, 1]) (-2) 1 (by norm_num) (by simp [ofList])).1.2 (-1)
    ⟨by norm_num, by norm_num⟩
  simp only [Poly.eval_toPoly, Poly.eval3, size, Finset.sum_range_succ, Finset.sum_range_zero, ofList,
    List.getD_cons_zero, List.getD_cons_succ] at h
  have hs : Real.sqrt ((4 * 0 ^ 2 + 12 * |(-3 : ℝ) * 1|) / 2 ^ 53) ≤ 1 / 2 ^ 23 := by
    rw [Real.sqrt_le_left (by positivity)]
    norm_num
  have hp := pow_le_pow_left₀ (Real.sqrt_nonneg _) hs 3
  rw [show max |(-2 : ℝ)| |1| = 2 by norm_num] at h
  generalize Real.sqrt ((4 * 0 ^ 2 + 12 * |(-3 : ℝ) * 1|) / 2 ^ 53) = v at *
  norm_num at h hp ⊢
  linarith

/-- `x - x^2` on `[0, 1]` meets the hypotheses of `C148_quadratic_partial`. -/
example : (0 : ℝ) ≤ 1 ∧ ofList [(0 : ℝ), 1, -1, 0] 3 = 0 ∧ IsDouble 0 ∧ IsDouble 1 :=
  ⟨by norm_num, by simp [ofList], by simpa using isDouble_int (n := 0) (by norm_num),
    by simpa using isDouble_int (n := 1) (by norm_num)⟩

end Ecl.Props
