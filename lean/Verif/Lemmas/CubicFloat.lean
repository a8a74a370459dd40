import Verif.Model.CubicFloat
import Verif.Spec.DepressedCubic
import Verif.Lemmas.Roots
import Verif.Lemmas.PolynomialFloat
import Mathlib.Data.Set.Card

/-! # Errors in the roots of cubics -/
set_option autoImplicit false
set_option linter.unusedSimpArgs false

namespace Ecl.CubicFloat
open Ecl.Spec Ecl.PolyFloat

variable {fl : ℝ → ℝ}

/-- `x'` is `x` up to `k` roundings of terms of size `X`. -/
structure Near (k : ℕ) (X x' x : ℝ) : Prop where
  size : |x| ≤ X
  err : |x' - x| ≤ ((1 + 1 / 2 ^ 53) ^ k - 1) * X

theorem one_le (k : ℕ) : (1 : ℝ) ≤ (1 + 1 / 2 ^ 53) ^ k := one_le_pow₀ (by norm_num)

theorem Near.exact (x : ℝ) : Near 0 |x| x x := ⟨le_rfl, by simp⟩

theorem Near.mono {k l : ℕ} {X x' x : ℝ} (h : Near k X x' x) (hkl : k ≤ l) : Near l X x' x := by
  refine ⟨h.size, h.err.trans (mul_le_mul_of_nonneg_right ?_ ((abs_nonneg _).trans h.size))⟩
  have : (1 + 1 / 2 ^ 53 : ℝ) ^ k ≤ (1 + 1 / 2 ^ 53) ^ l := pow_le_pow_right₀ (by norm_num) hkl
  linarith

theorem Near.round (hfl : Rounds 53 fl) {k : ℕ} {X x' x : ℝ} (h : Near k X x' x) : Near (k + 1) X (fl x') x := by
  refine ⟨h.size, ?_⟩
  have := round_step hfl (by norm_num) h.size h.err
  rwa [← pow_succ] at this

theorem Near.mul {k l : ℕ} {X x' x Y y' y : ℝ} (h : Near k X x' x) (g : Near l Y y' y) :
    Near (k + l) (X * Y) (x' * y') (x * y) := by
  have hX := (abs_nonneg _).trans h.size
  have hY := (abs_nonneg _).trans g.size
  refine ⟨by rw [abs_mul]; exact mul_le_mul h.size g.size (abs_nonneg _) hX, ?_⟩
  have e : x' * y' - x * y = (x' - x) * y + x' * (y' - y) := by ring
  have hx' : |x'| ≤ (1 + 1 / 2 ^ 53) ^ k * X := by
    have := abs_sub_abs_le_abs_sub x' x
    have := h.size
    have := h.err
    linarith
  have h1 : |x' * y' - x * y| ≤ |x' - x| * |y| + |x'| * |y' - y| := by
    rw [e]
    refine (abs_add_le _ _).trans ?_
    rw [abs_mul, abs_mul]
  have h2 := mul_le_mul h.err g.size (abs_nonneg _) (mul_nonneg (by linarith [one_le k]) hX)
  have h3 := mul_le_mul hx' g.err (abs_nonneg _) (mul_nonneg (by linarith [one_le k]) hX)
  rw [pow_add]
  nlinarith

theorem Near.add {k : ℕ} {X x' x Y y' y : ℝ} (h : Near k X x' x) (g : Near k Y y' y) :
    Near k (X + Y) (x' + y') (x + y) := by
  refine ⟨(abs_add_le _ _).trans (add_le_add h.size g.size), ?_⟩
  rw [add_sub_add_comm, mul_add]
  exact (abs_add_le _ _).trans (add_le_add h.err g.err)

theorem Near.neg {k : ℕ} {X x' x : ℝ} (h : Near k X x' x) : Near k X (-x') (-x) := by
  refine ⟨by rw [abs_neg]; exact h.size, ?_⟩
  rw [neg_sub_neg, abs_sub_comm]
  exact h.err

theorem Near.sub {k : ℕ} {X x' x Y y' y : ℝ} (h : Near k X x' x) (g : Near k Y y' y) :
    Near k (X + Y) (x' - y') (x - y) := by
  rw [sub_eq_add_neg, sub_eq_add_neg]
  exact h.add g.neg

/-- Division by a constant. -/
theorem Near.div {k : ℕ} {X x' x : ℝ} (h : Near k X x' x) {d : ℝ} (hd : 0 < d) : Near k (X / d) (x' / d) (x / d) := by
  refine ⟨by rw [abs_div, abs_of_pos hd]; exact div_le_div_of_nonneg_right h.size hd.le, ?_⟩
  rw [← sub_div, abs_div, abs_of_pos hd, ← mul_div_assoc]
  exact div_le_div_of_nonneg_right h.err hd.le

/-- A rounded number, as a factor of the exact one, and the inverse of the factor. -/
theorem inverse_factor (hfl : Rounds 53 fl) (y : ℝ) : ∃ g : ℝ, g ≠ 0 ∧ fl y = y * g ∧ Near 2 1 g⁻¹ 1 := by
  obtain ⟨e, b, h⟩ := round_factor hfl (by norm_num) y
  have b' := abs_le.1 b
  have hu : (0 : ℝ) < 1 / 2 ^ 53 := by positivity
  have hu' : (1 : ℝ) / 2 ^ 53 ≤ 1 / 1000 := by norm_num
  have hp : 0 < 1 + e := by linarith
  refine ⟨1 + e, hp.ne', h, by norm_num, ?_⟩
  generalize (1 : ℝ) / 2 ^ 53 = u at *
  have e1 : (1 + e)⁻¹ - 1 = -e / (1 + e) := by field_simp; ring
  rw [e1, abs_div, abs_neg, abs_of_pos hp, div_le_iff₀ hp, mul_one]
  have h1 : ((1 + u) ^ 2 - 1) * (1 - u) ≤ ((1 + u) ^ 2 - 1) * (1 + e) :=
    mul_le_mul_of_nonneg_left (by linarith) (by nlinarith)
  have h2 : u ≤ ((1 + u) ^ 2 - 1) * (1 - u) := by
    have : ((1 + u) ^ 2 - 1) * (1 - u) = u + u * (1 - u - u ^ 2) := by ring
    rw [this]
    have : 0 ≤ u * (1 - u - u ^ 2) := mul_nonneg hu.le (by nlinarith)
    linarith
  linarith

/-- The rounded `p`. -/
theorem p_near (hfl : Rounds 53 fl) (c : ℕ → ℝ) (h3 : c 3 ≠ 0) :
    Near 8 (sizeP c) (p fl (c 3) (c 2) (c 1)) (depressedP c) := by
  have n1 : Near 1 |3 * c 3| (fl (3 * c 3)) (3 * c 3) := (Near.exact _).round hfl
  have n2 := (n1.mul (Near.exact (c 1))).round hfl
  have n3 := ((Near.exact (c 2)).mul (Near.exact (c 2))).round hfl
  have n4 := (n2.sub (n3.mono (by norm_num))).round hfl
  obtain ⟨g1, z1, f1, i1⟩ := inverse_factor hfl (3 * c 3)
  obtain ⟨g2, z2, f2, i2⟩ := inverse_factor hfl (fl (3 * c 3) * c 3)
  have n5 := ((n4.mul (i1.mul i2)).div (d := 3 * c 3 ^ 2) (by positivity)).round hfl
  unfold p
  rw [f2]
  have e1 : fl (fl (fl (3 * c 3) * c 1) - fl (c 2 * c 2)) / (fl (3 * c 3) * c 3 * g2) =
      fl (fl (fl (3 * c 3) * c 1) - fl (c 2 * c 2)) * (g1⁻¹ * g2⁻¹) / (3 * c 3 ^ 2) := by
    rw [f1]
    field_simp
  rw [e1]
  have e2 : depressedP c = (3 * c 3 * c 1 - c 2 * c 2) * (1 * 1) / (3 * c 3 ^ 2) := by
    rw [depressedP]; ring
  have e3 : sizeP c = (|3 * c 3| * |c 1| + |c 2| * |c 2|) * (1 * 1) / (3 * c 3 ^ 2) := by
    rw [sizeP, abs_mul, abs_mul, abs_of_pos (by norm_num : (0 : ℝ) < 3), abs_mul_abs_self]
    ring
  rw [e2, e3]
  exact n5

/-- The rounded `q`. -/
theorem q_near (hfl : Rounds 53 fl) (c : ℕ → ℝ) (h3 : c 3 ≠ 0) :
    Near 12 (sizeQ c) (q fl (c 3) (c 2) (c 1) (c 0)) (depressedQ c) := by
  have x1 : Near 1 |2 * c 2 * c 2| (fl (2 * c 2 * c 2)) (2 * c 2 * c 2) := (Near.exact _).round hfl
  have x2 := (x1.mul (Near.exact (c 2))).round hfl
  have y1 : Near 1 |9 * c 3| (fl (9 * c 3)) (9 * c 3) := (Near.exact _).round hfl
  have y2 := (y1.mul (Near.exact (c 2))).round hfl
  have y3 := (y2.mul (Near.exact (c 1))).round hfl
  have n1 := ((x2.mono (by norm_num : 2 ≤ 3)).sub y3).round hfl
  have w1 : Near 1 |27 * c 3| (fl (27 * c 3)) (27 * c 3) := (Near.exact _).round hfl
  have w2 := (w1.mul (Near.exact (c 3))).round hfl
  have w3 := (w2.mul (Near.exact (c 0))).round hfl
  have n2 := (n1.add (w3.mono (by norm_num))).round hfl
  obtain ⟨g1, z1, f1, i1⟩ := inverse_factor hfl (27 * c 3)
  obtain ⟨g2, z2, f2, i2⟩ := inverse_factor hfl (fl (27 * c 3) * c 3)
  obtain ⟨g3, z3, f3, i3⟩ := inverse_factor hfl (fl (fl (27 * c 3) * c 3) * c 3)
  -- the sign of the leading coefficient
  obtain ⟨σ, hσ, hσ', hσ''⟩ : ∃ σ : ℝ, Near 0 1 σ σ ∧ σ * |c 3| = c 3 ∧ σ * σ = 1 := by
    rcases lt_or_gt_of_ne h3 with h | h
    · exact ⟨-1, ⟨by norm_num, by norm_num⟩, by rw [abs_of_neg h]; ring, by norm_num⟩
    · exact ⟨1, ⟨by norm_num, by norm_num⟩, by rw [abs_of_pos h]; ring, by norm_num⟩
  have hσ0 : σ ≠ 0 := by rintro rfl; norm_num at hσ''
  have ha : 0 < |c 3| := abs_pos.2 h3
  have hc3 : c 3 ^ 3 = σ * |c 3| ^ 3 := by
    rw [show c 3 ^ 3 = (σ * |c 3|) ^ 3 by rw [hσ'], mul_pow, show σ ^ 3 = σ by rw [pow_succ, sq, hσ'', one_mul]]
  have n3 := ((n2.mul ((i1.mul i2).mul (i3.mul hσ))).div (d := 27 * |c 3| ^ 3) (by positivity)).round hfl
  unfold q
  rw [f3]
  have hinv : σ⁻¹ = σ := by
    rw [inv_eq_iff_eq_inv, eq_comm]
    exact inv_eq_of_mul_eq_one_left hσ''
  have e0 (N : ℝ) : N / (fl (fl (27 * c 3) * c 3) * c 3 * g3) =
      N * (g1⁻¹ * g2⁻¹ * (g3⁻¹ * σ)) / (27 * |c 3| ^ 3) := by
    rw [f2, f1, show 27 * c 3 * g1 * c 3 * g2 * c 3 * g3 = 27 * (c 3 ^ 3) * (g1 * g2 * g3) by ring, hc3]
    nth_rewrite 2 [← hinv]
    field_simp
  rw [e0]
  have e2 : depressedQ c = (2 * c 2 * c 2 * c 2 - 9 * c 3 * c 2 * c 1 + 27 * c 3 * c 3 * c 0) *
      (1 * 1 * (1 * σ)) / (27 * |c 3| ^ 3) := by
    rw [depressedQ, hc3]
    nth_rewrite 2 [← hinv]
    field_simp
  have e3 : sizeQ c = (|2 * c 2 * c 2| * |c 2| + |9 * c 3| * |c 2| * |c 1| + |27 * c 3| * |c 3| * |c 0|) *
      (1 * 1 * (1 * 1)) / (27 * |c 3| ^ 3) := by
    rw [sizeQ]
    simp only [abs_mul, abs_pow, Nat.abs_ofNat]
    ring
  rw [e2, e3]
  exact n3

/-- The rounded discriminant, and the exact one of the rounded `p` and `q`. -/
theorem discriminant_near (hfl : Rounds 53 fl) {P Q p' q' p q : ℝ} (hp : Near 8 P p' p) (hq : Near 12 Q q' q) :
    Near 28 (P ^ 3 / 27 + Q ^ 2 / 4) (discriminant fl p' q') (p ^ 3 / 27 + q ^ 2 / 4) ∧
    Near 24 (P ^ 3 / 27 + Q ^ 2 / 4) (p' ^ 3 / 27 + q' ^ 2 / 4) (p ^ 3 / 27 + q ^ 2 / 4) := by
  constructor
  · have n1 := (((((hp.mul hp).round hfl).mul hp).round hfl).div (by norm_num : (0 : ℝ) < 27)).round hfl
    have n2 := ((hq.mul hq).round hfl).div (by norm_num : (0 : ℝ) < 4)
    have n3 := (n1.add (n2.mono (by norm_num))).round hfl
    unfold discriminant
    convert n3 using 1 <;> ring
  · have n1 := ((hp.mul hp).mul hp).div (by norm_num : (0 : ℝ) < 27)
    have n2 := (hq.mul hq).div (by norm_num : (0 : ℝ) < 4)
    have n3 := n1.add n2
    convert n3 using 1 <;> ring

end Ecl.CubicFloat
