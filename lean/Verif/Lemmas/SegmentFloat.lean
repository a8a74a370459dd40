import Verif.Model.SegmentFloat
import Verif.Lemmas.PolynomialFloat

/-! # Errors of distances -/
set_option autoImplicit false
set_option linter.unusedSimpArgs false

namespace Ecl.SegmentFloat
open Ecl.Spec
open Ecl.PolyFloat (round_step mul_step rel_sqrt)

/-- Euclidean length. -/
noncomputable def len (a b : ℝ) : ℝ := Real.sqrt (a ^ 2 + b ^ 2)

theorem len_nonneg (a b : ℝ) : 0 ≤ len a b := Real.sqrt_nonneg _
theorem len_sq (a b : ℝ) : len a b ^ 2 = a ^ 2 + b ^ 2 := Real.sq_sqrt (by positivity)

theorem cauchy (a b c d : ℝ) : |a * c| + |b * d| ≤ len a b * len c d := by
  have h1 := len_sq a b
  have h2 := len_sq c d
  have h3 := len_nonneg a b
  have h4 := len_nonneg c d
  refine abs_le_of_sq_le_sq' ?_ (by positivity) |>.2
  rw [mul_pow, h1, h2, abs_mul, abs_mul]
  have e1 := sq_abs a
  have e2 := sq_abs b
  have e3 := sq_abs c
  have e4 := sq_abs d
  nlinarith [sq_nonneg (|a| * |d| - |b| * |c|)]

theorem len_add (a b c d : ℝ) : len (a + c) (b + d) ≤ len a b + len c d := by
  have h1 := len_sq a b
  have h2 := len_sq c d
  have h3 := len_nonneg a b
  have h4 := len_nonneg c d
  have h5 := cauchy a b c d
  refine Real.sqrt_le_iff.2 ⟨by positivity, ?_⟩
  have := le_abs_self (a * c)
  have := le_abs_self (b * d)
  nlinarith

theorem len_neg (a b : ℝ) : len (-a) (-b) = len a b := by simp [len]

theorem len_mul (t a b : ℝ) : len (t * a) (t * b) = |t| * len a b := by
  unfold len
  rw [show (t * a) ^ 2 + (t * b) ^ 2 = t ^ 2 * (a ^ 2 + b ^ 2) by ring, Real.sqrt_mul (sq_nonneg t), Real.sqrt_sq_eq_abs]

theorem len_le (a b : ℝ) : len a b ≤ |a| + |b| := by
  refine Real.sqrt_le_iff.2 ⟨by positivity, ?_⟩
  have e1 := sq_abs a
  have e2 := sq_abs b
  have := abs_nonneg a
  have := abs_nonneg b
  nlinarith

theorem abs_le_len (a b : ℝ) : |a| ≤ len a b ∧ |b| ≤ len a b :=
  ⟨Real.abs_le_sqrt (by nlinarith [sq_nonneg b]), Real.abs_le_sqrt (by nlinarith [sq_nonneg a])⟩

/-- Lengths of differences that differ. -/
theorem len_sub (a b c d : ℝ) : |len a b - len c d| ≤ len (a - c) (b - d) := by
  have h1 := len_add (a - c) (b - d) c d
  have h2 := len_add (c - a) (d - b) a b
  have h3 := len_neg (a - c) (b - d)
  simp only [neg_sub, sub_add_cancel] at h1 h2 h3
  rw [abs_le]
  constructor <;> linarith

section
variable {p : ℕ} {fl : ℝ → ℝ} (hfl : Rounds p fl) (hp : 1 ≤ p)
include hfl hp

theorem diff_error (a b : ℝ) : |fl (a - b) - (a - b)| ≤ ((1 + 1 / 2 ^ p) ^ 1 - 1) * |a - b| := by
  rw [pow_one]
  have := round_step hfl hp (a := a - b) (b := a - b) (A := 1) le_rfl (by simp)
  rwa [one_mul] at this

/-- A sum of two products of differences. -/
theorem dot_error (a a' b b' c c' d d' : ℝ) :
    |fl (fl (fl (a - a') * fl (b - b')) + fl (fl (c - c') * fl (d - d'))) -
      ((a - a') * (b - b') + (c - c') * (d - d'))| ≤
    ((1 + 1 / 2 ^ p) ^ 4 - 1) * (|(a - a') * (b - b')| + |(c - c') * (d - d')|) := by
  have hu : (1 : ℝ) ≤ 1 + 1 / 2 ^ p := by
    have : (0 : ℝ) < 1 / 2 ^ p := by positivity
    linarith
  have term (a a' b b' : ℝ) : |fl (fl (a - a') * fl (b - b')) - (a - a') * (b - b')| ≤
      ((1 + 1 / 2 ^ p) ^ 3 - 1) * |(a - a') * (b - b')| := by
    have h := mul_step (one_le_pow₀ hu) (diff_error hfl hp a a') (diff_error hfl hp b b')
    rw [← pow_add, ← abs_mul] at h
    have := round_step hfl hp le_rfl h
    rwa [← pow_succ] at this
  have h1 := term a a' b b'
  have h2 := term c c' d d'
  rw [show (4 : ℕ) = 3 + 1 by rfl, pow_succ]
  refine round_step hfl hp (abs_add_le _ _) ?_
  rw [add_sub_add_comm]
  refine (abs_add_le _ _).trans ?_
  linarith

theorem squares_error (x y px py : ℝ) :
    |squares fl x y px py - len (x - px) (y - py) ^ 2| ≤ ((1 + 1 / 2 ^ p) ^ 4 - 1) * len (x - px) (y - py) ^ 2 := by
  have h := dot_error hfl hp x px x px y py y py
  rw [abs_mul_self, abs_mul_self] at h
  rw [len_sq, pow_two (x - px), pow_two (y - py)]
  exact h

theorem squares_nonneg (x y px py : ℝ) : 0 ≤ squares fl x y px py := by
  have h (z : ℝ) (hz : 0 ≤ z) : 0 ≤ fl z := hfl.ge (isFloat_zero p) hz
  exact h _ (add_nonneg (h _ (mul_self_nonneg _)) (h _ (mul_self_nonneg _)))

end

theorem four_bound {u : ℝ} (h0 : 0 ≤ u) (h1 : u ≤ 1 / 1000) : (1 + u) ^ 4 - 1 ≤ 4.01 * u := by
  have : (1 + u) ^ 4 - 1 = u * (4 + 6 * u + 4 * u ^ 2 + u ^ 3) := by ring
  rw [this]
  have h2 : u ^ 2 ≤ 1 / 1000 * u := by nlinarith
  have h3 : u ^ 3 ≤ 1 / 1000 * u := by nlinarith [sq_nonneg u]
  nlinarith

/-- The root of the squared distance. -/
theorem sqrt_squares {p : ℕ} {fl : ℝ → ℝ} (hfl : Rounds p fl) (hp : 10 ≤ p) (x y px py : ℝ) :
    |Real.sqrt (squares fl x y px py) - len (x - px) (y - py)| ≤ 4.01 / 2 ^ p * len (x - px) (y - py) := by
  have hp1 : 1 ≤ p := by omega
  have hu : (1 : ℝ) / 2 ^ p ≤ 1 / 1000 := by
    have : (2 : ℝ) ^ 10 ≤ 2 ^ p := pow_le_pow_right₀ (by norm_num) hp
    exact one_div_le_one_div_of_le (by norm_num) (by norm_num at this ⊢; linarith)
  have hu0 : (0 : ℝ) ≤ 1 / 2 ^ p := by positivity
  have hE := four_bound hu0 hu
  have hE0 : (1 : ℝ) ≤ (1 + 1 / 2 ^ p) ^ 4 := one_le_pow₀ (by linarith)
  have h := rel_sqrt (sq_nonneg (len (x - px) (y - py))) (by linarith) (by linarith) (squares_error hfl hp1 x y px py)
  rw [Real.sqrt_sq (len_nonneg _ _)] at h
  refine h.trans (mul_le_mul_of_nonneg_right ?_ (len_nonneg _ _))
  rw [show (4.01 : ℝ) / 2 ^ p = 4.01 * (1 / 2 ^ p) by ring]
  exact hE

/-- The parameter along the segment. -/
theorem parameter {u a b P Q D S : ℝ} (h0 : 0 ≤ u) (h1 : u ≤ 1 / 1000) (hS0 : 0 < P ^ 2 + Q ^ 2)
    (hD : |D - (a * P + b * Q)| ≤ ((1 + u) ^ 4 - 1) * (|a * P| + |b * Q|))
    (hS : |S - (P ^ 2 + Q ^ 2)| ≤ ((1 + u) ^ 4 - 1) * (P ^ 2 + Q ^ 2)) {t : ℝ} (ht : |t - D / S| ≤ u * |D / S|) :
    0 < S ∧ |t - (a * P + b * Q) / (P ^ 2 + Q ^ 2)| * len P Q ≤ 10 * u * len a b := by
  have hE := four_bound h0 h1
  have hE0 : 0 ≤ (1 + u) ^ 4 - 1 := by
    have := one_le_pow₀ (n := 4) (by linarith : 1 ≤ 1 + u)
    linarith
  have hc := cauchy a b P Q
  have hL2 := len_sq P Q
  have hL0 := len_nonneg P Q
  have hP0 := len_nonneg a b
  have hD1 : |a * P + b * Q| ≤ |a * P| + |b * Q| := abs_add_le _ _
  have hL : 0 < len P Q := by
    rcases eq_or_lt_of_le hL0 with h | h
    · rw [← h] at hL2
      rw [← hL2] at hS0
      norm_num at hS0
    · exact h
  generalize a * P + b * Q = d at *
  generalize |a * P| + |b * Q| = m at *
  generalize (1 + u) ^ 4 - 1 = E at *
  rw [← hL2] at *
  clear hL2
  generalize len P Q = L at *
  generalize len a b = K at *
  have hE1 : E ≤ 0.00401 := by linarith
  have hS' := abs_le.1 hS
  have hSlow : 0.995 * L ^ 2 ≤ S := by nlinarith [sq_nonneg L]
  have hSpos : 0 < S := by nlinarith [sq_nonneg L, pow_pos hL 2]
  refine ⟨hSpos, ?_⟩
  have hd : |d| ≤ K * L := hD1.trans hc
  have hDd : |D - d| ≤ E * (K * L) := hD.trans (mul_le_mul_of_nonneg_left hc hE0)
  have hKL : 0 ≤ K * L := by positivity
  have hDabs : |D| ≤ (1 + E) * (K * L) := by
    have := abs_sub_abs_le_abs_sub D d
    linarith
  -- the quotient
  have hq : |D / S - d / L ^ 2| ≤ 2 * E * (K * L) / S := by
    have hLne : L ^ 2 ≠ 0 := by positivity
    have e : D / S - d / L ^ 2 = ((D - d) - d * ((S - L ^ 2) / L ^ 2)) / S := by
      field_simp
      ring
    rw [e, abs_div, abs_of_pos hSpos]
    refine div_le_div_of_nonneg_right ?_ hSpos.le
    have h2 : |d * ((S - L ^ 2) / L ^ 2)| ≤ K * L * E := by
      rw [abs_mul, abs_div, abs_of_pos (by positivity : 0 < L ^ 2)]
      refine mul_le_mul hd ((div_le_iff₀ (by positivity)).2 hS) (by positivity) hKL
    refine (abs_sub _ _).trans ?_
    linarith
  have hDS : |D / S| ≤ (1 + E) * (K * L) / S := by
    rw [abs_div, abs_of_pos hSpos]
    exact div_le_div_of_nonneg_right hDabs hSpos.le
  have h3 : |t - d / L ^ 2| ≤ (u * (1 + E) + 2 * E) * (K * L) / S := by
    have := abs_sub_le t (D / S) (d / L ^ 2)
    have h4 := mul_le_mul_of_nonneg_left hDS h0
    have e : (u * (1 + E) + 2 * E) * (K * L) / S = u * ((1 + E) * (K * L) / S) + 2 * E * (K * L) / S := by ring
    linarith
  have h5 : (u * (1 + E) + 2 * E) * (K * L) / S * L ≤ 10 * u * K := by
    rw [div_mul_eq_mul_div, div_le_iff₀ hSpos]
    have e1 : u * (1 + E) + 2 * E ≤ 9.5 * u := by nlinarith
    have e2 : 10 * u * K * (0.995 * L ^ 2) ≤ 10 * u * K * S := mul_le_mul_of_nonneg_left hSlow (by positivity)
    have e3 : (u * (1 + E) + 2 * E) * (K * L ^ 2) ≤ 9.5 * u * (K * L ^ 2) :=
      mul_le_mul_of_nonneg_right e1 (by positivity)
    have e4 : 0 ≤ u * (K * L ^ 2) := by positivity
    nlinarith
  exact (mul_le_mul_of_nonneg_right h3 hL0).trans h5

/-- Cutting off to `[0, 1]`. -/
noncomputable def cut (t : ℝ) : ℝ := if t < 0 then 0 else if t > 1 then 1 else t

theorem cut_sub (s t : ℝ) : |cut s - cut t| ≤ |s - t| := by
  unfold cut
  split_ifs <;> rw [abs_le] <;> constructor <;>
    first
    | (have := le_abs_self (s - t); have := neg_abs_le (s - t); have := abs_nonneg (s - t); linarith)

theorem cut_range (t : ℝ) : 0 ≤ cut t ∧ cut t ≤ 1 := by
  unfold cut
  split_ifs <;> constructor <;> linarith

/-- A coordinate of the point. -/
theorem coordinate {p : ℕ} {fl : ℝ → ℝ} (hfl : Rounds p fl) (hp : 10 ≤ p) {M a b t : ℝ} (ha : |a| ≤ M) (hb : |b| ≤ M)
    (h0 : 0 ≤ t) (h1 : t ≤ 1) : |fl (a + fl (t * fl (b - a))) - (a + t * (b - a))| ≤ 6 / 2 ^ p * M := by
  have hp1 : 1 ≤ p := by omega
  have hu : (1 : ℝ) / 2 ^ p ≤ 1 / 1000 := by
    have : (2 : ℝ) ^ 10 ≤ 2 ^ p := pow_le_pow_right₀ (by norm_num) hp
    exact one_div_le_one_div_of_le (by norm_num) (by norm_num at this ⊢; linarith)
  have hu0 : (0 : ℝ) ≤ 1 / 2 ^ p := by positivity
  have hM : 0 ≤ M := (abs_nonneg a).trans ha
  have r1 := hfl.relative hp1 (b - a)
  have r2 := hfl.relative hp1 (t * fl (b - a))
  have r3 := hfl.relative hp1 (a + fl (t * fl (b - a)))
  rw [div_eq_mul_one_div] at r1 r2 r3
  rw [show (6 : ℝ) / 2 ^ p = 6 * (1 / 2 ^ p) by ring]
  generalize (1 : ℝ) / 2 ^ p = u at *
  generalize hd : fl (b - a) = d at *
  generalize he : fl (t * d) = e at *
  generalize fl (a + e) = g at *
  have hba : |b - a| ≤ 2 * M := by
    have := abs_sub b a
    linarith
  have hd1 : |d - (b - a)| ≤ 2 * M * u := r1.trans (mul_le_mul_of_nonneg_right hba hu0)
  have hd2 : |d| ≤ 2 * M + 2 * M * u := by
    have := abs_sub_abs_le_abs_sub d (b - a)
    linarith
  have hMu : 0 ≤ M * u := by positivity
  have htd : |t * d| ≤ 2 * M + 2 * M * u := by
    rw [abs_mul, abs_of_nonneg h0]
    have := abs_nonneg d
    nlinarith
  have he1 : |e - t * d| ≤ (2 * M + 2 * M * u) * u := r2.trans (mul_le_mul_of_nonneg_right htd hu0)
  have he2 : |e - t * (b - a)| ≤ 2 * M * u + (2 * M + 2 * M * u) * u := by
    have h3 : |t * d - t * (b - a)| ≤ 2 * M * u := by
      rw [← mul_sub, abs_mul, abs_of_nonneg h0]
      have := abs_nonneg (d - (b - a))
      nlinarith
    have := abs_sub_le e (t * d) (t * (b - a))
    linarith
  have hc : |a + t * (b - a)| ≤ M := by
    rw [abs_le] at ha hb ⊢
    constructor <;> nlinarith
  have hae : |a + e| ≤ M + (2 * M * u + (2 * M + 2 * M * u) * u) := by
    have e1 : a + e = (a + t * (b - a)) + (e - t * (b - a)) := by ring
    rw [e1]
    have := abs_add_le (a + t * (b - a)) (e - t * (b - a))
    linarith
  have hg : |g - (a + e)| ≤ (M + (2 * M * u + (2 * M + 2 * M * u) * u)) * u :=
    r3.trans (mul_le_mul_of_nonneg_right hae hu0)
  have h6 := abs_sub_le g (a + e) (a + t * (b - a))
  rw [add_sub_add_left_eq_sub] at h6
  have h7 : M * u * u ≤ M * u * (1 / 1000) := mul_le_mul_of_nonneg_left hu hMu
  have h8 : M * u * u * u ≤ M * u * (1 / 1000) := by nlinarith [mul_nonneg hMu hu0]
  nlinarith

theorem len_le_three {M a b : ℝ} (ha : |a| ≤ 2 * M) (hb : |b| ≤ 2 * M) : len a b ≤ 3 * M := by
  have hM : 0 ≤ M := by
    have := abs_nonneg a
    linarith
  refine Real.sqrt_le_iff.2 ⟨by positivity, ?_⟩
  have h1 := sq_le_sq' (abs_le.1 ha).1 (abs_le.1 ha).2
  have h2 := sq_le_sq' (abs_le.1 hb).1 (abs_le.1 hb).2
  nlinarith [sq_nonneg M]

/-- The exact distance, in terms of the cut off parameter. -/
theorem exact_len (x1 y1 x2 y2 x y : ℝ) : ∃ c, 0 ≤ c ∧ c ≤ 1 ∧
    Real.sqrt (Segment.squaredDistanceFromPoint (Segment.make x1 y1 x2 y2) x y) =
      len (x - (x1 + c * (x2 - x1))) (y - (y1 + c * (y2 - y1))) ∧
    (0 < (x2 - x1) ^ 2 + (y2 - y1) ^ 2 →
      c = cut (((x - x1) * (x2 - x1) + (y - y1) * (y2 - y1)) / ((x2 - x1) ^ 2 + (y2 - y1) ^ 2))) := by
  have e : (Segment.make x1 y1 x2 y2).x1 = x1 ∧ (Segment.make x1 y1 x2 y2).y1 = y1 ∧
      (Segment.make x1 y1 x2 y2).x2 = x2 ∧ (Segment.make x1 y1 x2 y2).y2 = y2 := by
    unfold Segment.make; split <;> exact ⟨rfl, rfl, rfl, rfl⟩
  obtain ⟨e1, e2, e3, e4⟩ := e
  by_cases hz : (x2 - x1) ^ 2 + (y2 - y1) ^ 2 = 0
  · refine ⟨0, le_rfl, zero_le_one, ?_, fun h => absurd hz h.ne'⟩
    have hz' : (x2 - x1) * (x2 - x1) + (y2 - y1) * (y2 - y1) = 0 := by rw [← hz]; ring
    unfold Segment.squaredDistanceFromPoint Segment.nearest
    simp only [e1, e2, e3, e4, hz', ne_eq, not_true, if_false]
    rw [if_pos (by norm_num)]
    simp only [len, zero_mul, add_zero, pow_two]
  · have hz' : (x2 - x1) * (x2 - x1) + (y2 - y1) * (y2 - y1) ≠ 0 := by
      intro h; apply hz; rw [← h]; ring
    refine ⟨_, (cut_range _).1, (cut_range _).2, ?_, fun _ => rfl⟩
    unfold Segment.squaredDistanceFromPoint Segment.nearest
    simp only [e1, e2, e3, e4, if_pos hz']
    rw [pow_two (x2 - x1), pow_two (y2 - y1)]
    unfold cut
    generalize ((x - x1) * (x2 - x1) + (y - y1) * (y2 - y1)) /
      ((x2 - x1) * (x2 - x1) + (y2 - y1) * (y2 - y1)) = t
    split_ifs
    · simp only [len, zero_mul, add_zero, pow_two]
    · simp only [len, one_mul, pow_two, add_sub_cancel]
    · simp only [len, pow_two]

/-- The point found with rounding, in terms of its own parameter. -/
theorem nearest_error {p : ℕ} {fl : ℝ → ℝ} (hfl : Rounds p fl) (hp : 10 ≤ p) {M x1 y1 x2 y2 x y : ℝ}
    (hx1 : |x1| ≤ M) (hy1 : |y1| ≤ M) (hx2 : |x2| ≤ M) (hy2 : |y2| ≤ M) (hx : |x| ≤ M) (hy : |y| ≤ M) :
    |len (x - (nearest fl x1 y1 x2 y2 x y).1) (y - (nearest fl x1 y1 x2 y2 x y).2) -
      Real.sqrt (Segment.squaredDistanceFromPoint (Segment.make x1 y1 x2 y2) x y)| ≤ 42 / 2 ^ p * M ∧
    Real.sqrt (Segment.squaredDistanceFromPoint (Segment.make x1 y1 x2 y2) x y) ≤ 3 * M := by
  have hp1 : 1 ≤ p := by omega
  have hu : (1 : ℝ) / 2 ^ p ≤ 1 / 1000 := by
    have : (2 : ℝ) ^ 10 ≤ 2 ^ p := pow_le_pow_right₀ (by norm_num) hp
    exact one_div_le_one_div_of_le (by norm_num) (by norm_num at this ⊢; linarith)
  have hu0 : (0 : ℝ) ≤ 1 / 2 ^ p := by positivity
  have hM : 0 ≤ M := (abs_nonneg x).trans hx
  have z0 : fl 0 = 0 := hfl.self (isFloat_zero p)
  obtain ⟨c, hc0, hc1, hc, hcut⟩ := exact_len x1 y1 x2 y2 x y
  rw [hc]
  clear hc
  have mid (a b c : ℝ) (ha : |a| ≤ M) (hb : |b| ≤ M) (h0 : 0 ≤ c) (h1 : c ≤ 1) : |a + c * (b - a)| ≤ M := by
    rw [abs_le] at ha hb ⊢
    constructor <;> nlinarith
  have two (a b : ℝ) (ha : |a| ≤ M) (hb : |b| ≤ M) : |a - b| ≤ 2 * M := by
    have := abs_sub a b
    linarith
  refine ⟨?_, len_le_three (two _ _ hx (mid _ _ _ hx1 hx2 hc0 hc1)) (two _ _ hy (mid _ _ _ hy1 hy2 hc0 hc1))⟩
  have hpos : 0 ≤ 42 / 2 ^ p * M := by positivity
  by_cases hz : (x2 - x1) ^ 2 + (y2 - y1) ^ 2 = 0
  · have hdx : x2 - x1 = 0 := by nlinarith [sq_nonneg (x2 - x1), sq_nonneg (y2 - y1)]
    have hdy : y2 - y1 = 0 := by nlinarith [sq_nonneg (x2 - x1), sq_nonneg (y2 - y1)]
    unfold nearest
    simp only [hdx, hdy, z0, mul_zero, add_zero, ne_eq, not_true, if_false]
    rw [if_pos (by norm_num)]
    simpa using hpos
  · have hS0 : 0 < (x2 - x1) ^ 2 + (y2 - y1) ^ 2 := lt_of_le_of_ne (by positivity) (Ne.symm hz)
    have hcut := hcut hS0
    have hD := dot_error hfl hp1 x x1 x2 x1 y y1 y2 y1
    have hS := dot_error hfl hp1 x2 x1 x2 x1 y2 y1 y2 y1
    rw [abs_mul_self, abs_mul_self, ← pow_two (x2 - x1), ← pow_two (y2 - y1)] at hS
    unfold nearest
    dsimp only
    generalize fl (fl (fl (x - x1) * fl (x2 - x1)) + fl (fl (y - y1) * fl (y2 - y1))) = D at *
    generalize fl (fl (fl (x2 - x1) * fl (x2 - x1)) + fl (fl (y2 - y1) * fl (y2 - y1))) = S at *
    have ht := hfl.relative hp1 (D / S)
    rw [div_eq_mul_one_div |D / S|, mul_comm |D / S|] at ht
    obtain ⟨hSp, hpar⟩ := parameter hu0 hu hS0 hD hS ht
    rw [if_pos hSp.ne']
    generalize fl (D / S) = t at *
    have hK : len (x - x1) (y - y1) ≤ 3 * M := len_le_three (two _ _ hx hx1) (two _ _ hy hy1)
    -- the point is close to that of the cut off parameter
    have hpt : ∃ qx qy, (if t < 0 then (x1, y1) else if t > 1 then (x2, y2)
        else (fl (x1 + fl (t * fl (x2 - x1))), fl (y1 + fl (t * fl (y2 - y1))))) = (qx, qy) ∧
        |qx - (x1 + cut t * (x2 - x1))| ≤ 6 / 2 ^ p * M ∧ |qy - (y1 + cut t * (y2 - y1))| ≤ 6 / 2 ^ p * M := by
      have h6 : 0 ≤ 6 / 2 ^ p * M := by positivity
      unfold cut
      split_ifs with h1 h2
      · exact ⟨_, _, rfl, by simpa using h6, by simpa using h6⟩
      · exact ⟨_, _, rfl, by simpa using h6, by simpa using h6⟩
      · exact ⟨_, _, rfl, coordinate hfl hp hx1 hx2 (not_lt.1 h1) (not_lt.1 h2),
          coordinate hfl hp hy1 hy2 (not_lt.1 h1) (not_lt.1 h2)⟩
    obtain ⟨qx, qy, e, hqx, hqy⟩ := hpt
    rw [e]
    dsimp only
    refine (len_sub _ _ _ _).trans ?_
    have hs := cut_sub t (((x - x1) * (x2 - x1) + (y - y1) * (y2 - y1)) / ((x2 - x1) ^ 2 + (y2 - y1) ^ 2))
    rw [← hcut] at hs
    have h1 := mul_le_mul_of_nonneg_right hs (len_nonneg (x2 - x1) (y2 - y1))
    rw [← len_mul] at h1
    have h2 := len_add (-(qx - (x1 + cut t * (x2 - x1)))) (-(qy - (y1 + cut t * (y2 - y1))))
      (-((cut t - c) * (x2 - x1))) (-((cut t - c) * (y2 - y1)))
    rw [len_neg, len_neg] at h2
    have h3 := len_le (qx - (x1 + cut t * (x2 - x1))) (qy - (y1 + cut t * (y2 - y1)))
    have e1 : x - qx - (x - (x1 + c * (x2 - x1))) =
      -(qx - (x1 + cut t * (x2 - x1))) + -((cut t - c) * (x2 - x1)) := by ring
    have e2 : y - qy - (y - (y1 + c * (y2 - y1))) =
      -(qy - (y1 + cut t * (y2 - y1))) + -((cut t - c) * (y2 - y1)) := by ring
    rw [e1, e2]
    have h4 := mul_le_mul_of_nonneg_left hK (by positivity : (0 : ℝ) ≤ 10 * (1 / 2 ^ p))
    have e3 : 42 / 2 ^ p * M = 6 / 2 ^ p * M + 6 / 2 ^ p * M + 10 * (1 / 2 ^ p) * (3 * M) := by ring
    linarith

/-- The root of the squared distance to a segment. -/
theorem segment_error {p : ℕ} {fl : ℝ → ℝ} (hfl : Rounds p fl) (hp : 10 ≤ p) {M x1 y1 x2 y2 x y : ℝ}
    (hx1 : |x1| ≤ M) (hy1 : |y1| ≤ M) (hx2 : |x2| ≤ M) (hy2 : |y2| ≤ M) (hx : |x| ≤ M) (hy : |y| ≤ M) :
    |Real.sqrt (squaredDistance fl x1 y1 x2 y2 x y) -
      Real.sqrt (Segment.squaredDistanceFromPoint (Segment.make x1 y1 x2 y2) x y)| ≤ 55 / 2 ^ p * M ∧
    Real.sqrt (Segment.squaredDistanceFromPoint (Segment.make x1 y1 x2 y2) x y) ≤ 3 * M := by
  obtain ⟨h1, h2⟩ := nearest_error hfl hp hx1 hy1 hx2 hy2 hx hy
  refine ⟨?_, h2⟩
  have hu : (1 : ℝ) / 2 ^ p ≤ 1 / 1000 := by
    have : (2 : ℝ) ^ 10 ≤ 2 ^ p := pow_le_pow_right₀ (by norm_num) hp
    exact one_div_le_one_div_of_le (by norm_num) (by norm_num at this ⊢; linarith)
  have hu0 : (0 : ℝ) ≤ 1 / 2 ^ p := by positivity
  have hM : 0 ≤ M := (abs_nonneg x).trans hx
  have h3 := sqrt_squares hfl hp x y (nearest fl x1 y1 x2 y2 x y).1 (nearest fl x1 y1 x2 y2 x y).2
  unfold squaredDistance
  dsimp only
  generalize Real.sqrt (squares fl x y (nearest fl x1 y1 x2 y2 x y).1 (nearest fl x1 y1 x2 y2 x y).2) = r at *
  generalize len (x - (nearest fl x1 y1 x2 y2 x y).1) (y - (nearest fl x1 y1 x2 y2 x y).2) = l at *
  generalize Real.sqrt (Segment.squaredDistanceFromPoint (Segment.make x1 y1 x2 y2) x y) = d at *
  rw [show (42 : ℝ) / 2 ^ p * M = 42 * (1 / 2 ^ p * M) by ring] at h1
  rw [show (4.01 : ℝ) / 2 ^ p * l = 4.01 * (1 / 2 ^ p) * l by ring] at h3
  rw [show (55 : ℝ) / 2 ^ p * M = 55 * (1 / 2 ^ p * M) by ring]
  generalize (1 : ℝ) / 2 ^ p = u at *
  have hl : l ≤ 3 * M + 42 * (u * M) := by
    have := (abs_le.1 h1).2
    linarith
  have h4 := abs_sub_le r l d
  have h5 := mul_le_mul_of_nonneg_left hl (by positivity : 0 ≤ 4.01 * u)
  have h6 : u * (u * M) ≤ 1 / 1000 * (u * M) := mul_le_mul_of_nonneg_right hu (by positivity)
  have h7 : 0 ≤ u * M := by positivity
  nlinarith

end Ecl.SegmentFloat
