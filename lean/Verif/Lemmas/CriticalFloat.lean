import Verif.Lemmas.ExtremaFloat
import Mathlib.Analysis.Real.Sqrt

/-! # Critical points of a cubic with rounding -/
set_option autoImplicit false
set_option linter.unusedSimpArgs false

namespace Ecl.PolyFloat
open Ecl.Spec
open Ecl.Poly (Coeffs ofList Picks raise_picks lower_picks)

variable {fl : ℝ → ℝ}

/-- Three factors close to 1. -/
theorem three_factors {u e1 e2 e3 : ℝ} (hu : 0 ≤ u) (hu' : u ≤ 1 / 1000) (h1 : |e1| ≤ u) (h2 : |e2| ≤ u) (h3 : |e3| ≤ u) :
    |(1 + e1) * (1 + e2) * (1 + e3) - 1| ≤ 4 * u := by
  have e : (1 + e1) * (1 + e2) * (1 + e3) - 1 =
      e1 + e2 + e3 + (e1 * e2 + e1 * e3 + e2 * e3) + e1 * e2 * e3 := by ring
  have h12 : |e1 * e2| ≤ u * u := by rw [abs_mul]; exact mul_le_mul h1 h2 (abs_nonneg _) hu
  have h13 : |e1 * e3| ≤ u * u := by rw [abs_mul]; exact mul_le_mul h1 h3 (abs_nonneg _) hu
  have h23 : |e2 * e3| ≤ u * u := by rw [abs_mul]; exact mul_le_mul h2 h3 (abs_nonneg _) hu
  have h123 : |e1 * e2 * e3| ≤ u * u * u := by
    rw [abs_mul]; exact mul_le_mul h12 h3 (abs_nonneg _) (by positivity)
  have huu : u * u ≤ u * (1 / 1000) := mul_le_mul_of_nonneg_left hu' hu
  have huuu : u * u * u ≤ u * (1 / 1000) := by
    have := mul_le_mul huu hu' hu (by positivity)
    linarith
  rw [abs_le] at *
  constructor <;> linarith

/-- The discriminant, with a rounded leading coefficient. -/
theorem discriminant_close (hfl : Rounds 53 fl) (a b c : ℝ) :
    |discriminant fl (fl a) b c - (b * b - 4 * a * c)| ≤ 4 * (1 / 2 ^ 53) * (b * b + 4 * |a * c|) := by
  unfold discriminant
  obtain ⟨e0, b0, h0⟩ := round_factor hfl (by norm_num) a
  obtain ⟨e1, b1, h1⟩ := round_factor hfl (by norm_num) (b * b)
  obtain ⟨e2, b2, h2⟩ := round_factor hfl (by norm_num) (4 * fl a * c)
  obtain ⟨e3, b3, h3⟩ := round_factor hfl (by norm_num) (fl (b * b) - fl (4 * fl a * c))
  rw [h3, h1, h2, h0]
  have hu : (0 : ℝ) ≤ 1 / 2 ^ 53 := by positivity
  have hu' : (1 : ℝ) / 2 ^ 53 ≤ 1 / 1000 := by norm_num
  generalize (1 : ℝ) / 2 ^ 53 = u at *
  have k1 := three_factors hu hu' b1 (e2 := 0) (by simpa using hu) b3
  have k2 := three_factors hu hu' b0 b2 b3
  have e : (b * b * (1 + e1) - 4 * (a * (1 + e0)) * c * (1 + e2)) * (1 + e3) - (b * b - 4 * a * c) =
      b * b * ((1 + e1) * (1 + 0) * (1 + e3) - 1) - 4 * (a * c) * ((1 + e0) * (1 + e2) * (1 + e3) - 1) := by ring
  rw [e]
  refine (abs_sub _ _).trans ?_
  rw [abs_mul (b * b), abs_mul (4 * (a * c)), abs_mul (4 : ℝ), abs_of_nonneg (mul_self_nonneg b),
    abs_of_pos (by norm_num : (0 : ℝ) < 4)]
  have t1 := mul_le_mul_of_nonneg_left k1 (mul_self_nonneg b)
  have t2 := mul_le_mul_of_nonneg_left k2 (by positivity : 0 ≤ 4 * |a * c|)
  linarith

/-- The candidates are close to the critical points if the discriminant is not small. -/
theorem root_close (hfl : Rounds 53 fl) {a b c s : ℝ} (ha : a ≠ 0) (hs : 0 < s) (hD : s * s = b * b - 4 * a * c)
    (hbig : 16 * (1 / 2 ^ 53 * (b * b + 4 * |a * c|)) < s * s) (σ : ℝ) (hσ : |σ| = 1) :
    0 < discriminant fl (fl a) b c ∧
    |fl (fl (-b + σ * fl (Real.sqrt (discriminant fl (fl a) b c))) / (2 * fl a)) - (-b + σ * s) / (2 * a)| ≤
      6 * (1 / 2 ^ 53 * (b * b + 4 * |a * c|) / s) / |a| := by
  have hd := discriminant_close hfl a b c
  rw [← hD] at hd
  generalize discriminant fl (fl a) b c = d at *
  have hW0 : 0 ≤ b * b + 4 * |a * c| := by have := mul_self_nonneg b; positivity
  have hWb : b * b ≤ b * b + 4 * |a * c| := by have := abs_nonneg (a * c); linarith
  have hWs : s * s ≤ b * b + 4 * |a * c| := by
    have := neg_abs_le (a * c)
    rw [hD]; linarith
  generalize b * b + 4 * |a * c| = W at *
  have hd0 : 0 < d := by
    have := abs_le.1 hd
    nlinarith
  refine ⟨hd0, ?_⟩
  obtain ⟨e0, b0, h0⟩ := round_factor hfl (by norm_num) a
  obtain ⟨e4, b4, h4⟩ := round_factor hfl (by norm_num) (Real.sqrt d)
  obtain ⟨e5, b5, h5⟩ := round_factor hfl (by norm_num) (-b + σ * fl (Real.sqrt d))
  obtain ⟨e6, b6, h6⟩ := round_factor hfl (by norm_num) (fl (-b + σ * fl (Real.sqrt d)) / (2 * fl a))
  have ht0 := Real.sqrt_nonneg d
  have htt := Real.mul_self_sqrt hd0.le
  rw [h6, h5, h4, h0]
  clear h4 h5 h6 h0
  generalize Real.sqrt d = t at *
  have hu : (0 : ℝ) < 1 / 2 ^ 53 := by positivity
  have hu' : (1 : ℝ) / 2 ^ 53 ≤ 1 / 1000 := by norm_num
  generalize (1 : ℝ) / 2 ^ 53 = u at *
  -- w = W / s, z = u w
  obtain ⟨w, hw⟩ : ∃ w, w = W / s := ⟨_, rfl⟩
  have hws : w * s = W := by rw [hw]; field_simp
  have hsw : s ≤ w := by
    rw [hw, le_div_iff₀ hs]; exact hWs
  have hbw : |b| ≤ w := by
    rw [hw, le_div_iff₀ hs]
    have h := sq_nonneg (|b| - s)
    have hb2 : |b| * |b| = b * b := abs_mul_abs_self b
    nlinarith
  obtain ⟨z, hz⟩ : ∃ z, z = u * w := ⟨_, rfl⟩
  have hz' : u * W / s = z := by rw [hz, hw]; ring
  rw [hz']
  have hzs : z * s = u * W := by rw [hz, mul_assoc, hws]
  have hw0 : 0 < w := lt_of_lt_of_le hs hsw
  have hz0 : 0 < z := by rw [hz]; positivity
  have huz : u * z ≤ z / 1000 := by
    have := mul_le_mul_of_nonneg_right hu' hz0.le
    linarith
  -- the square root
  have k3 : |t - s| ≤ 4 * z := by
    have h1 : |t - s| * (t + s) = |d - s * s| := by
      rw [← htt, ← abs_of_nonneg (by linarith : 0 ≤ t + s), ← abs_mul]
      congr 1; ring
    have h2 : |t - s| * s ≤ 4 * z * s := by
      have : |t - s| * s ≤ |t - s| * (t + s) := mul_le_mul_of_nonneg_left (by linarith) (abs_nonneg _)
      rw [mul_assoc 4 z s, hzs]
      linarith
    exact le_of_mul_le_mul_right h2 hs
  have hus : u * s ≤ z := by rw [hz]; exact mul_le_mul_of_nonneg_left hsw hu.le
  have hub : u * |b| ≤ z := by rw [hz]; exact mul_le_mul_of_nonneg_left hbw hu.le
  have k4 : |t * (1 + e4) - s| ≤ 51 / 10 * z := by
    have h1 : |t * (1 + e4) - s| ≤ |t - s| + t * |e4| := by
      rw [show t * (1 + e4) - s = (t - s) + t * e4 by ring]
      refine (abs_add_le _ _).trans ?_
      rw [abs_mul, abs_of_nonneg ht0]
    have h2 : t * |e4| ≤ t * u := mul_le_mul_of_nonneg_left b4 ht0
    have h3 : t * u ≤ (s + 4 * z) * u := mul_le_mul_of_nonneg_right (by have := abs_le.1 k3; linarith) hu.le
    linarith
  -- the numerator
  have k5 : |(-b + σ * (t * (1 + e4))) * (1 + e5) - (-b + σ * s)| ≤ 72 / 10 * z := by
    have h1 : |(-b + σ * (t * (1 + e4))) * (1 + e5) - (-b + σ * s)| ≤
        |t * (1 + e4) - s| + |-b + σ * (t * (1 + e4))| * |e5| := by
      rw [show (-b + σ * (t * (1 + e4))) * (1 + e5) - (-b + σ * s) =
        σ * (t * (1 + e4) - s) + (-b + σ * (t * (1 + e4))) * e5 by ring]
      refine (abs_add_le _ _).trans ?_
      rw [abs_mul, hσ, one_mul, abs_mul]
    have h2 : |-b + σ * (t * (1 + e4))| ≤ |b| + (s + 51 / 10 * z) := by
      refine (abs_add_le _ _).trans ?_
      rw [abs_neg, abs_mul, hσ, one_mul]
      have := abs_sub_abs_le_abs_sub (t * (1 + e4)) s
      rw [abs_of_pos hs] at this
      linarith
    have h3 : |-b + σ * (t * (1 + e4))| * |e5| ≤ (|b| + (s + 51 / 10 * z)) * u :=
      mul_le_mul h2 b5 (abs_nonneg _) (by have := abs_nonneg b; linarith)
    linarith
  have hn : |-b + σ * s| ≤ 2 * w := by
    refine (abs_add_le _ _).trans ?_
    rw [abs_neg, abs_mul, hσ, one_mul, abs_of_pos hs]
    linarith
  generalize (-b + σ * (t * (1 + e4))) * (1 + e5) = n' at *
  generalize -b + σ * s = n at *
  have b0' := abs_le.1 b0
  have b6' := abs_le.1 b6
  have hp0 : 0 < 1 + e0 := by linarith
  have e : n' / (2 * (a * (1 + e0))) * (1 + e6) - n / (2 * a) = ((n' - n) + n' * ((e6 - e0) / (1 + e0))) / (2 * a) := by
    field_simp
    ring
  have hη : |(e6 - e0) / (1 + e0)| ≤ 21 / 10 * u := by
    rw [abs_div, abs_of_pos hp0, div_le_iff₀ hp0, abs_le]
    constructor <;> nlinarith
  have hn' : |n'| ≤ 2 * w + 72 / 10 * z := by
    have := abs_sub_abs_le_abs_sub n' n
    linarith
  have k6 : |(n' - n) + n' * ((e6 - e0) / (1 + e0))| ≤ 12 * z := by
    refine (abs_add_le _ _).trans ?_
    rw [abs_mul]
    have h3 : |n'| * |(e6 - e0) / (1 + e0)| ≤ (2 * w + 72 / 10 * z) * (21 / 10 * u) :=
      mul_le_mul hn' hη (abs_nonneg _) (by positivity)
    have h4 : (2 * w + 72 / 10 * z) * (21 / 10 * u) = 42 / 10 * z + 1512 / 100 * (u * z) := by rw [hz]; ring
    linarith
  rw [e, abs_div, abs_mul, abs_of_pos (by norm_num : (0 : ℝ) < 2), div_le_div_iff₀ (by positivity) (by positivity)]
  have := mul_le_mul_of_nonneg_right k6 (abs_nonneg a)
  linarith

/-- The value near a critical point. -/
theorem value_near (c : Coeffs ℝ) {r x δ s v : ℝ} (h3 : c 3 ≠ 0) (hr : 3 * c 3 * r ^ 2 + 2 * c 2 * r + c 1 = 0)
    (hs : 0 < s) (hs' : |6 * c 3 * r + 2 * c 2| = s) (hx : |x - r| ≤ δ) (hδ : δ = 6 * (v * v / s) / |3 * c 3|)
    (hv : 0 ≤ v) (hbig : 4 * v ≤ s) :
    |Poly.eval 3 c x - Poly.eval 3 c r| ≤ 11 * v ^ 3 / (3 * c 3) ^ 2 := by
  have e : Poly.eval 3 c x - Poly.eval 3 c r =
      (6 * c 3 * r + 2 * c 2) / 2 * (x - r) ^ 2 + c 3 * (x - r) ^ 3 := by
    rw [Poly.eval3, Poly.eval3]
    linear_combination (x - r) * hr
  have h1 : |Poly.eval 3 c x - Poly.eval 3 c r| ≤ s / 2 * δ ^ 2 + |c 3| * δ ^ 3 := by
    rw [e]
    refine (abs_add_le _ _).trans ?_
    rw [abs_mul, abs_mul, abs_div, hs', abs_of_pos (by norm_num : (0 : ℝ) < 2), abs_pow, abs_pow]
    have p2 := pow_le_pow_left₀ (abs_nonneg _) hx 2
    have p3 := pow_le_pow_left₀ (abs_nonneg _) hx 3
    exact add_le_add (mul_le_mul_of_nonneg_left p2 (by positivity)) (mul_le_mul_of_nonneg_left p3 (abs_nonneg _))
  refine h1.trans ?_
  have ha : 0 < |3 * c 3| := abs_pos.2 (mul_ne_zero (by norm_num) h3)
  have ha3 : |c 3| = |3 * c 3| / 3 := by rw [abs_mul, abs_of_pos (by norm_num : (0 : ℝ) < 3)]; ring
  rw [ha3, ← sq_abs (3 * c 3)]
  generalize |3 * c 3| = A at *
  obtain ⟨z, hz⟩ : ∃ z, z = v * v / s := ⟨_, rfl⟩
  rw [← hz] at hδ
  have hz0 : 0 ≤ z := by rw [hz]; positivity
  have hzs : z * s = v * v := by rw [hz]; field_simp
  have hzv : 4 * z ≤ v := by
    have h : 4 * z * s ≤ v * s := by
      rw [mul_assoc, hzs]
      nlinarith
    exact le_of_mul_le_mul_right h hs
  have e2 : s / 2 * δ ^ 2 + A / 3 * δ ^ 3 = (18 * (v * v) * z + 72 * z ^ 3) / A ^ 2 := by
    rw [hδ, ← hzs]
    field_simp
    ring
  rw [e2]
  refine div_le_div_of_nonneg_right ?_ (by positivity)
  have t1 : v * v * (4 * z) ≤ v * v * v := mul_le_mul_of_nonneg_left hzv (mul_self_nonneg v)
  have t2 : (4 * z) ^ 3 ≤ v ^ 3 := pow_le_pow_left₀ (by positivity) hzv 3
  have t3 : 0 ≤ v ^ 3 := by positivity
  nlinarith

/-- Critical points that nearly coincide are no better than the ends. -/
theorem value_small (c : Coeffs ℝ) {r s v a b : ℝ} (h3 : c 3 ≠ 0) (hr : 3 * c 3 * r ^ 2 + 2 * c 2 * r + c 1 = 0)
    (hs : 0 < s) (hs' : |6 * c 3 * r + 2 * c 2| = s) (hsmall : s ≤ 4 * v) (ha : a < r) (hb : r < b) :
    (∃ x, (x = a ∨ x = b) ∧ Poly.eval 3 c r ≤ Poly.eval 3 c x + 11 * v ^ 3 / (3 * c 3) ^ 2) ∧
    (∃ x, (x = a ∨ x = b) ∧ Poly.eval 3 c x - 11 * v ^ 3 / (3 * c 3) ^ 2 ≤ Poly.eval 3 c r) := by
  have e (x : ℝ) : Poly.eval 3 c x - Poly.eval 3 c r =
      (6 * c 3 * r + 2 * c 2) / 2 * (x - r) ^ 2 + c 3 * (x - r) ^ 3 := by
    rw [Poly.eval3, Poly.eval3]
    linear_combination (x - r) * hr
  have hv : 0 < v := by linarith
  have hA : 0 < |3 * c 3| := abs_pos.2 (mul_ne_zero (by norm_num) h3)
  have hA3 : |c 3| = |3 * c 3| / 3 := by rw [abs_mul, abs_of_pos (by norm_num : (0 : ℝ) < 3)]; ring
  -- the least value of a cubic term and a quadratic one
  have key (A k t : ℝ) (hA : 0 < A) (hk : |k| = s) (ht : 0 ≤ t) :
      -(11 * v ^ 3 / A ^ 2) ≤ k / 2 * t ^ 2 + A / 3 * t ^ 3 := by
    have hk' : -s ≤ k := by rw [← hk]; exact neg_abs_le k
    have h1 : -(s ^ 3 / 6 / A ^ 2) ≤ -s / 2 * t ^ 2 + A / 3 * t ^ 3 := by
      have : -s / 2 * t ^ 2 + A / 3 * t ^ 3 + s ^ 3 / 6 / A ^ 2 = (A * t - s) ^ 2 * (2 * A * t + s) / 6 / A ^ 2 := by
        field_simp
        ring
      have h0 : 0 ≤ (A * t - s) ^ 2 * (2 * A * t + s) / 6 / A ^ 2 := by positivity
      linarith
    have h2 : -s / 2 * t ^ 2 ≤ k / 2 * t ^ 2 := mul_le_mul_of_nonneg_right (by linarith) (by positivity)
    have h3 : s ^ 3 / 6 / A ^ 2 ≤ 11 * v ^ 3 / A ^ 2 := by
      refine div_le_div_of_nonneg_right ?_ (by positivity)
      have := pow_le_pow_left₀ hs.le hsmall 3
      have : 0 < v ^ 3 := by positivity
      nlinarith
    linarith
  rw [← sq_abs (3 * c 3)]
  have hkn : |(-(6 * c 3 * r + 2 * c 2))| = s := by rw [abs_neg, hs']
  rcases lt_or_gt_of_ne h3 with hn | hp
  · have hA' : c 3 = -(|3 * c 3| / 3) := by rw [← hA3, abs_of_neg hn, neg_neg]
    generalize |3 * c 3| = A at *
    refine ⟨⟨a, Or.inl rfl, ?_⟩, ⟨b, Or.inr rfl, ?_⟩⟩
    · have h1 := key A _ (r - a) hA hs' (by linarith)
      have h2 := e a
      have h4 : c 3 * (a - r) ^ 3 = A / 3 * (r - a) ^ 3 := by rw [hA']; ring
      have h5 : (a - r) ^ 2 = (r - a) ^ 2 := by ring
      rw [h4, h5] at h2
      linarith
    · have h1 := key A _ (b - r) hA hkn (by linarith)
      have h2 := e b
      have h4 : c 3 * (b - r) ^ 3 = -(A / 3 * (b - r) ^ 3) := by rw [hA']; ring
      rw [h4] at h2
      linarith
  · have hA' : c 3 = |3 * c 3| / 3 := by rw [← hA3, abs_of_pos hp]
    generalize |3 * c 3| = A at *
    refine ⟨⟨b, Or.inr rfl, ?_⟩, ⟨a, Or.inl rfl, ?_⟩⟩
    · have h1 := key A _ (b - r) hA hs' (by linarith)
      have h2 := e b
      have h4 : c 3 * (b - r) ^ 3 = A / 3 * (b - r) ^ 3 := by rw [← hA']
      rw [h4] at h2
      linarith
    · have h1 := key A _ (r - a) hA hkn (by linarith)
      have h2 := e a
      have h4 : c 3 * (a - r) ^ 3 = -(A / 3 * (r - a) ^ 3) := by rw [← hA']; ring
      have h5 : (a - r) ^ 2 = (r - a) ^ 2 := by ring
      rw [h4, h5] at h2
      linarith

/-- Both candidates are tested if the rounded discriminant is positive. -/
theorem cubicExtremum_roots (hfl : Rounds 53 fl) {better : ℝ → ℝ → ℝ} {R : ℝ → ℝ → Prop} (hp : Picks better R)
    (p : Coeffs ℝ) {xb xe : ℝ} (h3 : p 3 ≠ 0) (hd : 0 < discriminant fl (fl (3 * p 3)) (2 * p 2) (p 1))
    (σ x : ℝ) (hσ : σ = 1 ∨ σ = -1) (hx : x = fl (fl (-(2 * p 2) +
      σ * fl (Real.sqrt (discriminant fl (fl (3 * p 3)) (2 * p 2) (p 1)))) / (2 * fl (3 * p 3))))
    (hin : x ∈ Set.Ioo xb xe) : R (eval fl 3 p x) (cubicExtremum fl better xb xe p) := by
  have ha : fl (3 * p 3) ≠ 0 := by
    obtain ⟨e, b, h⟩ := round_factor hfl (by norm_num) (3 * p 3)
    rw [h]
    refine mul_ne_zero (mul_ne_zero (by norm_num) h3) ?_
    have := (abs_le.1 b).1
    have : (1 : ℝ) / 2 ^ 53 < 1 := by norm_num
    intro h0
    linarith
  unfold cubicExtremum
  simp only
  rw [if_neg ha, if_pos hd]
  generalize hs : fl (Real.sqrt (discriminant fl (fl (3 * p 3)) (2 * p 2) (p 1))) = s at *
  have c1 := consider_spec (fl := fl) hp p xb xe (fl (fl (-(2 * p 2) + s) / (2 * fl (3 * p 3))))
    (better (eval fl 3 p xe) (eval fl 3 p xb))
  have c2 := consider_spec (fl := fl) hp p xb xe (fl (fl (-(2 * p 2) - s) / (2 * fl (3 * p 3))))
    (consider fl better p xb xe (fl (fl (-(2 * p 2) + s) / (2 * fl (3 * p 3)))) (better (eval fl 3 p xe) (eval fl 3 p xb)))
  rcases hσ with rfl | rfl
  · rw [one_mul] at hx
    rw [hx] at hin ⊢
    exact hp.trans _ _ _ (c1.2.1 hin) c2.1
  · rw [neg_one_mul, ← sub_eq_add_neg] at hx
    rw [hx] at hin ⊢
    exact c2.2.1 hin

/-- For every critical point inside, a value about as good has been tested. -/
theorem tested_near (hfl : Rounds 53 fl) (c : Coeffs ℝ) {a b r : ℝ} (h3 : c 3 ≠ 0) (hr : r ∈ Set.Ioo a b)
    (ht : Poly.Tested c r) {v : ℝ} (hv0 : 0 ≤ v) (hv : v * v = 1 / 2 ^ 53 * (4 * c 2 ^ 2 + 12 * |c 1 * c 3|)) :
    (∃ x ∈ Set.Icc a b, eval fl 3 c x ≤ maximumCubic fl a b c ∧
      Poly.eval 3 c r ≤ Poly.eval 3 c x + 11 * v ^ 3 / (3 * c 3) ^ 2) ∧
    (∃ x ∈ Set.Icc a b, minimumCubic fl a b c ≤ eval fl 3 c x ∧
      Poly.eval 3 c x - 11 * v ^ 3 / (3 * c 3) ^ 2 ≤ Poly.eval 3 c r) := by
  have hab : a ≤ b := (hr.1.trans hr.2).le
  obtain ⟨u1, u2, -, -⟩ := cubicExtremum_spec hfl raise_picks c hab
  obtain ⟨l1, l2, -, -⟩ := cubicExtremum_spec hfl lower_picks c hab
  have hmax : ∀ x, x = a ∨ x = b → eval fl 3 c x ≤ maximumCubic fl a b c := by
    rintro x (rfl | rfl)
    · exact u1
    · exact u2
  have hmin : ∀ x, x = a ∨ x = b → minimumCubic fl a b c ≤ eval fl 3 c x := by
    rintro x (rfl | rfl)
    · exact l1
    · exact l2
  have hend : ∀ x, x = a ∨ x = b → x ∈ Set.Icc a b := by
    rintro x (rfl | rfl)
    · exact ⟨le_rfl, hab⟩
    · exact ⟨hab, le_rfl⟩
  have hz := ht.1
  have hpos : 0 < (2 * c 2) * (2 * c 2) - 4 * (3 * c 3) * c 1 := by
    rcases ht.2 with h | h
    · exact absurd h.1 h3
    · exact h.2
  obtain ⟨s, hs⟩ : ∃ s, s = Real.sqrt ((2 * c 2) * (2 * c 2) - 4 * (3 * c 3) * c 1) := ⟨_, rfl⟩
  have hs0 : 0 < s := by rw [hs]; exact Real.sqrt_pos.2 hpos
  have hss : s * s = (2 * c 2) * (2 * c 2) - 4 * (3 * c 3) * c 1 := by rw [hs]; exact Real.mul_self_sqrt hpos.le
  have hsq : (6 * c 3 * r + 2 * c 2) ^ 2 = s ^ 2 := by
    rw [sq s, hss]; linear_combination 12 * c 3 * hz
  have hs' : |6 * c 3 * r + 2 * c 2| = s := by
    have := sq_eq_sq_iff_abs_eq_abs _ _ |>.1 hsq
    rwa [abs_of_pos hs0] at this
  rcases le_or_gt s (4 * v) with hsm | hbg
  · obtain ⟨⟨x, hx, h⟩, ⟨y, hy, h'⟩⟩ := value_small c h3 hz hs0 hs' hsm hr.1 hr.2
    exact ⟨⟨x, hend x hx, hmax x hx, h⟩, ⟨y, hend y hy, hmin y hy, h'⟩⟩
  · have hW : 1 / 2 ^ 53 * ((2 * c 2) * (2 * c 2) + 4 * |3 * c 3 * c 1|) = v * v := by
      rw [hv, show 3 * c 3 * c 1 = 3 * (c 1 * c 3) by ring, abs_mul (3 : ℝ), abs_of_pos (by norm_num : (0 : ℝ) < 3)]
      ring
    have hbig : 16 * (1 / 2 ^ 53 * ((2 * c 2) * (2 * c 2) + 4 * |3 * c 3 * c 1|)) < s * s := by
      rw [hW]
      nlinarith
    obtain ⟨σ, hσ, hrσ⟩ : ∃ σ : ℝ, (σ = 1 ∨ σ = -1) ∧ r = (-(2 * c 2) + σ * s) / (2 * (3 * c 3)) := by
      have h6 : (2 * (3 * c 3)) ≠ 0 := mul_ne_zero two_ne_zero (mul_ne_zero (by norm_num) h3)
      rcases sq_eq_sq_iff_eq_or_eq_neg.1 hsq with h | h
      · exact ⟨1, Or.inl rfl, by rw [eq_div_iff h6]; linarith⟩
      · exact ⟨-1, Or.inr rfl, by rw [eq_div_iff h6]; linarith⟩
    have hσ1 : |σ| = 1 := by rcases hσ with rfl | rfl <;> simp
    obtain ⟨hd, hclose⟩ := root_close hfl (mul_ne_zero (by norm_num) h3) hs0 hss hbig σ hσ1
    rw [hW, ← hrσ] at hclose
    obtain ⟨x, hx⟩ : ∃ x, x = fl (fl (-(2 * c 2) +
      σ * fl (Real.sqrt (discriminant fl (fl (3 * c 3)) (2 * c 2) (c 1)))) / (2 * fl (3 * c 3))) := ⟨_, rfl⟩
    rw [← hx] at hclose
    have near (y : ℝ) (hy : |y - r| ≤ |x - r|) :
        |Poly.eval 3 c y - Poly.eval 3 c r| ≤ 11 * v ^ 3 / (3 * c 3) ^ 2 :=
      value_near c h3 hz hs0 hs' (hy.trans hclose) rfl hv0 hbg.le
    obtain ⟨y, hyin, hy1, hy2, hy⟩ : ∃ y ∈ Set.Icc a b, eval fl 3 c y ≤ maximumCubic fl a b c ∧
        minimumCubic fl a b c ≤ eval fl 3 c y ∧ |y - r| ≤ |x - r| := by
      rcases le_or_gt x a with h | h
      · refine ⟨a, ⟨le_rfl, hab⟩, u1, l1, ?_⟩
        rw [abs_sub_comm, abs_sub_comm x, abs_of_pos (by linarith [hr.1]), abs_of_pos (by linarith [hr.1])]
        linarith
      rcases le_or_gt b x with h' | h'
      · refine ⟨b, ⟨hab, le_rfl⟩, u2, l2, ?_⟩
        rw [abs_of_pos (by linarith [hr.2]), abs_of_pos (by linarith [hr.2])]
        linarith
      · exact ⟨x, ⟨h.le, h'.le⟩, cubicExtremum_roots hfl raise_picks c h3 hd σ x hσ hx ⟨h, h'⟩,
          cubicExtremum_roots hfl lower_picks c h3 hd σ x hσ hx ⟨h, h'⟩, le_rfl⟩
    have hn := abs_le.1 (near y hy)
    exact ⟨⟨y, hyin, hy1, by linarith⟩, ⟨y, hyin, hy2, by linarith⟩⟩

end Ecl.PolyFloat
