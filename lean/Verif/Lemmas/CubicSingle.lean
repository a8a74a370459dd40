import Verif.Lemmas.CubicResidual

/-! # How nearly a cubic vanishes at a single rounded root -/
set_option autoImplicit false

namespace Ecl.CubicFloat
open Ecl.Spec Ecl.PolyFloat

variable {fl : ℝ → ℝ}

/-- The cube root of the accuracy of cube roots. -/
noncomputable def rough : ℝ := 1 / 2 ^ 14

theorem rough_pos : 0 < rough := by norm_num [rough]

theorem rough_small : rough ≤ 1 / 10000 := by norm_num [rough]

theorem unit_rough : unit ≤ rough ^ 3 / 2000 := by norm_num [rough, unit]

theorem cube_distance (x y : ℝ) : |x - y| ^ 3 ≤ 4 * |x ^ 3 - y ^ 3| := by
  have e : x ^ 3 - y ^ 3 = (x - y) * (x ^ 2 + x * y + y ^ 2) := by ring
  have h : |x - y| ^ 2 ≤ 4 * |x ^ 2 + x * y + y ^ 2| := by
    rw [sq_abs]
    refine le_trans ?_ (mul_le_mul_of_nonneg_left (le_abs_self _) (by norm_num))
    nlinarith [sq_nonneg (x + y)]
  rw [e, abs_mul]
  have := mul_le_mul_of_nonneg_left h (abs_nonneg (x - y))
  linarith [show |x - y| ^ 3 = |x - y| * |x - y| ^ 2 by ring]

theorem le_of_cube_le {x y : ℝ} (hy : 0 ≤ y) (h : x ^ 3 ≤ y ^ 3) : x ≤ y := by
  by_contra hc
  have := pow_lt_pow_left₀ (not_le.1 hc) hy (by norm_num : (3 : ℕ) ≠ 0)
  linarith

set_option maxHeartbeats 1000000 in
/-- Cardano's formula. -/
theorem cardano_err (hfl : Rounds 53 fl) {m : Libm} (hm : AccurateLibm m) {p q σ : ℝ} (hd : 0 ≤ discriminant fl p q)
    (hσ0 : 0 ≤ σ) (hσ : σ ^ 3 = |q| / 2 + fl (Real.sqrt (discriminant fl p q))) {U V : ℝ}
    (hU : U = m.cubeRoot (fl (-q / 2 + fl (Real.sqrt (discriminant fl p q)))))
    (hV : V = m.cubeRoot (fl (-q / 2 - fl (Real.sqrt (discriminant fl p q))))) :
    |(U + V) ^ 3 + p * (U + V) + q| ≤ 15 * rough * σ ^ 3 ∧ |U + V| ≤ 2.1 * σ := by
  have hu := unit_pos
  have hu' := unit_small
  have hur := unit_rough
  have hη := rough_pos
  have hη' := rough_small
  have hD := discriminant_err hfl p q
  obtain ⟨e, be, he⟩ := round_factor hfl (by norm_num) (Real.sqrt (discriminant fl p q))
  have hsq := Real.sq_sqrt hd
  have hh0 : 0 ≤ fl (Real.sqrt (discriminant fl p q)) := hfl.ge (isFloat_zero 53) (Real.sqrt_nonneg _)
  have hUa := hm.cubeRoot (fl (-q / 2 + fl (Real.sqrt (discriminant fl p q))))
  have hVb := hm.cubeRoot (fl (-q / 2 - fl (Real.sqrt (discriminant fl p q))))
  rw [← hU] at hUa
  rw [← hV] at hVb
  have ha := round_err hfl (-q / 2 + fl (Real.sqrt (discriminant fl p q)))
  have hb := round_err hfl (-q / 2 - fl (Real.sqrt (discriminant fl p q)))
  rw [show (1 : ℝ) / 2 ^ 42 = rough ^ 3 by norm_num [rough]] at hUa hVb
  change |e| ≤ unit at be
  clear hU hV
  generalize fl (-q / 2 + fl (Real.sqrt (discriminant fl p q))) = a at *
  generalize fl (-q / 2 - fl (Real.sqrt (discriminant fl p q))) = b at *
  generalize fl (Real.sqrt (discriminant fl p q)) = h at *
  generalize Real.sqrt (discriminant fl p q) = r at *
  generalize discriminant fl p q = D at *
  have hη3 : 0 < rough ^ 3 := by positivity
  have hη3' : rough ^ 3 ≤ rough / 10000 := by
    have : rough ^ 2 ≤ 1 / 10000 := by nlinarith
    nlinarith
  generalize rough = η at *
  generalize unit = u at *
  have hq0 := abs_nonneg q
  have hq2 : q ^ 2 = |q| ^ 2 := (sq_abs q).symm
  -- the size
  obtain ⟨S, hS⟩ : ∃ S, S = σ ^ 3 := ⟨_, rfl⟩
  have hS0 : 0 ≤ S := by rw [hS]; positivity
  rw [← hS] at hσ ⊢
  have hhS : h ≤ S := by linarith
  have hqS : |q| / 2 ≤ S := by linarith
  have a0 : |-q / 2 + h| ≤ S := by
    refine (abs_add_le _ _).trans ?_
    rw [abs_div, abs_neg, abs_of_pos (by norm_num : (0 : ℝ) < 2), abs_of_nonneg hh0]
    linarith
  have b0 : |-q / 2 - h| ≤ S := by
    refine (abs_sub _ _).trans ?_
    rw [abs_div, abs_neg, abs_of_pos (by norm_num : (0 : ℝ) < 2), abs_of_nonneg hh0]
    linarith
  have ha' : |a - (-q / 2 + h)| ≤ u * S := ha.trans (mul_le_mul_of_nonneg_left a0 hu.le)
  have hb' : |b - (-q / 2 - h)| ≤ u * S := hb.trans (mul_le_mul_of_nonneg_left b0 hu.le)
  have huS : u * S ≤ 1 / 1000000 * S := mul_le_mul_of_nonneg_right hu' hS0
  have haS : |a| ≤ 1.001 * S := by
    have := abs_sub_abs_le_abs_sub a (-q / 2 + h)
    linarith
  have hbS : |b| ≤ 1.001 * S := by
    have := abs_sub_abs_le_abs_sub b (-q / 2 - h)
    linarith
  -- the square root
  have be' := abs_le.1 be
  have hS2 : h ^ 2 ≤ S ^ 2 := pow_le_pow_left₀ hh0 hhS 2
  have hhD : h ^ 2 = D * (1 + e) ^ 2 := by rw [he, mul_pow, hsq]
  have hDS : D ≤ 1.001 * S ^ 2 := by
    have h1 : (1 - u) ^ 2 ≤ (1 + e) ^ 2 := pow_le_pow_left₀ (by linarith) (by linarith) 2
    have h2 : D * (0.9999 : ℝ) ≤ D * (1 + e) ^ 2 := by
      refine mul_le_mul_of_nonneg_left ?_ hd
      nlinarith
    linarith
  have hhD' : |h ^ 2 - D| ≤ 3 * u * S ^ 2 := by
    rw [hhD, show D * (1 + e) ^ 2 - D = D * (e * (2 + e)) by ring, abs_mul, abs_of_nonneg hd, abs_mul]
    have h1 : |2 + e| ≤ 2.1 := by rw [abs_le]; constructor <;> linarith
    have h2 := mul_le_mul be h1 (abs_nonneg _) hu.le
    have h3 := mul_le_mul hDS h2 (by positivity) (by positivity)
    have h4 : 0 ≤ u * S ^ 2 := by positivity
    linarith
  -- the terms of the discriminant
  have hp3 : |p ^ 3| = |p| ^ 3 := abs_pow p 3
  have hT0 : 0 ≤ |p| ^ 3 / 27 + q ^ 2 / 4 := by positivity
  have hT : |p| ^ 3 / 27 + q ^ 2 / 4 ≤ 2.1 * S ^ 2 := by
    have h1 : |p| ^ 3 / 27 ≤ |p ^ 3 / 27 + q ^ 2 / 4| + q ^ 2 / 4 := by
      have := abs_sub_abs_le_abs_sub (p ^ 3 / 27) (-(q ^ 2 / 4))
      rw [abs_neg, abs_div, hp3, abs_of_pos (by norm_num : (0 : ℝ) < 27), sub_neg_eq_add,
        abs_of_nonneg (by positivity : 0 ≤ q ^ 2 / 4)] at this
      linarith
    have h2 := abs_sub_abs_le_abs_sub (p ^ 3 / 27 + q ^ 2 / 4) D
    rw [abs_of_nonneg hd, abs_sub_comm] at h2
    have h3 : 5 * u * (|p| ^ 3 / 27 + q ^ 2 / 4) ≤ 1 / 1000 * (|p| ^ 3 / 27 + q ^ 2 / 4) :=
      mul_le_mul_of_nonneg_right (by linarith) hT0
    have h4 : h ^ 2 + q ^ 2 / 2 ≤ 2 * S ^ 2 := by
      rw [hσ, hq2]
      nlinarith [mul_nonneg hq0 hh0]
    have h5 : D ≤ 1.001 * h ^ 2 := by
      have h1 : (1 - u) ^ 2 ≤ (1 + e) ^ 2 := pow_le_pow_left₀ (by linarith) (by linarith) 2
      have h2 : D * (0.9999 : ℝ) ≤ D * (1 + e) ^ 2 := by
        refine mul_le_mul_of_nonneg_left ?_ hd
        nlinarith
      have := sq_nonneg h
      linarith
    have := sq_nonneg S
    have := sq_nonneg q
    linarith
  -- the product of the arguments of the cube roots
  have hab : |a * b + p ^ 3 / 27| ≤ 17 * u * S ^ 2 := by
    have h1 : a * b + p ^ 3 / 27 = (a - (-q / 2 + h)) * b + (-q / 2 + h) * (b - (-q / 2 - h)) + (D - h ^ 2) +
        -(D - (p ^ 3 / 27 + q ^ 2 / 4)) := by ring
    rw [h1]
    have t1 := abs_add_le ((a - (-q / 2 + h)) * b + (-q / 2 + h) * (b - (-q / 2 - h)) + (D - h ^ 2))
      (-(D - (p ^ 3 / 27 + q ^ 2 / 4)))
    have t2 := abs_add_le ((a - (-q / 2 + h)) * b + (-q / 2 + h) * (b - (-q / 2 - h))) (D - h ^ 2)
    have t3 := abs_add_le ((a - (-q / 2 + h)) * b) ((-q / 2 + h) * (b - (-q / 2 - h)))
    rw [abs_neg] at t1
    rw [abs_sub_comm D] at t2
    rw [abs_mul, abs_mul] at t3
    have t4 := mul_le_mul ha' hbS (abs_nonneg _) (by positivity)
    have t5 := mul_le_mul a0 hb' (abs_nonneg _) hS0
    have t6 := mul_le_mul_of_nonneg_left hT (show 0 ≤ 5 * u by linarith)
    have e1 : u * S * (1.001 * S) = 1.001 * (u * S ^ 2) := by ring
    have e2 : S * (u * S) = u * S ^ 2 := by ring
    have e3 : 5 * u * (2.1 * S ^ 2) = 10.5 * (u * S ^ 2) := by ring
    have e4 : 0 ≤ u * S ^ 2 := by positivity
    rw [e1] at t4
    rw [e2] at t5
    rw [e3] at t6
    linarith
  -- the cube roots
  have hUa' : |U ^ 3 - a| ≤ 1.001 * (η ^ 3 * S) :=
    hUa.trans (by have := mul_le_mul_of_nonneg_left haS hη3.le; linarith)
  have hVb' : |V ^ 3 - b| ≤ 1.001 * (η ^ 3 * S) :=
    hVb.trans (by have := mul_le_mul_of_nonneg_left hbS hη3.le; linarith)
  have hηS : η ^ 3 * S ≤ 1 / 100000 * S := mul_le_mul_of_nonneg_right (by linarith) hS0
  have hηS0 : 0 ≤ η ^ 3 * S := by positivity
  have hU3 : |U ^ 3| ≤ 1.002 * S := by
    have := abs_sub_abs_le_abs_sub (U ^ 3) a
    linarith
  have hV3 : |V ^ 3| ≤ 1.002 * S := by
    have := abs_sub_abs_le_abs_sub (V ^ 3) b
    linarith
  have hUV : |(3 * (U * V)) ^ 3 - (-p) ^ 3| ≤ 57 * (η ^ 3 * S ^ 2) := by
    have h1 : (3 * (U * V)) ^ 3 - (-p) ^ 3 = 27 * ((U ^ 3 - a) * V ^ 3 + a * (V ^ 3 - b) + (a * b + p ^ 3 / 27)) := by
      ring
    rw [h1, abs_mul, abs_of_pos (by norm_num : (0 : ℝ) < 27)]
    have t1 := abs_add_le ((U ^ 3 - a) * V ^ 3 + a * (V ^ 3 - b)) (a * b + p ^ 3 / 27)
    have t2 := abs_add_le ((U ^ 3 - a) * V ^ 3) (a * (V ^ 3 - b))
    rw [abs_mul, abs_mul] at t2
    have t3 := mul_le_mul hUa' hV3 (abs_nonneg _) (by positivity)
    have t4 := mul_le_mul haS hVb' (abs_nonneg _) (by positivity)
    have t5 := mul_le_mul_of_nonneg_right hur (sq_nonneg S)
    have e1 : 1.001 * (η ^ 3 * S) * (1.002 * S) = 1.003002 * (η ^ 3 * S ^ 2) := by ring
    have e2 : 1.001 * S * (1.001 * (η ^ 3 * S)) = 1.002001 * (η ^ 3 * S ^ 2) := by ring
    have e3 : 0 ≤ η ^ 3 * S ^ 2 := by positivity
    rw [e1] at t3
    rw [e2] at t4
    linarith
  have hw : |3 * (U * V) + p| ≤ 7 * η * σ ^ 2 := by
    refine le_of_cube_le (by positivity) ?_
    have := cube_distance (3 * (U * V)) (-p)
    rw [sub_neg_eq_add] at this
    refine this.trans ?_
    have e1 : (7 * η * σ ^ 2) ^ 3 = 343 * (η ^ 3 * S ^ 2) := by rw [hS]; ring
    have e3 : 0 ≤ η ^ 3 * S ^ 2 := by positivity
    rw [e1]
    linarith
  have hsum : |U + V| ≤ 2.1 * σ := by
    refine le_of_cube_le (by positivity) ?_
    have := cube_distance U (-V)
    rw [sub_neg_eq_add] at this
    refine this.trans ?_
    have h2 := abs_sub (U ^ 3) ((-V) ^ 3)
    rw [show (-V) ^ 3 = -(V ^ 3) by ring, abs_neg] at h2
    rw [mul_pow, ← hS, show (-V) ^ 3 = -(V ^ 3) by ring]
    norm_num at *
    linarith
  refine ⟨?_, hsum⟩
  have e1 : (U + V) ^ 3 + p * (U + V) + q = (U ^ 3 - a) + (V ^ 3 - b) + ((a - (-q / 2 + h)) + (b - (-q / 2 - h))) +
      (3 * (U * V) + p) * (U + V) := by ring
  rw [e1]
  have t1 := abs_add_le ((U ^ 3 - a) + (V ^ 3 - b) + ((a - (-q / 2 + h)) + (b - (-q / 2 - h))))
    ((3 * (U * V) + p) * (U + V))
  have t2 := abs_add_le ((U ^ 3 - a) + (V ^ 3 - b)) ((a - (-q / 2 + h)) + (b - (-q / 2 - h)))
  have t3 := abs_add_le (U ^ 3 - a) (V ^ 3 - b)
  have t4 := abs_add_le (a - (-q / 2 + h)) (b - (-q / 2 - h))
  rw [abs_mul] at t1
  have t5 := mul_le_mul hw hsum (abs_nonneg _) (by positivity)
  have e2 : 7 * η * σ ^ 2 * (2.1 * σ) = 14.7 * (η * S) := by rw [hS]; ring
  rw [e2] at t5
  have t6 := mul_le_mul_of_nonneg_right hur hS0
  have t7 := mul_le_mul_of_nonneg_right hη3' hS0
  have t8 : 0 ≤ η * S := by positivity
  linarith

/-- Adding the shift. -/
theorem shifted_single (hfl : Rounds 53 fl) {s s' t w : ℝ} (ht : |t - w| ≤ unit * |w|)
    (hs' : |s' - s| ≤ 4 * unit * |s|) : |fl (t + s') - s - w| ≤ 7 * unit * (|w| + |s|) := by
  have hu := unit_pos
  have hu' := unit_small
  have h1 : |t + s' - (w + s)| ≤ unit * |w| + 4 * unit * |s| := by
    rw [add_sub_add_comm]
    exact (abs_add_le _ _).trans (add_le_add ht hs')
  have h2 := round_err' hfl h1 (abs_add_le w s)
  rw [show fl (t + s') - s - w = fl (t + s') - (w + s) by ring]
  refine h2.trans ?_
  have h3 : unit * (unit * |w| + 4 * unit * |s|) ≤ unit * (1 / 2 * (|w| + |s|)) := by
    refine mul_le_mul_of_nonneg_left ?_ hu.le
    have := mul_le_mul_of_nonneg_right hu' (abs_nonneg w)
    have := mul_le_mul_of_nonneg_right hu' (abs_nonneg s)
    have := abs_nonneg s
    have := abs_nonneg w
    linarith
  have h4 := mul_nonneg hu.le (abs_nonneg s)
  have h5 := mul_nonneg hu.le (abs_nonneg w)
  linarith

set_option maxHeartbeats 1000000 in
/-- From an approximate root of the rounded depressed cubic to the polynomial. -/
theorem residual_single {p' q' p q s x w P Q R ζ : ℝ} (hsol : |w ^ 3 + p' * w + q'| ≤ 17 * rough * ζ ^ 3)
    (hw : |w| ≤ 2.2 * ζ) (hy : |x - s - w| ≤ 7 * unit * (|w| + |s|)) (hp : |p' - p| ≤ 9 * unit * P)
    (hq : |q' - q| ≤ 13 * unit * Q) (hpP : |p| ≤ P) (hsP : 3 * s ^ 2 ≤ P) (hR0 : 0 ≤ R) (hR : R ^ 2 = P) (hQ : 0 ≤ Q)
    (hζ0 : 0 ≤ ζ) (hζ : ζ ^ 3 = R ^ 3 + Q) : |(x - s) ^ 3 + p * (x - s) + q| ≤ 18 * rough * ζ ^ 3 := by
  have hu := unit_pos
  have hu' := unit_small
  have hur := unit_rough
  have hη := rough_pos
  have hη' := rough_small
  have hη3' : rough ^ 3 ≤ rough / 10000 := by
    have : rough ^ 2 ≤ 1 / 10000 := by nlinarith
    nlinarith
  generalize x - s = y at *
  have hRζ : R ≤ ζ := le_of_cube_le hζ0 (by linarith)
  have hsζ : |s| ≤ ζ := by
    have : |s| ≤ R := by
      rw [abs_le]
      refine abs_le_of_sq_le_sq' ?_ hR0
      have := sq_nonneg s
      linarith
    linarith
  have hP : P ≤ ζ ^ 2 := by
    rw [← hR]
    exact pow_le_pow_left₀ hR0 hRζ 2
  have hP0 : 0 ≤ P := (abs_nonneg _).trans hpP
  have hQζ : Q ≤ ζ ^ 3 := by
    have := pow_nonneg hR0 3
    linarith
  generalize unit = u at *
  have hyw : |y - w| ≤ 23 * u * ζ := by
    have : 7 * u * (|w| + |s|) ≤ 7 * u * (3.2 * ζ) := mul_le_mul_of_nonneg_left (by linarith) (by linarith)
    have := mul_nonneg hu.le hζ0
    linarith
  have huζ := mul_le_mul_of_nonneg_right hu' hζ0
  have hyw' : |y - w| ≤ 1 / 10 * ζ := by linarith
  have hy' : |y| ≤ 2.3 * ζ := by
    have := abs_sub_abs_le_abs_sub y w
    linarith
  have hp' : |p'| ≤ 1.1 * ζ ^ 2 := by
    have h1 := abs_sub_abs_le_abs_sub p' p
    have h2 : 9 * u * P ≤ 1 / 10 * P := mul_le_mul_of_nonneg_right (by linarith) hP0
    linarith
  have hz2 := sq_nonneg ζ
  have hz3 := pow_nonneg hζ0 3
  have h1 : |(y - w) * (y ^ 2 + y * w + w ^ 2 + p')| ≤ 23 * u * ζ * (20 * ζ ^ 2) := by
    rw [abs_mul]
    refine mul_le_mul hyw ?_ (abs_nonneg _) (by positivity)
    have t1 := abs_add_le (y ^ 2 + y * w + w ^ 2) p'
    have t2 := abs_add_le (y ^ 2 + y * w) (w ^ 2)
    have t3 := abs_add_le (y ^ 2) (y * w)
    rw [abs_mul, abs_pow] at t3
    rw [abs_pow w] at t2
    have t4 := pow_le_pow_left₀ (abs_nonneg _) hy' 2
    have t5 := pow_le_pow_left₀ (abs_nonneg _) hw 2
    have t6 := mul_le_mul hy' hw (abs_nonneg _) (by positivity)
    have t7 : 2.3 * ζ * (2.2 * ζ) = 5.06 * ζ ^ 2 := by ring
    rw [t7] at t6
    rw [mul_pow] at t4 t5
    linarith
  have h2 : |(p' - p) * y| ≤ 9 * u * ζ ^ 2 * (2.3 * ζ) := by
    rw [abs_mul]
    exact mul_le_mul (hp.trans (mul_le_mul_of_nonneg_left hP (by linarith))) hy' (abs_nonneg _) (by positivity)
  have h3 : |q' - q| ≤ 13 * u * ζ ^ 3 := hq.trans (mul_le_mul_of_nonneg_left hQζ (by linarith))
  have e : y ^ 3 + p * y + q = (w ^ 3 + p' * w + q') + (y - w) * (y ^ 2 + y * w + w ^ 2 + p') - (p' - p) * y -
      (q' - q) := by ring
  rw [e]
  have s1 := abs_sub ((w ^ 3 + p' * w + q') + (y - w) * (y ^ 2 + y * w + w ^ 2 + p') - (p' - p) * y) (q' - q)
  have s2 := abs_sub ((w ^ 3 + p' * w + q') + (y - w) * (y ^ 2 + y * w + w ^ 2 + p')) ((p' - p) * y)
  have s3 := abs_add_le (w ^ 3 + p' * w + q') ((y - w) * (y ^ 2 + y * w + w ^ 2 + p'))
  have e1 : 23 * u * ζ * (20 * ζ ^ 2) = 460 * (u * ζ ^ 3) := by ring
  have e2 : 9 * u * ζ ^ 2 * (2.3 * ζ) = 20.7 * (u * ζ ^ 3) := by ring
  rw [e1] at h1
  rw [e2] at h2
  have t6 := mul_le_mul_of_nonneg_right hur hz3
  have t7 := mul_le_mul_of_nonneg_right hη3' hz3
  have t8 : 0 ≤ rough * ζ ^ 3 := by positivity
  linarith

set_option maxHeartbeats 1000000 in
/-- The branches with a single result. -/
theorem roots_single (hfl : Rounds 53 fl) {m : Libm} (hm : AccurateLibm m) {p' q' s s' x P Q R ζ : ℝ}
    (hs' : |s' - s| ≤ 4 * unit * |s|) (hx : roots fl m p' q' (discriminant fl p' q') s' = [some x])
    (hp : |p'| ≤ 1.001 * P) (hq : |q'| ≤ 1.001 * Q) (hR0 : 0 ≤ R) (hR : R ^ 2 = P) (hQ : 0 ≤ Q)
    (hζ0 : 0 ≤ ζ) (hζ : ζ ^ 3 = R ^ 3 + Q) :
    ∃ w : ℝ, |w ^ 3 + p' * w + q'| ≤ 17 * rough * ζ ^ 3 ∧ |w| ≤ 2.2 * ζ ∧ |x - s - w| ≤ 7 * unit * (|w| + |s|) := by
  have hu := unit_pos
  have hu' := unit_small
  have hη := rough_pos
  have hη' := rough_small
  have hz3 := pow_nonneg hζ0 3
  have hηz := mul_nonneg hη.le hz3
  have hR3 := pow_nonneg hR0 3
  unfold roots at hx
  split at hx
  · next h =>
    simp only [List.cons.injEq, Option.some.injEq, and_true] at hx
    subst hx
    refine ⟨0, ?_, by rw [abs_zero]; linarith, ?_⟩
    · rw [h.2, show (0 : ℝ) ^ 3 + p' * 0 + 0 = 0 by ring, abs_zero]
      linarith
    · rw [sub_zero, abs_zero, zero_add]
      have := mul_nonneg hu.le (abs_nonneg s)
      linarith
  split at hx
  · next h =>
    simp only [List.cons.injEq, Option.some.injEq, and_true] at hx
    subst hx
    have hc := hm.cubeRoot (-q')
    rw [show (1 : ℝ) / 2 ^ 42 = rough ^ 3 by norm_num [rough], abs_neg, sub_neg_eq_add] at hc
    have hη3' : rough ^ 3 ≤ rough / 10000 := by
      have : rough ^ 2 ≤ 1 / 10000 := by nlinarith
      nlinarith
    have h1 : |m.cubeRoot (-q') ^ 3 + q'| ≤ rough * ζ ^ 3 := by
      refine hc.trans ?_
      have := mul_le_mul hη3' hq (abs_nonneg _) (by positivity)
      have : rough * Q ≤ rough * ζ ^ 3 := mul_le_mul_of_nonneg_left (by linarith) hη.le
      have := mul_nonneg hη.le hQ
      linarith
    refine ⟨m.cubeRoot (-q'), ?_, ?_, shifted_single hfl ?_ hs'⟩
    · rw [h, zero_mul, add_zero]
      linarith
    · refine le_of_cube_le (by positivity) ?_
      rw [← abs_pow, mul_pow]
      have h2 := abs_sub_abs_le_abs_sub (m.cubeRoot (-q') ^ 3) (-q')
      rw [sub_neg_eq_add, abs_neg] at h2
      have h3 := mul_le_mul_of_nonneg_right hη' hz3
      norm_num at *
      linarith
    · rw [sub_self, abs_zero]
      positivity
  split at hx
  · simp at hx
  split at hx
  · simp at hx
  split at hx
  swap
  · split at hx <;> simp at hx
  next hd =>
  simp only [List.cons.injEq, Option.some.injEq, and_true] at hx
  subst hx
  have hd : 0 ≤ discriminant fl p' q' := hd
  have hh0 : 0 ≤ fl (Real.sqrt (discriminant fl p' q')) := hfl.ge (isFloat_zero 53) (Real.sqrt_nonneg _)
  have hσ := Poly.cubeRoot_cube (|q'| / 2 + fl (Real.sqrt (discriminant fl p' q')))
  have hσ0 : 0 ≤ Math.cubeRoot (|q'| / 2 + fl (Real.sqrt (discriminant fl p' q'))) := by
    by_contra h
    have := pow_pos (neg_pos.2 (not_le.1 h)) 3
    rw [show (-Math.cubeRoot (|q'| / 2 + fl (Real.sqrt (discriminant fl p' q')))) ^ 3 =
      -(Math.cubeRoot (|q'| / 2 + fl (Real.sqrt (discriminant fl p' q'))) ^ 3) by ring, hσ] at this
    have := abs_nonneg q'
    linarith
  obtain ⟨h1, h2⟩ := cardano_err hfl hm hd hσ0 hσ rfl rfl
  -- the size
  have hS : |q'| / 2 + fl (Real.sqrt (discriminant fl p' q')) ≤ 1.1 * ζ ^ 3 := by
    obtain ⟨e, be, he⟩ := round_factor hfl (by norm_num) (Real.sqrt (discriminant fl p' q'))
    have hD := (abs_le.1 (discriminant_err hfl p' q')).2
    have hsq := Real.sq_sqrt hd
    change |e| ≤ unit at be
    have be' := abs_le.1 be
    rw [he]
    have hs0 := Real.sqrt_nonneg (discriminant fl p' q')
    generalize Real.sqrt (discriminant fl p' q') = r at *
    have hP0 : 0 ≤ P := by rw [← hR]; positivity
    have hp3 : |p'| ^ 3 ≤ 1.01 * (R ^ 3) ^ 2 := by
      have h := pow_le_pow_left₀ (abs_nonneg _) hp 3
      rw [mul_pow, ← hR, show (R ^ 2) ^ 3 = (R ^ 3) ^ 2 by ring] at h
      have := sq_nonneg (R ^ 3)
      norm_num at h ⊢
      linarith
    have hq2 : q' ^ 2 ≤ 1.01 * Q ^ 2 := by
      have h := pow_le_pow_left₀ (abs_nonneg _) hq 2
      rw [mul_pow, sq_abs] at h
      have := sq_nonneg Q
      norm_num at h ⊢
      linarith
    have hp3' : p' ^ 3 ≤ |p'| ^ 3 := by rw [← abs_pow]; exact le_abs_self _
    have hT : 5 * unit * (|p'| ^ 3 / 27 + q' ^ 2 / 4) ≤ 1 / 1000 * (|p'| ^ 3 / 27 + q' ^ 2 / 4) :=
      mul_le_mul_of_nonneg_right (by linarith) (by positivity)
    have hr : r ≤ 1.02 * (R ^ 3 / 5 + Q / 2) := by
      refine abs_le_of_sq_le_sq' ?_ (by positivity) |>.2
      rw [hsq]
      have := mul_nonneg hR3 hQ
      have := sq_nonneg (R ^ 3)
      have := sq_nonneg Q
      nlinarith
    have hr' : r * (1 + e) ≤ 1.001 * r := by
      have := mul_le_mul_of_nonneg_left (show 1 + e ≤ 1.001 by linarith) hs0
      linarith
    linarith
  refine ⟨_, ?_, ?_, shifted_single hfl (round_err hfl _) hs'⟩
  · refine h1.trans ?_
    rw [hσ]
    have := mul_le_mul_of_nonneg_left hS hη.le
    linarith
  · refine h2.trans ?_
    have : Math.cubeRoot (|q'| / 2 + fl (Real.sqrt (discriminant fl p' q'))) ≤ 1.04 * ζ := by
      refine le_of_cube_le (by positivity) ?_
      rw [hσ, mul_pow]
      norm_num at hS ⊢
      linarith
    linarith

end Ecl.CubicFloat
