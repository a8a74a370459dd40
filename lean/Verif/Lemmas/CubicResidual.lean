import Verif.Lemmas.CubicFloat
import Verif.Spec.Libm
import Mathlib.Analysis.SpecialFunctions.Trigonometric.Bounds
import Mathlib.Analysis.Real.Pi.Bounds

/-! # How nearly a cubic vanishes at its rounded roots -/
set_option autoImplicit false

namespace Ecl.CubicFloat
open Ecl.Spec Ecl.PolyFloat

variable {fl : ℝ → ℝ}

/-- The unit of rounding. -/
noncomputable def unit : ℝ := 1 / 2 ^ 53

theorem unit_pos : 0 < unit := by norm_num [unit]

theorem unit_small : unit ≤ 1 / 1000000 := by norm_num [unit]

theorem round_err (hfl : Rounds 53 fl) (x : ℝ) : |fl x - x| ≤ unit * |x| := by
  obtain ⟨e, b, h⟩ := round_factor hfl (by norm_num) x
  rw [h, show x * (1 + e) - x = e * x by ring, abs_mul]
  exact mul_le_mul_of_nonneg_right b (abs_nonneg _)

/-- A rounded sum or product with given errors. -/
theorem round_err' (hfl : Rounds 53 fl) {x y e X : ℝ} (h : |x - y| ≤ e) (hX : |y| ≤ X) :
    |fl x - y| ≤ e + unit * (X + e) := by
  have h1 := round_err hfl x
  have h2 : |x| ≤ X + e := by
    have := abs_sub_abs_le_abs_sub x y
    linarith
  have h3 := mul_le_mul_of_nonneg_left h2 unit_pos.le
  have h4 := abs_sub_le (fl x) x y
  linarith

/-- The angle. -/
theorem angle_err (hfl : Rounds 53 fl) {m : Libm} (hm : AccurateLibm m) {w : ℝ} (hw : |w| ≤ 1) :
    |fl (fl (1 / 3) * m.acos w) - Real.arccos w / 3| ≤ 4 * unit := by
  have h1 := hm.acos w hw
  have h2 := Real.arccos_nonneg w
  have h3 := Real.arccos_le_pi w
  have h4 := Real.pi_lt_d2
  have h5 := round_err hfl (1 / 3)
  rw [abs_of_pos (by norm_num : (0 : ℝ) < 1 / 3)] at h5
  have hu := unit_pos
  have hu' := unit_small
  rw [show (4 : ℝ) / 2 ^ 53 = 4 * unit by norm_num [unit]] at h1
  generalize fl (1 / 3) = t at *
  generalize m.acos w = a at *
  generalize Real.arccos w = b at *
  have h6 : |t * a - b / 3| ≤ 5 / 2 * unit := by
    have e : t * a - b / 3 = (t - 1 / 3) * a + 1 / 3 * (a - b) := by ring
    rw [e]
    refine (abs_add_le _ _).trans ?_
    rw [abs_mul, abs_mul, abs_of_pos (by norm_num : (0 : ℝ) < 1 / 3)]
    have h7 : |a| ≤ 3.151 := by
      have := abs_sub_abs_le_abs_sub a b
      rw [abs_of_nonneg h2] at this
      linarith
    have h8 := mul_le_mul h5 h7 (abs_nonneg _) (by positivity)
    linarith
  have h7 := round_err' hfl h6 (X := 1.05) (by rw [abs_of_nonneg (by linarith)]; linarith)
  nlinarith

/-- The angle less a part of the circle. -/
theorem turned_err (hfl : Rounds 53 fl) {m : Libm} (hm : AccurateLibm m) {w : ℝ} (hw : |w| ≤ 1) {k : ℝ} (hk0 : 0 ≤ k)
    (hk : k ≤ 4) : |fl (fl (fl (1 / 3) * m.acos w) - fl (k * m.pi / 3)) - (Real.arccos w / 3 - k * Real.pi / 3)| ≤
      19 * unit := by
  have h1 := angle_err hfl hm hw
  have h2 := hm.pi
  have hu := unit_pos
  have hu' := unit_small
  have h3 := Real.pi_lt_d2
  have h3' := Real.pi_pos
  have h4 := Real.arccos_nonneg w
  have h5 := Real.arccos_le_pi w
  rw [show (4 : ℝ) / 2 ^ 53 = 4 * unit by norm_num [unit]] at h2
  have h6 : |k * m.pi / 3 - k * Real.pi / 3| ≤ 16 / 3 * unit := by
    rw [show k * m.pi / 3 - k * Real.pi / 3 = k / 3 * (m.pi - Real.pi) by ring, abs_mul, abs_of_nonneg (by positivity)]
    have := mul_le_mul (show k / 3 ≤ 4 / 3 by linarith) h2 (abs_nonneg _) (by norm_num)
    linarith
  have h7 := round_err' hfl h6 (X := 4.2) (by
    rw [abs_of_nonneg (by positivity)]
    have := mul_le_mul hk h3.le h3'.le (by norm_num)
    linarith)
  have h8 : |fl (fl (1 / 3) * m.acos w) - fl (k * m.pi / 3) - (Real.arccos w / 3 - k * Real.pi / 3)| ≤ 14 * unit := by
    rw [sub_sub_sub_comm]
    refine (abs_sub _ _).trans ?_
    nlinarith
  have h9 := round_err' hfl h8 (X := 4.2) (by
    rw [abs_le]
    have := mul_le_mul hk h3.le h3'.le (by norm_num)
    have := mul_nonneg hk0 h3'.le
    constructor <;> linarith)
  nlinarith

theorem sqrt_factor {x d : ℝ} (hd : |d| ≤ unit) (hx : 0 ≤ x) :
    ∃ g : ℝ, |g| ≤ unit ∧ Real.sqrt (x * (1 + d)) = Real.sqrt x * (1 + g) := by
  have hu' := unit_small
  have hd' := abs_le.1 hd
  refine ⟨Real.sqrt (1 + d) - 1, ?_, by rw [Real.sqrt_mul hx]; ring⟩
  have h0 : 0 ≤ 1 + d := by linarith
  have h1 := Real.sq_sqrt h0
  have h2 := Real.sqrt_nonneg (1 + d)
  generalize Real.sqrt (1 + d) = s at *
  rw [abs_le]
  constructor <;> nlinarith

/-- One of the three numbers, before the shift. -/
theorem trigonometric_err (hfl : Rounds 53 fl) {m : Libm} (hm : AccurateLibm m) {p a b : ℝ} (hp : p < 0)
    (h : |a - b| ≤ 19 * unit) :
    |fl (2 * fl (Real.sqrt (fl (-p / 3))) * m.cos a) - 2 * Real.sqrt (-p / 3) * Real.cos b| ≤
      25 * unit * (2 * Real.sqrt (-p / 3)) := by
  obtain ⟨d, bd, hd⟩ := round_factor hfl (by norm_num) (-p / 3)
  obtain ⟨g, bg, hg⟩ := sqrt_factor bd (show 0 ≤ -p / 3 by linarith)
  obtain ⟨e, be, he⟩ := round_factor hfl (by norm_num) (Real.sqrt (fl (-p / 3)))
  obtain ⟨f, bf, hf⟩ := round_factor hfl (by norm_num) (2 * fl (Real.sqrt (fl (-p / 3))) * m.cos a)
  rw [hf, he, hd, hg]
  have hc : |m.cos a - Real.cos b| ≤ 21 * unit := by
    have h1 := hm.cos a
    have h2 := Real.abs_cos_sub_cos_le a b
    have h3 := abs_sub_le (m.cos a) (Real.cos a) (Real.cos b)
    rw [show (2 : ℝ) / 2 ^ 53 = 2 * unit by norm_num [unit]] at h1
    linarith
  have hcb := Real.abs_cos_le_one b
  have hr := Real.sqrt_nonneg (-p / 3)
  clear hf he hd hg
  have hu := unit_pos
  have hu' := unit_small
  change |e| ≤ unit at be
  change |f| ≤ unit at bf
  generalize m.cos a = x at *
  generalize Real.cos b = y at *
  generalize Real.sqrt (-p / 3) = r at *
  generalize unit = u at *
  have e1 : 2 * (r * (1 + g) * (1 + e)) * x * (1 + f) - 2 * r * y =
      2 * r * ((x - y) * ((1 + g) * (1 + e) * (1 + f)) + y * ((1 + g) * (1 + e) * (1 + f) - 1)) := by ring
  rw [e1, abs_mul, abs_of_nonneg (by positivity : 0 ≤ 2 * r), mul_comm]
  refine mul_le_mul_of_nonneg_right ?_ (by positivity)
  have hF : |(1 + g) * (1 + e) * (1 + f) - 1| ≤ 3.1 * u := by
    have e2 : (1 + g) * (1 + e) * (1 + f) - 1 = g + e * (1 + g) + f * ((1 + g) * (1 + e)) := by ring
    have a1 : |1 + g| ≤ 1.01 := by
      have := abs_add_le 1 g
      rw [abs_one] at this
      linarith
    have a2 : |1 + e| ≤ 1.01 := by
      have := abs_add_le 1 e
      rw [abs_one] at this
      linarith
    rw [e2]
    refine (abs_add_le _ _).trans ?_
    have t1 := abs_add_le g (e * (1 + g))
    rw [abs_mul] at t1
    rw [abs_mul, abs_mul]
    have t2 := mul_le_mul be a1 (abs_nonneg _) hu.le
    have t3 := mul_le_mul a1 a2 (abs_nonneg _) (by norm_num)
    have t4 := mul_le_mul bf t3 (by positivity) hu.le
    linarith
  refine (abs_add_le _ _).trans ?_
  rw [abs_mul (x - y), abs_mul y]
  have hF1 : |(1 + g) * (1 + e) * (1 + f)| ≤ 1.01 := by
    have := abs_sub_abs_le_abs_sub ((1 + g) * (1 + e) * (1 + f)) 1
    rw [abs_one] at this
    linarith
  have t1 := mul_le_mul hc hF1 (abs_nonneg _) (by positivity)
  have t2 := mul_le_mul hcb hF (abs_nonneg _) (by norm_num)
  linarith

/-- The numbers of the cosine formula solve the cubic with the rounded argument of `acos`. -/
theorem cosine_solves {p : ℝ} (hp : p < 0) {w b : ℝ} (hb : Real.cos (3 * b) = w) :
    (2 * Real.sqrt (-p / 3) * Real.cos b) ^ 3 + p * (2 * Real.sqrt (-p / 3) * Real.cos b) =
      2 * Real.sqrt (-p / 3) ^ 3 * w := by
  have hs := Real.sq_sqrt (show 0 ≤ -p / 3 by linarith)
  rw [Real.cos_three_mul] at hb
  generalize Real.sqrt (-p / 3) = s at *
  have : p = -3 * s ^ 2 := by linarith
  rw [this, ← hb]
  ring

/-- The rounded argument of `acos`. -/
theorem cosine_err (hfl : Rounds 53 fl) {p q : ℝ} (hp : p < 0) :
    ∃ e : ℝ, |e| ≤ 6 * unit ∧ 2 * Real.sqrt (-p / 3) ^ 3 * cosine fl p q = -q * (1 + e) := by
  unfold cosine
  obtain ⟨e1, b1, h1⟩ := round_factor hfl (by norm_num) (3 * q)
  obtain ⟨e2, b2, h2⟩ := round_factor hfl (by norm_num) (fl (3 * q) / (2 * p))
  obtain ⟨e3, b3, h3⟩ := round_factor hfl (by norm_num) (-3 / p)
  obtain ⟨g, bg, hg⟩ := sqrt_factor b3 (show 0 ≤ -3 / p from div_nonneg_of_nonpos (by norm_num) hp.le)
  obtain ⟨e4, b4, h4⟩ := round_factor hfl (by norm_num) (Real.sqrt (fl (-3 / p)))
  obtain ⟨e5, b5, h5⟩ := round_factor hfl (by norm_num) (fl (fl (3 * q) / (2 * p)) * fl (Real.sqrt (fl (-3 / p))))
  rw [h5, h4, h2, h1, h3, hg]
  have hi : Real.sqrt (-3 / p) = (Real.sqrt (-p / 3))⁻¹ := by
    rw [← Real.sqrt_inv]
    congr 1
    rw [inv_div, div_eq_div_iff hp.ne (by linarith)]
    ring
  have hs := Real.sq_sqrt (show 0 ≤ -p / 3 by linarith)
  have hs0 : 0 < Real.sqrt (-p / 3) := Real.sqrt_pos.2 (by linarith)
  rw [hi]
  refine ⟨(1 + e1) * (1 + e2) * (1 + g) * (1 + e4) * (1 + e5) - 1, ?_, ?_⟩
  · change |e1| ≤ unit at b1
    change |e2| ≤ unit at b2
    change |e4| ≤ unit at b4
    change |e5| ≤ unit at b5
    have hu := unit_pos
    have hu' := unit_small
    clear h1 h2 h3 h4 h5 hg hi hs hs0
    generalize unit = u at *
    have st {x y k : ℝ} (hx : |x - 1| ≤ k) (hk : k ≤ 1 / 100) (hk0 : 0 ≤ k) (hy : |y| ≤ u) :
        |x * (1 + y) - 1| ≤ k + 1.01 * u := by
      rw [show x * (1 + y) - 1 = (x - 1) + x * y by ring]
      refine (abs_add_le _ _).trans (add_le_add hx ?_)
      rw [abs_mul]
      have hx' : |x| ≤ 1.01 := by
        have := abs_sub_abs_le_abs_sub x 1
        rw [abs_one] at this
        linarith
      exact mul_le_mul hx' hy (abs_nonneg _) (by norm_num)
    have s1 : |(1 + e1) - 1| ≤ u := by simpa using b1
    have s2 := st s1 (by linarith) (by linarith) b2
    have s3 := st s2 (by linarith) (by linarith) bg
    have s4 := st s3 (by linarith) (by linarith) b4
    have s5 := st s4 (by linarith) (by linarith) b5
    linarith
  · generalize Real.sqrt (-p / 3) = s at *
    have hp' : p = -3 * s ^ 2 := by linarith
    rw [hp']
    have := hs0.ne'
    field_simp
    ring

/-- Adding the shift. -/
theorem shifted (hfl : Rounds 53 fl) {s s' t τ r : ℝ} (hr0 : 0 ≤ r) (hτ : |τ| ≤ 1.001 * r) (ht : |t - τ| ≤ 25 * unit * r)
    (hs' : |s' - s| ≤ 4 * unit * |s|) : |fl (t + s') - s - τ| ≤ 27 * unit * (r + |s|) := by
  have hu := unit_pos
  have hu' := unit_small
  have h1 : |t + s' - (τ + s)| ≤ 25 * unit * r + 4 * unit * |s| := by
    rw [add_sub_add_comm]
    exact (abs_add_le _ _).trans (add_le_add ht hs')
  have h2 := round_err' hfl h1 ((abs_add_le τ s).trans (add_le_add_left hτ |s|))
  rw [show fl (t + s') - s - τ = fl (t + s') - (τ + s) by ring]
  refine h2.trans ?_
  have h3 : unit * (25 * unit * r + 4 * unit * |s|) ≤ unit * (1 / 2 * (r + |s|)) := by
    refine mul_le_mul_of_nonneg_left ?_ hu.le
    have := mul_le_mul_of_nonneg_right hu' hr0
    have := mul_le_mul_of_nonneg_right hu' (abs_nonneg s)
    have := abs_nonneg s
    linarith
  have h4 := mul_nonneg hu.le (abs_nonneg s)
  have h5 := mul_nonneg hu.le hr0
  linarith

set_option maxHeartbeats 1000000 in
/-- From a root of the exact depressed cubic to the polynomial. -/
theorem residual {p' q' p q s x τ r P Q R : ℝ}
    (hr : r ^ 2 = 4 * |p'| / 3) (hr0 : 0 ≤ r) (hτ : |τ| ≤ 1.001 * r)
    (hsol : |τ ^ 3 + p' * τ + q'| ≤ 11 * unit * r ^ 3) (hy : |x - s - τ| ≤ 27 * unit * (r + |s|))
    (hp : |p' - p| ≤ 9 * unit * P) (hq : |q' - q| ≤ 13 * unit * Q)
    (hpP : |p| ≤ P) (hsP : 3 * s ^ 2 ≤ P) (hR0 : 0 ≤ R) (hR : R ^ 2 = P) :
    |(x - s) ^ 3 + p * (x - s) + q| ≤ unit * (650 * R ^ 3 + 13 * Q) := by
  have hu := unit_pos
  have hu' := unit_small
  generalize x - s = y at *
  have hs0 := abs_nonneg s
  -- the sizes
  have hrR : r ≤ 1.16 * R := by
    have h1 : |p'| ≤ (1 + 9 * unit) * P := by
      have := abs_sub_abs_le_abs_sub p' p
      linarith
    have hP : 0 ≤ P := (abs_nonneg _).trans hpP
    have h2 : (1 + 9 * unit) * P ≤ 1.001 * P := mul_le_mul_of_nonneg_right (by linarith) hP
    refine abs_le_of_sq_le_sq' ?_ (by positivity) |>.2
    rw [mul_pow, hR]
    linarith
  have hsR : |s| ≤ 0.58 * R := by
    rw [abs_le]
    refine abs_le_of_sq_le_sq' ?_ (by positivity)
    rw [mul_pow, hR]
    have := sq_nonneg s
    linarith
  have hA : r + |s| ≤ 1.74 * R := by linarith
  have hA0 : 0 ≤ r + |s| := by linarith
  -- the exact depressed cubic at `y`
  have hp' : |p'| ≤ 3 / 4 * (r + |s|) ^ 2 := by
    have := pow_le_pow_left₀ hr0 (show r ≤ r + |s| by linarith) 2
    linarith
  have hτ' : |τ| ≤ 1.001 * (r + |s|) := by linarith
  have hr3 : r ^ 3 ≤ (r + |s|) ^ 3 := pow_le_pow_left₀ hr0 (by linarith) 3
  generalize r + |s| = A at *
  have hd : |y ^ 3 + p' * y + q'| ≤ 113 * unit * A ^ 3 := by
    have e : y ^ 3 + p' * y + q' = (y - τ) * (3 * τ ^ 2 + 3 * τ * (y - τ) + (y - τ) ^ 2 + p') + (τ ^ 3 + p' * τ + q') := by
      ring
    rw [e]
    refine (abs_add_le _ _).trans ?_
    rw [abs_mul]
    have hyA : |y - τ| ≤ 1 / 1000 * A := by
      have := mul_le_mul_of_nonneg_right hu' hA0
      linarith
    have h1 : |3 * τ ^ 2 + 3 * τ * (y - τ) + (y - τ) ^ 2 + p'| ≤ 3.77 * A ^ 2 := by
      have t1 := abs_add_le (3 * τ ^ 2 + 3 * τ * (y - τ) + (y - τ) ^ 2) p'
      have t2 := abs_add_le (3 * τ ^ 2 + 3 * τ * (y - τ)) ((y - τ) ^ 2)
      have t3 := abs_add_le (3 * τ ^ 2) (3 * τ * (y - τ))
      have t4 : |3 * τ ^ 2| ≤ 3.007 * A ^ 2 := by
        rw [abs_mul, abs_pow, abs_of_pos (by norm_num : (0 : ℝ) < 3)]
        have h := pow_le_pow_left₀ (abs_nonneg _) hτ' 2
        rw [mul_pow] at h
        have := sq_nonneg A
        norm_num at h ⊢
        linarith
      have t5 : |3 * τ * (y - τ)| ≤ 4 / 1000 * A ^ 2 := by
        rw [abs_mul, abs_mul, abs_of_pos (by norm_num : (0 : ℝ) < 3)]
        have := mul_le_mul hτ' hyA (abs_nonneg _) (by positivity)
        nlinarith
      have t6 : |(y - τ) ^ 2| ≤ 1 / 1000 * A ^ 2 := by
        rw [abs_pow]
        have := pow_le_pow_left₀ (abs_nonneg _) hyA 2
        have := sq_nonneg A
        nlinarith
      have := sq_nonneg A
      linarith
    have h2 := mul_le_mul hy h1 (abs_nonneg _) (by positivity)
    have h3 := mul_le_mul_of_nonneg_left hr3 (show 0 ≤ 11 * unit by linarith)
    have h4 : 0 ≤ unit * A ^ 3 := by positivity
    have e1 : 27 * unit * A * (3.77 * A ^ 2) = 101.79 * (unit * A ^ 3) := by ring
    rw [e1] at h2
    linarith
  have hyA : |y| ≤ 1.01 * A := by
    have h1 := abs_sub_abs_le_abs_sub y τ
    have := mul_le_mul_of_nonneg_right hu' hA0
    linarith
  have e : y ^ 3 + p * y + q = (y ^ 3 + p' * y + q') - (p' - p) * y - (q' - q) := by ring
  rw [e]
  have h1 := abs_sub (y ^ 3 + p' * y + q' - (p' - p) * y) (q' - q)
  have h2 := abs_sub (y ^ 3 + p' * y + q') ((p' - p) * y)
  rw [abs_mul] at h2
  have h3 := mul_le_mul hp hyA (abs_nonneg _) (by rw [← hR]; positivity)
  have h4 : A ^ 3 ≤ 5.3 * R ^ 3 := by
    have h := pow_le_pow_left₀ hA0 hA 3
    have := pow_nonneg hR0 3
    rw [mul_pow] at h
    norm_num at h ⊢
    linarith
  have h5 : P * A ≤ 1.74 * R ^ 3 := by
    rw [← hR]
    have := mul_le_mul_of_nonneg_left hA (sq_nonneg R)
    rw [show R ^ 2 * (1.74 * R) = 1.74 * R ^ 3 by ring] at this
    exact this
  have h6 := mul_le_mul_of_nonneg_left h4 (show 0 ≤ 113 * unit by linarith)
  have h7 := mul_le_mul_of_nonneg_left h5 hu.le
  have h8 : 0 ≤ unit * R ^ 3 := by positivity
  have e3 : 9 * unit * P * (1.01 * A) = 9.09 * (unit * (P * A)) := by ring
  have e4 : 113 * unit * (5.3 * R ^ 3) = 598.9 * (unit * R ^ 3) := by ring
  have e5 : unit * (1.74 * R ^ 3) = 1.74 * (unit * R ^ 3) := by ring
  have e6 : unit * (650 * R ^ 3 + 13 * Q) = 650 * (unit * R ^ 3) + 13 * unit * Q := by ring
  rw [e3] at h3
  rw [e4] at h6
  rw [e5] at h7
  rw [e6]
  linarith

/-- The shift. -/
theorem shift_err (hfl : Rounds 53 fl) (c : ℕ → ℝ) (h3 : c 3 ≠ 0) :
    |fl (-c 2 / fl (3 * c 3)) - -c 2 / (3 * c 3)| ≤ 4 * unit * |-c 2 / (3 * c 3)| := by
  obtain ⟨g, z, f, i⟩ := inverse_factor hfl (3 * c 3)
  have n := ((Near.exact (-c 2 / (3 * c 3))).mul i).round hfl
  rw [f, show -c 2 / (3 * c 3 * g) = -c 2 / (3 * c 3) * g⁻¹ by field_simp]
  have := n.err
  rw [mul_one, mul_one] at this
  refine this.trans (mul_le_mul_of_nonneg_right ?_ (abs_nonneg _))
  norm_num [unit]

/-- The discriminant of the rounded `p` and `q`. -/
theorem discriminant_err (hfl : Rounds 53 fl) (p q : ℝ) :
    |discriminant fl p q - (p ^ 3 / 27 + q ^ 2 / 4)| ≤ 5 * unit * (|p| ^ 3 / 27 + q ^ 2 / 4) := by
  have n1 := ((((((Near.exact p).mul (Near.exact p)).round hfl).mul (Near.exact p)).round hfl).div
    (d := 27) (by norm_num)).round hfl
  have n2 := ((((Near.exact q).mul (Near.exact q)).round hfl).div (d := 4) (by norm_num)).mono (show 1 ≤ 3 by norm_num)
  have n3 := (n1.add n2).round hfl
  have h := n3.err
  rw [show p * p * p / 27 + q * q / 4 = p ^ 3 / 27 + q ^ 2 / 4 by ring,
    show |p| * |p| * |p| / 27 + |q| * |q| / 4 = |p| ^ 3 / 27 + q ^ 2 / 4 by rw [abs_mul_abs_self q]; ring] at h
  refine h.trans (mul_le_mul_of_nonneg_right (by norm_num [unit]) (by positivity))

set_option maxHeartbeats 1000000 in
/-- The branch with two results. -/
theorem double_residual (hfl : Rounds 53 fl) {p q r s s' x : ℝ} (hs' : |s' - s| ≤ 4 * unit * |s|)
    (hr : r ^ 2 = 4 * |p| / 3) (hr0 : 0 ≤ r) (hp : ¬p = 0) (hq : ¬q = 0) (hd : discriminant fl p q = 0)
    (hx : x = fl (fl (fl (3 * q) / p) + s') ∨ x = fl (fl (fl (-3 * q) / (2 * p)) + s')) :
    ∃ τ : ℝ, r ^ 2 = 4 * |p| / 3 ∧ 0 ≤ r ∧ |τ| ≤ 1.001 * r ∧ |τ ^ 3 + p * τ + q| ≤ 11 * unit * r ^ 3 ∧
      |x - s - τ| ≤ 27 * unit * (r + |s|) := by
  have hu := unit_pos
  have hu' := unit_small
  have hD := discriminant_err hfl p q
  rw [hd, zero_sub, abs_neg] at hD
  have hq2 : 0 < q ^ 2 := by positivity
  have hp3 : 0 < |p| ^ 3 := by positivity
  have hT : 5 * unit * (|p| ^ 3 / 27 + q ^ 2 / 4) ≤ 1 / 100000 * (|p| ^ 3 / 27 + q ^ 2 / 4) :=
    mul_le_mul_of_nonneg_right (by linarith) (by positivity)
  have hneg : p < 0 := by
    by_contra h
    rw [abs_of_nonneg (not_lt.1 h)] at hD hT hp3
    rw [abs_of_pos (by positivity)] at hD
    linarith
  have hap := abs_of_neg hneg
  have hD' := abs_le.1 hD
  rw [hap] at hD hD' hT hp3 hr
  have e3 : (-p) ^ 3 = -(p ^ 3) := by ring
  have hq2' : q ^ 2 ≤ 1.0001 * (4 * (-p) ^ 3 / 27) := by linarith
  have hD2 : |p ^ 3 / 27 + q ^ 2 / 4| ≤ 10.1 * unit * ((-p) ^ 3 / 27) := by
    refine hD.trans ?_
    have : (-p) ^ 3 / 27 + q ^ 2 / 4 ≤ 2.01 * ((-p) ^ 3 / 27) := by linarith
    have := mul_le_mul_of_nonneg_left this (show 0 ≤ 5 * unit by linarith)
    have := mul_pos hu hp3
    linarith
  -- the sizes
  have hr6 : (r ^ 3) ^ 2 = 64 * (-p) ^ 3 / 27 := by
    rw [show (r ^ 3) ^ 2 = (r ^ 2) ^ 3 by ring, hr]
    ring
  have hr3 : 0 ≤ r ^ 3 := by positivity
  have hqr : |q| ≤ 1.001 * (r ^ 3 / 4) := by
    rw [abs_le]
    refine abs_le_of_sq_le_sq' ?_ (by positivity)
    rw [mul_pow, div_pow, hr6]
    linarith
  have hτ1 : |3 * q / p| ≤ 1.001 * r := by
    rw [abs_le]
    refine abs_le_of_sq_le_sq' ?_ (by positivity)
    rw [mul_pow, hr, div_pow, div_le_iff₀ (by positivity), mul_pow]
    have : 1.001 ^ 2 * (4 * -p / 3) * p ^ 2 = 1.001 ^ 2 * (4 * (-p) ^ 3 / 3) := by ring
    rw [this]
    linarith
  have hsol : |q * (27 * q ^ 2 / p ^ 3 + 4)| ≤ 11 * unit * r ^ 3 := by
    have e : 27 * q ^ 2 / p ^ 3 + 4 = -(108 * (p ^ 3 / 27 + q ^ 2 / 4) / (-p) ^ 3) := by
      have := hneg.ne
      rw [e3]
      field_simp
      ring
    rw [e, abs_mul, abs_neg, abs_div, abs_of_pos hp3, abs_mul, abs_of_pos (by norm_num : (0 : ℝ) < 108)]
    have h1 : 108 * |p ^ 3 / 27 + q ^ 2 / 4| / (-p) ^ 3 ≤ 40.4 * unit := by
      rw [div_le_iff₀ hp3]
      linarith
    have h2 := mul_le_mul hqr h1 (by positivity) (by positivity)
    have := mul_nonneg hu.le hr3
    linarith
  obtain ⟨d1, b1, f1⟩ := round_factor hfl (by norm_num) (3 * q)
  obtain ⟨d2, b2, f2⟩ := round_factor hfl (by norm_num) (fl (3 * q) / p)
  obtain ⟨d3, b3, f3⟩ := round_factor hfl (by norm_num) (-3 * q)
  obtain ⟨d4, b4, f4⟩ := round_factor hfl (by norm_num) (fl (-3 * q) / (2 * p))
  change |d1| ≤ unit at b1
  change |d2| ≤ unit at b2
  change |d3| ≤ unit at b3
  change |d4| ≤ unit at b4
  have st {z a b : ℝ} (hz : |z| ≤ 1.001 * r) (ha : |a| ≤ unit) (hb : |b| ≤ unit) :
      |z * (1 + a) * (1 + b) - z| ≤ 25 * unit * r := by
    rw [show z * (1 + a) * (1 + b) - z = z * (a + b * (1 + a)) by ring, abs_mul]
    have h1 : |a + b * (1 + a)| ≤ 3 * unit := by
      refine (abs_add_le _ _).trans ?_
      rw [abs_mul]
      have h2 : |1 + a| ≤ 2 := by
        have := abs_add_le 1 a
        rw [abs_one] at this
        linarith
      have := mul_le_mul hb h2 (abs_nonneg _) hu.le
      linarith
    have := mul_le_mul hz h1 (abs_nonneg _) (by positivity)
    have := mul_nonneg hu.le hr0
    linarith
  rw [hap]
  rcases hx with rfl | rfl
  · refine ⟨3 * q / p, hr, hr0, hτ1, ?_, shifted hfl hr0 hτ1 ?_ hs'⟩
    · rw [show (3 * q / p) ^ 3 + p * (3 * q / p) + q = q * (27 * q ^ 2 / p ^ 3 + 4) by field_simp; ring]
      exact hsol
    · rw [f2, f1, show 3 * q * (1 + d1) / p * (1 + d2) = 3 * q / p * (1 + d1) * (1 + d2) by ring]
      exact st hτ1 b1 b2
  · have hτ2 : |-3 * q / (2 * p)| ≤ 1.001 * r := by
      rw [show -3 * q / (2 * p) = -(3 * q / p) / 2 by field_simp, abs_div, abs_neg,
        abs_of_pos (by norm_num : (0 : ℝ) < 2)]
      have := abs_nonneg (3 * q / p)
      linarith
    refine ⟨-3 * q / (2 * p), hr, hr0, hτ2, ?_, shifted hfl hr0 hτ2 ?_ hs'⟩
    · rw [show (-3 * q / (2 * p)) ^ 3 + p * (-3 * q / (2 * p)) + q = -(q * (27 * q ^ 2 / p ^ 3 + 4)) / 8 by
        field_simp; ring, abs_div, abs_neg, abs_of_pos (by norm_num : (0 : ℝ) < 8)]
      have := abs_nonneg (q * (27 * q ^ 2 / p ^ 3 + 4))
      linarith
    · rw [f4, f3, show -3 * q * (1 + d3) / (2 * p) * (1 + d4) = -3 * q / (2 * p) * (1 + d3) * (1 + d4) by ring]
      exact st hτ2 b3 b4

/-- All of the branches with several results. -/
theorem roots_residual (hfl : Rounds 53 fl) {m : Libm} (hm : AccurateLibm m) {p' q' s s' x : ℝ}
    (hs' : |s' - s| ≤ 4 * unit * |s|) (hn : (roots fl m p' q' (discriminant fl p' q') s').length ≠ 1)
    (hx : some x ∈ roots fl m p' q' (discriminant fl p' q') s') :
    ∃ r τ : ℝ, r ^ 2 = 4 * |p'| / 3 ∧ 0 ≤ r ∧ |τ| ≤ 1.001 * r ∧ |τ ^ 3 + p' * τ + q'| ≤ 11 * unit * r ^ 3 ∧
      |x - s - τ| ≤ 27 * unit * (r + |s|) := by
  have hu := unit_pos
  have hu' := unit_small
  have hr2 : (2 * Real.sqrt (|p'| / 3)) ^ 2 = 4 * |p'| / 3 := by
    rw [mul_pow, Real.sq_sqrt (by positivity)]
    ring
  have hr0 : 0 ≤ 2 * Real.sqrt (|p'| / 3) := by positivity
  refine ⟨2 * Real.sqrt (|p'| / 3), ?_⟩
  unfold roots at hn hx
  split at hx
  · next h => rw [if_pos h] at hn; simp at hn
  next h1 =>
  rw [if_neg h1] at hn
  split at hx
  · next h => rw [if_pos h] at hn; simp at hn
  next hp0 =>
  rw [if_neg hp0] at hn
  split at hx
  · next hq =>
    clear hn
    subst hq
    simp only [List.mem_cons, List.not_mem_nil, or_false, Option.some.injEq, fsqrt, neg_one_mul] at hx
    rcases hx with rfl | hx
    · refine ⟨0, hr2, hr0, by rw [abs_zero]; linarith, ?_, ?_⟩
      · rw [show (0 : ℝ) ^ 3 + p' * 0 + 0 = 0 by ring, abs_zero]
        positivity
      rw [sub_zero]
      refine hs'.trans ?_
      have := mul_nonneg hu.le hr0
      have := mul_nonneg hu.le (abs_nonneg s)
      linarith
    · by_cases hp : -p' < 0
      · simp [hp] at hx
      rw [if_neg hp] at hx
      have hp : p' ≤ 0 := by linarith
      rw [abs_of_nonpos hp] at hr2 hr0 ⊢
      have hs := Real.sq_sqrt (show 0 ≤ -p' by linarith)
      have hs0 := Real.sqrt_nonneg (-p')
      have he := round_err hfl (Real.sqrt (-p'))
      rw [abs_of_nonneg hs0] at he
      have hle : Real.sqrt (-p') ≤ 2 * Real.sqrt (-p' / 3) :=
        abs_le_of_sq_le_sq' (by rw [hr2, hs]; linarith) hr0 |>.2
      have ht : |fl (Real.sqrt (-p')) - Real.sqrt (-p')| ≤ 25 * unit * (2 * Real.sqrt (-p' / 3)) := by
        have := mul_le_mul_of_nonneg_left hle hu.le
        have := mul_nonneg hu.le hs0
        linarith
      have hle' : |Real.sqrt (-p')| ≤ 1.001 * (2 * Real.sqrt (-p' / 3)) := by rw [abs_of_nonneg hs0]; linarith
      simp only [Option.map_some, Option.some.injEq] at hx
      rcases hx with rfl | rfl
      · refine ⟨Real.sqrt (-p'), hr2, hr0, hle', ?_, shifted hfl hr0 hle' ht hs'⟩
        rw [show Real.sqrt (-p') ^ 3 + p' * Real.sqrt (-p') + 0 = Real.sqrt (-p') * (Real.sqrt (-p') ^ 2 + p') by ring,
          hs]
        simp only [neg_add_cancel, mul_zero, abs_zero]
        positivity
      · refine ⟨-Real.sqrt (-p'), hr2, hr0, by rwa [abs_neg], ?_, shifted hfl hr0 (by rwa [abs_neg]) ?_ hs'⟩
        · rw [show (-Real.sqrt (-p')) ^ 3 + p' * -Real.sqrt (-p') + 0 =
            -Real.sqrt (-p') * (Real.sqrt (-p') ^ 2 + p') by ring, hs]
          simp only [neg_add_cancel, mul_zero, abs_zero]
          positivity
        · rw [neg_sub_neg, abs_sub_comm]
          exact ht
  next hq0 =>
  rw [if_neg hq0] at hn
  split at hx
  · next h =>
    clear hn
    exact double_residual hfl hs' hr2 hr0 hp0 hq0 h (by simpa using hx)
  next hd0 =>
  rw [if_neg hd0] at hn
  split at hx
  · next h => rw [if_pos h] at hn; simp at hn
  next hd =>
  clear hn
  split at hx
  swap
  · simp at hx
  next hw =>
  have hp : p' < 0 := by
    by_contra h
    have h := not_lt.1 h
    have z {y : ℝ} (hy : 0 ≤ y) : 0 ≤ fl y := hfl.ge (isFloat_zero 53) hy
    refine hd (z (add_nonneg (z (div_nonneg (z (mul_nonneg (z (mul_nonneg h h)) h)) (by norm_num))) ?_))
    exact div_nonneg (z (mul_self_nonneg _)) (by norm_num)
  rw [abs_of_neg hp] at hr2 hr0 ⊢
  obtain ⟨e, be, he⟩ := cosine_err hfl (q := q') hp
  have main {a b : ℝ} (hab : |a - b| ≤ 19 * unit) (hb : Real.cos (3 * b) = cosine fl p' q')
      (hxa : x = trigonometric fl m p' s' a) : ∃ τ, (2 * Real.sqrt (-p' / 3)) ^ 2 = 4 * -p' / 3 ∧
      0 ≤ 2 * Real.sqrt (-p' / 3) ∧ |τ| ≤ 1.001 * (2 * Real.sqrt (-p' / 3)) ∧
      |τ ^ 3 + p' * τ + q'| ≤ 11 * unit * (2 * Real.sqrt (-p' / 3)) ^ 3 ∧
      |x - s - τ| ≤ 27 * unit * (2 * Real.sqrt (-p' / 3) + |s|) := by
    have hτ : |2 * Real.sqrt (-p' / 3) * Real.cos b| ≤ 1.001 * (2 * Real.sqrt (-p' / 3)) := by
      rw [abs_mul, abs_of_nonneg hr0]
      have := mul_le_of_le_one_right hr0 (Real.abs_cos_le_one b)
      linarith
    refine ⟨2 * Real.sqrt (-p' / 3) * Real.cos b, hr2, hr0, hτ, ?_, ?_⟩
    · rw [cosine_solves hp hb, he, show -q' * (1 + e) + q' = -(q' * e) by ring, abs_neg, abs_mul]
      have hq : |q' * (1 + e)| ≤ 2 * Real.sqrt (-p' / 3) ^ 3 := by
        rw [show q' * (1 + e) = -(-q' * (1 + e)) by ring, abs_neg, ← he, abs_mul,
          abs_of_nonneg (by positivity : (0 : ℝ) ≤ 2 * Real.sqrt (-p' / 3) ^ 3)]
        exact mul_le_of_le_one_right (by positivity) hw
      have hq' : |q'| ≤ 2.1 * Real.sqrt (-p' / 3) ^ 3 := by
        have he' := abs_le.1 be
        rw [abs_mul, abs_of_pos (by linarith : 0 < 1 + e)] at hq
        have h1 : |q'| * 0.99 ≤ |q'| * (1 + e) := mul_le_mul_of_nonneg_left (by linarith) (abs_nonneg _)
        have : 0 ≤ Real.sqrt (-p' / 3) ^ 3 := by positivity
        linarith
      have h2 := mul_le_mul hq' be (abs_nonneg _) (by positivity)
      have h3 : 0 ≤ unit * Real.sqrt (-p' / 3) ^ 3 := by positivity
      rw [mul_pow]
      linarith
    · rw [hxa]
      exact shifted hfl hr0 hτ (trigonometric_err hfl hm hp hab) hs'
  have hw' := abs_le.1 hw
  have hcos := Real.cos_arccos hw'.1 hw'.2
  simp only [List.mem_cons, List.not_mem_nil, or_false, Option.some.injEq] at hx
  rcases hx with hx | hx | hx
  · refine main ((angle_err hfl hm hw).trans (by linarith)) ?_ hx
    rw [mul_div_cancel₀ _ (by norm_num : (3 : ℝ) ≠ 0), hcos]
  · refine main (turned_err hfl hm hw (k := 2) (by norm_num) (by norm_num)) ?_ hx
    rw [show 3 * (Real.arccos (cosine fl p' q') / 3 - 2 * Real.pi / 3) = Real.arccos (cosine fl p' q') - 2 * Real.pi by
      ring, Real.cos_sub_two_pi, hcos]
  · refine main (turned_err hfl hm hw (k := 4) (by norm_num) (by norm_num)) ?_ hx
    rw [show 3 * (Real.arccos (cosine fl p' q') / 3 - 4 * Real.pi / 3) =
      Real.arccos (cosine fl p' q') - 2 * Real.pi - 2 * Real.pi by ring, Real.cos_sub_two_pi, Real.cos_sub_two_pi, hcos]

end Ecl.CubicFloat
