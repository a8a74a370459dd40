import Verif.Lemmas.RangeAngle
import Verif.Lemmas.PolynomialFloat

/-! # Roots of quadratics: the limits of the exponent -/
set_option autoImplicit false

namespace Ecl.PolyFloat
open Ecl.Spec Ecl.AngleFloat
open Ecl.Poly (Coeffs ofList)

theorem abs_mul_pow {x y : ℝ} {a b : ℤ} (hx : (2 : ℝ) ^ a ≤ |x|) (hy : (2 : ℝ) ^ b ≤ |y|) :
    (2 : ℝ) ^ (a + b) ≤ |x * y| := by
  rw [abs_mul, zpow_add₀ (by norm_num)]
  exact mul_le_mul hx hy (by positivity) (abs_nonneg _)

theorem mul_abs_pow {x y : ℝ} {a b : ℤ} (hx : |x| ≤ (2 : ℝ) ^ a) (hy : |y| ≤ (2 : ℝ) ^ b) :
    |x * y| ≤ (2 : ℝ) ^ (a + b) := by
  rw [abs_mul, zpow_add₀ (by norm_num)]
  exact mul_le_mul hx hy (abs_nonneg _) (by positivity)

theorem abs_div_pow {x y : ℝ} {a b : ℤ} (hx : (2 : ℝ) ^ a ≤ |x|) (hy : |y| ≤ (2 : ℝ) ^ b) (h0 : y ≠ 0) :
    (2 : ℝ) ^ (a - b) ≤ |x / y| := by
  rw [abs_div, zpow_sub₀ (by norm_num)]
  exact div_le_div₀ (abs_nonneg _) hx (abs_pos.2 h0) hy

theorem div_abs_pow {x y : ℝ} {a b : ℤ} (hx : |x| ≤ (2 : ℝ) ^ a) (hy : (2 : ℝ) ^ b ≤ |y|) :
    |x / y| ≤ (2 : ℝ) ^ (a - b) := by
  rw [abs_div, zpow_sub₀ (by norm_num)]
  exact div_le_div₀ (by positivity) hx (by positivity) hy

theorem add_abs_pow {x y : ℝ} {a : ℤ} (hx : |x| ≤ (2 : ℝ) ^ a) (hy : |y| ≤ (2 : ℝ) ^ a) :
    |x + y| ≤ (2 : ℝ) ^ (a + 1) := by
  refine (abs_add_le _ _).trans ?_
  rw [zpow_add₀ (by norm_num), zpow_one]
  linarith

theorem pow_up {x : ℝ} {a b : ℤ} (h : |x| ≤ (2 : ℝ) ^ a) (hab : a ≤ b) : |x| ≤ (2 : ℝ) ^ b :=
  h.trans (zpow_le_zpow_right₀ (by norm_num) hab)

theorem pow_down {x : ℝ} {a b : ℤ} (h : (2 : ℝ) ^ a ≤ |x|) (hab : b ≤ a) : (2 : ℝ) ^ b ≤ |x| :=
  le_trans (zpow_le_zpow_right₀ (by norm_num) hab) h

/-- Zero, or of an absolute value between `2^-400` and `2^400`. -/
def Usual (x : ℝ) : Prop := x = 0 ∨ (2 : ℝ) ^ (-400 : ℤ) ≤ |x| ∧ |x| ≤ (2 : ℝ) ^ (400 : ℤ)

theorem Usual.le {x : ℝ} (h : Usual x) : |x| ≤ (2 : ℝ) ^ (400 : ℤ) := by
  rcases h with rfl | h
  · simp only [abs_zero]; positivity
  · exact h.2

/-- A quotient of usual numbers is safe. -/
theorem Usual.div_safe {x y : ℝ} (hx : Usual x) (hy : Usual y) (h0 : y ≠ 0) : Safe 53 (-1074) 1024 (x / y) := by
  have hy' := hy.resolve_left h0
  rcases hx with rfl | hx
  · exact safe_double_multiple (e := 0) (f := 0) ⟨0, by simp⟩ (by simp) (by norm_num) (by norm_num)
  · exact safe_double (abs_div_pow hx.1 hy'.2 h0) (div_abs_pow hx.2 hy'.1) (by norm_num) (by norm_num)

/-- So is a product; its rounding is a multiple of `2^-852`. -/
theorem Usual.mul_safe {fl1 : ℝ → ℝ} (h1 : Rounds 53 fl1) {x y k : ℝ} (hx : Usual x) (hy : Usual y)
    (hk : k = 1 ∨ k = 4) : Safe 53 (-1074) 1024 (k * x * y) ∧
    (∃ j : ℤ, fl1 (k * x * y) = j * (2 : ℝ) ^ (-852 : ℤ)) ∧ |fl1 (k * x * y)| ≤ (2 : ℝ) ^ (802 : ℤ) := by
  have hk1 : (2 : ℝ) ^ (0 : ℤ) ≤ |k| ∧ |k| ≤ (2 : ℝ) ^ (2 : ℤ) := by
    rcases hk with rfl | rfl <;> norm_num
  by_cases h0 : x * y = 0
  · rw [mul_assoc, h0, mul_zero, h1.self (isFloat_zero 53)]
    exact ⟨safe_double_multiple (e := 0) (f := 0) ⟨0, by simp⟩ (by simp) (by norm_num) (by norm_num), ⟨0, by simp⟩,
      by rw [abs_zero]; positivity⟩
  · have hx' := hx.resolve_left (left_ne_zero_of_mul h0)
    have hy' := hy.resolve_left (right_ne_zero_of_mul h0)
    have lo := pow_down (b := -800) (abs_mul_pow (abs_mul_pow hk1.1 hx'.1) hy'.1) (by norm_num)
    have up := pow_up (b := 802) (mul_abs_pow (mul_abs_pow hk1.2 hx'.2) hy'.2) (by norm_num)
    refine ⟨safe_double lo up (by norm_num) (by norm_num), ?_, h1.abs_le (isFloat_pow (by norm_num) _) up⟩
    have := (h1 _).1.grid (h1.abs_ge (isFloat_pow (by norm_num) _) lo)
    norm_num at this ⊢
    exact this

theorem sqrt_pow_le {d : ℝ} {a : ℤ} (h : d ≤ (2 : ℝ) ^ (2 * a)) : Real.sqrt d ≤ (2 : ℝ) ^ a := by
  rw [show (2 : ℝ) ^ a = Real.sqrt ((2 : ℝ) ^ (2 * a)) by
    rw [mul_comm, zpow_mul]; exact_mod_cast (Real.sqrt_sq (by positivity)).symm]
  exact Real.sqrt_le_sqrt h

theorem le_sqrt_pow {d : ℝ} {a : ℤ} (h : (2 : ℝ) ^ (2 * a) ≤ d) : (2 : ℝ) ^ a ≤ Real.sqrt d := by
  rw [show (2 : ℝ) ^ a = Real.sqrt ((2 : ℝ) ^ (2 * a)) by
    rw [mul_comm, zpow_mul]; exact_mod_cast (Real.sqrt_sq (by positivity)).symm]
  exact Real.sqrt_le_sqrt h

/-- Usual coefficients: the roots are those of arithmetic without limits. -/
theorem quadraticRoots_agrees {fl fl1 : ℝ → ℝ} (h1 : Rounds 53 fl1) (hag : ∀ x, Safe 53 (-1074) 1024 x → fl x = fl1 x)
    {q : ℕ → ℝ} (hq : ∀ i, i ≤ 2 → Usual (q i)) (hf : IsFloat 53 (q 1)) : quadraticRoots fl q = quadraticRoots fl1 q := by
  have ha := hq 2 le_rfl
  have hb := hq 1 (by norm_num)
  have hc := hq 0 (by norm_num)
  unfold quadraticRoots
  dsimp only
  generalize q 2 = a at *
  generalize q 1 = b at *
  generalize q 0 = c at *
  split
  next h =>
    have hneg : Usual (-c) := by rcases hc with rfl | hc; · exact .inl (by simp)
                                 · exact .inr (by rwa [abs_neg])
    have hl (f : ℝ → ℝ) : linearRoots f (ofList [c, b]) = if b ≠ 0 then [f (-c / b)] else [] := by
      simp [linearRoots, ofList]
    rw [hl, hl]
    split
    next h0 => rw [hag _ (hneg.div_safe hb h0)]
    · rfl
  next ha0 =>
    have ha' := ha.resolve_left ha0
    obtain ⟨s1, m1, u1⟩ := Usual.mul_safe h1 hb hb (.inl rfl)
    obtain ⟨s2, m2, u2⟩ := Usual.mul_safe h1 ha hc (.inr rfl)
    rw [one_mul] at s1 m1 u1
    have hd : ∃ k : ℤ, fl1 (b * b) - fl1 (4 * a * c) = k * (2 : ℝ) ^ (-852 : ℤ) := multiple_sub m1 m2
    have hdu : |fl1 (b * b) - fl1 (4 * a * c)| ≤ (2 : ℝ) ^ (803 : ℤ) := by
      have := add_abs_pow u1 (y := -fl1 (4 * a * c)) (by rwa [abs_neg])
      rw [← sub_eq_add_neg] at this
      norm_num at this ⊢
      exact this
    have hds := safe_double_multiple hd hdu (by norm_num) (by norm_num)
    have edisc : discriminant fl a b c = discriminant fl1 a b c := by
      unfold discriminant
      rw [hag _ s1, hag _ s2, hag _ hds]
    have h2a : Usual (-b) := by rcases hb with rfl | hb; · exact .inl (by simp)
                                · exact .inr (by rwa [abs_neg])
    have two_lo : (2 : ℝ) ^ (-399 : ℤ) ≤ |2 * a| := by
      have := abs_mul_pow (x := 2) (a := 1) (by norm_num) ha'.1
      norm_num at this ⊢
      exact this
    have two_up : |2 * a| ≤ (2 : ℝ) ^ (401 : ℤ) := by
      have := mul_abs_pow (x := 2) (a := 1) (by norm_num) ha'.2
      norm_num at this ⊢
      exact this
    have two0 : 2 * a ≠ 0 := mul_ne_zero (by norm_num) ha0
    rw [edisc]
    split
    next hpos =>
      have hdd : discriminant fl1 a b c = fl1 (fl1 (b * b) - fl1 (4 * a * c)) := rfl
      have hne : fl1 (b * b) - fl1 (4 * a * c) ≠ 0 := by
        intro h
        rw [hdd, h, h1.self (isFloat_zero 53)] at hpos
        exact lt_irrefl _ hpos
      have hlo : (2 : ℝ) ^ (2 * (-426) : ℤ) ≤ discriminant fl1 a b c := by
        have := h1.abs_ge (isFloat_pow (by norm_num) _) (multiple_ge hd hne)
        rw [← hdd, abs_of_pos hpos] at this
        norm_num at this ⊢
        exact this
      have hup : discriminant fl1 a b c ≤ (2 : ℝ) ^ (2 * 402 : ℤ) := by
        have := h1.abs_le (isFloat_pow (by norm_num) _) hdu
        rw [← hdd, abs_of_pos hpos] at this
        exact this.trans (zpow_le_zpow_right₀ (by norm_num) (by norm_num))
      generalize discriminant fl1 a b c = d at *
      have s0 := Real.sqrt_nonneg d
      have slo := le_sqrt_pow hlo
      have sup := sqrt_pow_le hup
      have ssafe : Safe 53 (-1074) 1024 (Real.sqrt d) :=
        safe_double (e := -426) (f := 402) (by rwa [abs_of_nonneg s0]) (by rwa [abs_of_nonneg s0]) (by norm_num)
          (by norm_num)
      rw [hag _ ssafe]
      have rlo : (2 : ℝ) ^ (-426 : ℤ) ≤ |fl1 (Real.sqrt d)| :=
        h1.abs_ge (isFloat_pow (by norm_num) _) (by rwa [abs_of_nonneg s0])
      have rup : |fl1 (Real.sqrt d)| ≤ (2 : ℝ) ^ (402 : ℤ) :=
        h1.abs_le (isFloat_pow (by norm_num) _) (by rwa [abs_of_nonneg s0])
      have rm : ∃ k : ℤ, fl1 (Real.sqrt d) = k * (2 : ℝ) ^ (-478 : ℤ) := by
        have := (h1 _).1.grid rlo
        norm_num at this ⊢
        exact this
      have bm : ∃ k : ℤ, -b = k * (2 : ℝ) ^ (-478 : ℤ) := by
        rcases hb with rfl | hb
        · exact ⟨0, by simp⟩
        · have := multiple_of_le (b := -478) (by norm_num) (hf.grid hb.1)
          exact multiple_neg this
      have bup : |-b| ≤ (2 : ℝ) ^ (402 : ℤ) := pow_up h2a.le (by norm_num)
      have key (z : ℝ) (zm : ∃ k : ℤ, z = k * (2 : ℝ) ^ (-478 : ℤ)) (zu : |z| ≤ (2 : ℝ) ^ (403 : ℤ)) :
          fl (fl z / (2 * a)) = fl1 (fl1 z / (2 * a)) := by
        rw [hag z (safe_double_multiple zm zu (by norm_num) (by norm_num))]
        refine hag _ ?_
        by_cases z0 : z = 0
        · rw [z0, h1.self (isFloat_zero 53), zero_div]
          exact safe_double_multiple (e := 0) (f := 0) ⟨0, by simp⟩ (by simp) (by norm_num) (by norm_num)
        · exact safe_double (abs_div_pow (h1.abs_ge (isFloat_pow (by norm_num) _) (multiple_ge zm z0)) two_up two0)
            (div_abs_pow (h1.abs_le (isFloat_pow (by norm_num) _) zu) two_lo) (by norm_num) (by norm_num)
      rw [key _ (multiple_add bm rm) (by have := add_abs_pow bup rup; norm_num at this ⊢; exact this),
        key _ (multiple_sub bm rm) (by
          have := add_abs_pow bup (y := -fl1 (Real.sqrt d)) (by rwa [abs_neg])
          rw [← sub_eq_add_neg] at this
          norm_num at this ⊢
          exact this)]
    next hpos =>
      split
      · rw [hag]
        rcases h2a with h | h
        · rw [h, zero_div]
          exact safe_double_multiple (e := 0) (f := 0) ⟨0, by simp⟩ (by simp) (by norm_num) (by norm_num)
        · exact safe_double (abs_div_pow h.1 two_up two0) (div_abs_pow h.2 two_lo) (by norm_num) (by norm_num)
      · rfl

/-- What is smaller than half of the smallest number is rounded to zero. -/
theorem RoundsDouble_tiny {fl : ℝ → ℝ} (hfl : RoundsDouble fl) {x : ℝ} (hx : |x| < (2 : ℝ) ^ (-1075 : ℤ)) : fl x = 0 := by
  have hl : |x| ≤ largest 53 1024 := by
    refine hx.le.trans (le_trans ?_ (large_double (e := 0) (by norm_num)))
    exact zpow_le_zpow_right₀ (by norm_num) (by norm_num)
  obtain ⟨h1, h2⟩ := hfl x hl
  by_contra h0
  have h3 := multiple_ge h1.multiple h0
  have h4 := h2 0 (inFormat_zero (by norm_num))
  rw [zero_sub, abs_neg] at h4
  have h5 := abs_add_le (fl x - x) x
  rw [sub_add_cancel] at h5
  have h6 : (2 : ℝ) ^ (-1074 : ℤ) = 2 ^ (-1075 : ℤ) + 2 ^ (-1075 : ℤ) := by
    rw [show (-1074 : ℤ) = -1075 + 1 by norm_num, zpow_add₀ (by norm_num)]; ring
  rw [h6] at h3
  generalize (2 : ℝ) ^ (-1075 : ℤ) = t at *
  linarith

theorem RoundsFloat_tiny {fl : ℝ → ℝ} (hfl : RoundsFloat fl) {x : ℝ} (hx : |x| < (2 : ℝ) ^ (-150 : ℤ)) : fl x = 0 := by
  have hl : |x| ≤ largest 24 128 := by
    refine hx.le.trans (le_trans ?_ (large_single (e := 0) (by norm_num)))
    exact zpow_le_zpow_right₀ (by norm_num) (by norm_num)
  obtain ⟨h1, h2⟩ := hfl x hl
  by_contra h0
  have h3 := multiple_ge h1.multiple h0
  have h4 := h2 0 (inFormat_zero (by norm_num))
  rw [zero_sub, abs_neg] at h4
  have h5 := abs_add_le (fl x - x) x
  rw [sub_add_cancel] at h5
  have h6 : (2 : ℝ) ^ (-149 : ℤ) = 2 ^ (-150 : ℤ) + 2 ^ (-150 : ℤ) := by
    rw [show (-149 : ℤ) = -150 + 1 by norm_num, zpow_add₀ (by norm_num)]; ring
  rw [h6] at h3
  generalize (2 : ℝ) ^ (-150 : ℤ) = t at *
  linarith

end Ecl.PolyFloat
