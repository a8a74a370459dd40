import Verif.Spec.NanDouble
import Verif.Lemmas.NanExact
import Verif.Lemmas.Range
import Verif.Lemmas.SinhBounds

/-! # Tension splines computed with `double` -/
set_option autoImplicit false

namespace Ecl.Nan
open Ecl Ecl.Nan.Spec Ecl.Poly Ecl.Poly.Ext Ecl.Spec

theorem double_spreads (fl : ℝ → ℝ) : Spreads (double fl) (· = nan) := by
  have H := exact_spreads
  refine ⟨fun a b h => ?_, fun a b h => ?_, fun a b h => ?_, fun a b h => ?_, H.neg, H.abs, fun a h => ?_, fun a h => ?_,
    fun a h => ?_, H.lt, H.le, H.eq⟩
  · show post fl (exact.add a b) = nan; rw [H.add a b h]; rfl
  · show post fl (exact.sub a b) = nan; rw [H.sub a b h]; rfl
  · show post fl (exact.mul a b) = nan; rw [H.mul a b h]; rfl
  · show post fl (exact.div a b) = nan; rw [H.div a b h]; rfl
  · show post fl (exact.sqrt a) = nan; rw [H.sqrt a h]; rfl
  · show post fl (exact.sinh a) = nan; rw [H.sinh a h]; rfl
  · show post fl (exact.cosh a) = nan; rw [H.cosh a h]; rfl

variable {F : Type} {A : Arith F} {isNan : F → Prop}

theorem uAt_nan (H : Spreads A isNan) (a beta : ℕ → F) (k : ℕ) (h : isNan (beta k)) :
    ∀ i, 0 < i → k ≤ i → isNan (uAt A a beta i) := by
  intro i
  induction i with
  | zero => intro h; omega
  | succ i ih =>
    intro _ hk
    cases i with
    | zero =>
      show isNan (A.add (beta 1) (beta 0))
      have : k = 0 ∨ k = 1 := by omega
      rcases this with rfl | rfl
      · exact H.add _ _ (Or.inr h)
      · exact H.add _ _ (Or.inl h)
    | succ i =>
      show isNan (A.sub (A.add (beta (i + 2)) (beta (i + 1))) _)
      rcases Nat.eq_or_lt_of_le hk with e | e
      · exact H.sub _ _ (Or.inl (H.add _ _ (Or.inl (by rw [e] at h; exact h))))
      · exact H.sub _ _ (Or.inr (H.div _ _ (Or.inr (ih (by omega) (by omega)))))

theorem zBack_nan_of_u (H : Spreads A isNan) (a u v : ℕ → F) (n : ℕ) (h : isNan (u (n - 1))) :
    ∀ back, 0 < back → isNan (zBack A a u v n back) := by
  intro back
  induction back with
  | zero => intro h; omega
  | succ back ih =>
    intro _
    unfold zBack
    apply H.div
    rcases Nat.eq_zero_or_pos back with h0 | h0
    · subst h0; exact Or.inr h
    · exact Or.inl (H.sub _ _ (Or.inr (H.mul _ _ (Or.inr (ih h0)))))

/-- One segment whose quotient is NaN spoils the whole spline. -/
theorem natural_nan_of_quotient (H : Spreads A isNan) (mode : Mode) (xs ys : List F) (tau : F) (s : Tension F)
    (h : natural A mode xs ys tau = .ok s) (k : ℕ) (hk : k + 1 < xs.length)
    (hn : isNan (A.div (A.cosh (A.mul tau (hAt A (get A xs) k))) (A.sinh (A.mul tau (hAt A (get A xs) k))))) :
    ∀ f ∈ s.functions, isNan f.z0 ∨ isNan f.zf := by
  unfold natural at h
  split at h
  · cases h
  split at h
  · cases mode <;> cases h
  rename_i _ hl
  push_neg at hl
  dsimp only at h
  cases h
  intro f hf
  simp only [List.mem_map, List.mem_range] at hf
  obtain ⟨i, hi, rfl⟩ := hf
  have hb : isNan (betaAt A tau (get A xs) k) := H.sub _ _ (Or.inl (H.mul _ _ (Or.inr hn)))
  have hz : ∀ i, 0 < i → i < xs.length - 1 → isNan (zAt A tau (get A xs) (get A ys) (xs.length - 1) i) := by
    intro i h0 hi
    unfold zAt
    rw [if_neg (by omega)]
    exact zBack_nan_of_u H _ _ _ _ (uAt_nan H _ _ k hb _ (by omega) (by omega)) _ (by omega)
  rcases Nat.eq_zero_or_pos i with h0 | h0
  · right
    show isNan (zAt A tau (get A xs) (get A ys) (xs.length - 1) (i + 1))
    exact hz (i + 1) (by omega) (by omega)
  · left
    exact hz i h0 hi

/-! ## Overflow -/

theorem exp_750 : (2 : ℝ) ^ 1026 ≤ Real.exp 750 := by
  have h1 : (20 : ℝ) ≤ Real.exp 3 := by
    have e : Real.exp 3 = Real.exp 1 * Real.exp 1 * Real.exp 1 := by rw [← Real.exp_add, ← Real.exp_add]; norm_num
    have g := Real.exp_one_gt_d9
    have g1 : (2.718 : ℝ) ≤ Real.exp 1 := by linarith
    have g2 : (2.718 : ℝ) * 2.718 ≤ Real.exp 1 * Real.exp 1 := by gcongr
    have g3 : (2.718 : ℝ) * 2.718 * 2.718 ≤ Real.exp 1 * Real.exp 1 * Real.exp 1 := by gcongr
    rw [e]
    refine le_trans ?_ g3
    norm_num
  have h2 : Real.exp 750 = (Real.exp 3 ^ 10) ^ 25 := by
    rw [← pow_mul, ← Real.exp_nat_mul]; norm_num
  have h3 : (2 : ℝ) ^ 43 ≤ Real.exp 3 ^ 10 := by
    calc (2 : ℝ) ^ 43 ≤ 20 ^ 10 := by norm_num
      _ ≤ _ := by gcongr
  rw [h2]
  calc (2 : ℝ) ^ 1026 ≤ 2 ^ (43 * 25) := pow_le_pow_right₀ (by norm_num) (by norm_num)
    _ = (2 ^ 43) ^ 25 := by rw [pow_mul]
    _ ≤ _ := by gcongr

theorem threshold_lt : (2 ^ 54 - 1) * (2 : ℝ) ^ (970 : ℤ) ≤ 2 ^ 1024 := by
  have e : (2 : ℝ) ^ 1024 = 2 ^ 54 * (2 : ℝ) ^ (970 : ℤ) := by
    rw [show (970 : ℤ) = ((970 : ℕ) : ℤ) by norm_num, zpow_natCast, ← pow_add]
  rw [e]
  have : (0 : ℝ) < (2 : ℝ) ^ (970 : ℤ) := by positivity
  generalize (2 : ℝ) ^ (970 : ℤ) = t at this
  linarith

/-- From 750 on `sinh` and `cosh` overflow. -/
theorem sinh_big {x : ℝ} (h : 750 ≤ x) : (2 ^ 54 - 1) * (2 : ℝ) ^ (970 : ℤ) ≤ Real.sinh x := by
  refine threshold_lt.trans ?_
  have h1 : Real.sinh 750 ≤ Real.sinh x := Real.sinh_le_sinh.2 h
  refine le_trans ?_ h1
  rw [Real.sinh_eq]
  have e2 : Real.exp (-750) ≤ 1 := Real.exp_le_one_iff.2 (by norm_num)
  have e1 := exp_750
  have e3 : (2 : ℝ) ^ 1026 = 4 * 2 ^ 1024 := by rw [show (1026 : ℕ) = 2 + 1024 by norm_num, pow_add]; norm_num
  have e4 : (1 : ℝ) ≤ 2 ^ 1024 := one_le_pow₀ (by norm_num)
  rw [e3] at e1
  clear e3
  generalize (2 : ℝ) ^ 1024 = t at *
  generalize Real.exp 750 = u at *
  generalize Real.exp (-750) = w at *
  linarith

theorem quotient_big (fl : ℝ → ℝ) {x : ℝ} (h : 750 ≤ |x|) :
    (double fl).div ((double fl).cosh (num x)) ((double fl).sinh (num x)) = nan := by
  have hb := sinh_big h
  have hs : |Real.sinh x| = Real.sinh |x| := Real.abs_sinh x
  have hc : |Real.cosh x| = Real.cosh |x| := by rw [Real.cosh_abs, abs_of_pos (Real.cosh_pos x)]
  have h1 : (double fl).cosh (num x) = inf (sign false (Real.cosh x)) := by
    show post fl (num (Real.cosh x)) = _
    rw [post, if_pos]
    rw [hc]; exact hb.trans (Real.sinh_lt_cosh _).le
  have h2 : (double fl).sinh (num x) = inf (sign false (Real.sinh x)) := by
    show post fl (num (Real.sinh x)) = _
    rw [post, if_pos]
    rw [hs]; exact hb
  rw [h1, h2]
  rfl

/-! ## Numbers of the format -/

/-- The numbers between the least normal one and the largest power, with few bits. -/
theorem post_num {fl : ℝ → ℝ} (hfl : RoundsDouble fl) {x : ℝ} (h : InFormat 53 (-1074) 1024 x) : post fl (num x) = num x := by
  have h1 := h.abs_le
  have h2 : largest 53 1024 < (2 ^ 54 - 1) * (2 : ℝ) ^ (970 : ℤ) := by
    unfold largest
    rw [show (1024 : ℤ) - (53 : ℕ) = 1 + 970 by norm_num, zpow_add₀ (by norm_num)]
    have : (0 : ℝ) < (2 : ℝ) ^ (970 : ℤ) := by positivity
    rw [zpow_one]
    generalize (2 : ℝ) ^ (970 : ℤ) = t at this
    linarith
  rw [post, if_neg (by linarith), RoundsIn.self hfl h]

/-- A number so near a power of 2 is rounded to it. -/
theorem round_pow {fl : ℝ → ℝ} (hfl : RoundsDouble fl) {x : ℝ} {e : ℤ} (h0 : -1000 ≤ e) (h1 : e ≤ 900)
    (h : |x - 2 ^ e| * 2 < (2 : ℝ) ^ (e - 53)) (hx : |x| ≤ largest 53 1024) : fl x = 2 ^ e := by
  have hv : InFormat 53 (-1074) 1024 ((2 : ℝ) ^ e) := ⟨1, e, by norm_num, by omega, by push_cast; omega, by simp⟩
  obtain ⟨⟨m, k, hm, hk1, hk2, hy⟩, hn⟩ := hfl x hx
  have hn' := hn _ hv
  have tri : |fl x - 2 ^ e| < (2 : ℝ) ^ (e - 53) := by
    have : |fl x - 2 ^ e| ≤ |fl x - x| + |x - 2 ^ e| := abs_sub_le _ _ _
    rw [abs_sub_comm (2 ^ e) x] at hn'
    linarith
  by_contra hne
  rcases le_or_gt (e - 53) k with hk | hk
  · have mul : ∃ j : ℤ, fl x - 2 ^ e = j * (2 : ℝ) ^ (e - 53) :=
      multiple_sub (multiple_of_le hk ⟨m, hy⟩) (multiple_of_le (a := e) (by omega) ⟨1, by simp⟩)
    have := multiple_ge mul (sub_ne_zero.2 hne)
    linarith
  · have small : |fl x| ≤ (2 : ℝ) ^ (e - 1) := by
      rw [hy, abs_mul, abs_of_pos (show (0 : ℝ) < 2 ^ k by positivity)]
      have a : |(m : ℝ)| ≤ 2 ^ 53 := by
        have : (|m| : ℤ) ≤ 2 ^ 53 := hm.le
        exact_mod_cast this
      have b : (2 : ℝ) ^ k ≤ 2 ^ (e - 54) := zpow_le_zpow_right₀ (by norm_num) (by omega)
      calc |(m : ℝ)| * 2 ^ k ≤ 2 ^ 53 * 2 ^ (e - 54) := mul_le_mul a b (by positivity) (by positivity)
        _ = 2 ^ (e - 1) := by
          rw [← zpow_natCast, ← zpow_add₀ (by norm_num)]; congr 1; push_cast; ring
    have e1 : (2 : ℝ) ^ e = 2 * 2 ^ (e - 1) := by
      rw [show e = 1 + (e - 1) by ring, zpow_add₀ (by norm_num)]; simp
    have e2 : (2 : ℝ) ^ (e - 53) ≤ 2 ^ (e - 1) := zpow_le_zpow_right₀ (by norm_num) (by omega)
    have := abs_sub_abs_le_abs_sub ((2 : ℝ) ^ e) (fl x)
    rw [abs_sub_comm, abs_of_pos (show (0 : ℝ) < 2 ^ e by positivity)] at this
    linarith

/-! ## The witness for a low tension -/

abbrev Fmt (x : ℝ) : Prop := InFormat 53 (-1074) 1024 x

theorem fmt_pow {e : ℤ} (h0 : -1000 ≤ e) (h1 : e ≤ 900) : Fmt ((2 : ℝ) ^ e) :=
  ⟨1, e, by norm_num, by omega, by push_cast; omega, by simp⟩

theorem fmt_neg_pow {e : ℤ} (h0 : -1000 ≤ e) (h1 : e ≤ 900) : Fmt (-(2 : ℝ) ^ e) :=
  ⟨-1, e, by norm_num, by omega, by push_cast; omega, by simp⟩

theorem fmt_zero : Fmt 0 := ⟨0, 0, by norm_num, by omega, by norm_num, by simp⟩

theorem fmt_one : Fmt 1 := by simpa using fmt_pow (e := 0) (by omega) (by omega)

theorem fmt_half : Fmt (1 / 2) := by simpa using fmt_pow (e := -1) (by omega) (by omega)

section
variable {fl : ℝ → ℝ} (hfl : RoundsDouble fl)
include hfl

theorem d_add {x y z : ℝ} (h : x + y = z) (hz : Fmt z) : (double fl).add (num x) (num y) = num z := by
  subst h; exact post_num hfl hz

theorem d_sub {x y z : ℝ} (h : x - y = z) (hz : Fmt z) : (double fl).sub (num x) (num y) = num z := by
  subst h; exact post_num hfl (by rw [← sub_eq_add_neg]; exact hz)

theorem d_mul {x y z : ℝ} (h : x * y = z) (hz : Fmt z) : (double fl).mul (num x) (num y) = num z := by
  subst h; exact post_num hfl hz

theorem d_div {x y z : ℝ} (h0 : y ≠ 0) (h : x / y = z) (hz : Fmt z) : (double fl).div (num x) (num y) = num z := by
  subst h
  show post fl (Ext.div false (num x) (num y)) = _
  rw [Ext.div, if_neg h0]
  exact post_num hfl hz

theorem d_lit {q : ℚ} {z : ℝ} (h : (q : ℝ) = z) (hz : Fmt z) : (double fl).lit q = num z := by
  subst h; exact post_num hfl hz

theorem post_round {x : ℝ} {e : ℤ} (h0 : -1000 ≤ e) (h1 : e ≤ 900) (h : |x - 2 ^ e| * 2 < (2 : ℝ) ^ (e - 53)) (hx : |x| ≤ 2 ^ (900 : ℤ)) :
    post fl (num x) = num (2 ^ e) := by
  have a : (2 : ℝ) ^ (900 : ℤ) ≤ largest 53 1024 := by
    have := (fmt_pow (e := 900) (by omega) (by omega)).abs_le
    rwa [abs_of_pos (by positivity)] at this
  have b : (2 : ℝ) ^ (900 : ℤ) < (2 ^ 54 - 1) * (2 : ℝ) ^ (970 : ℤ) := by
    have c : (2 : ℝ) ^ (900 : ℤ) < (2 : ℝ) ^ (970 : ℤ) := zpow_lt_zpow_right₀ (by norm_num) (by norm_num)
    have c' : (0 : ℝ) < (2 : ℝ) ^ (970 : ℤ) := by positivity
    generalize (2 : ℝ) ^ (970 : ℤ) = t at *
    generalize (2 : ℝ) ^ (900 : ℤ) = u at *
    linarith
  rw [post, if_neg (not_le.2 (hx.trans_lt b)), round_pow hfl h0 h1 h (hx.trans a)]

theorem one_le_huge : (1 : ℝ) + 1 ≤ (2 : ℝ) ^ (900 : ℤ) := by
  have : (2 : ℝ) ^ (1 : ℤ) ≤ (2 : ℝ) ^ (900 : ℤ) := zpow_le_zpow_right₀ (by norm_num) (by norm_num)
  rw [zpow_one] at this
  refine le_trans (by norm_num) this

/-- `sinh` of a small power of 2 is rounded to that power. -/
theorem d_sinh {e : ℤ} (h0 : -1000 ≤ e) (h1 : e ≤ -27) : (double fl).sinh (num (2 ^ e)) = num (2 ^ e) := by
  have p : (0 : ℝ) < 2 ^ e := by positivity
  have sm : (2 : ℝ) ^ e ≤ 2 ^ (-27 : ℤ) := zpow_le_zpow_right₀ (by norm_num) h1
  have sm1 : (2 : ℝ) ^ e ≤ 1 / 2 ^ 27 := sm.trans (by norm_num)
  have sp : (2 : ℝ) ^ (e - 53) = 2 ^ e * (1 / 2 ^ 53) := by rw [zpow_sub₀ (by norm_num), div_eq_mul_one_div]; norm_num
  refine post_round hfl h0 (by omega) ?_ ?_
  · have a := TensionSpline.sinh_ge p.le
    have b := TensionSpline.sinh_le3 p.le (sm1.trans (by norm_num))
    rw [abs_of_nonneg (by linarith), sp]
    have sq : (2 : ℝ) ^ e * 2 ^ e ≤ 1 / 2 ^ 27 * (1 / 2 ^ 27) := by gcongr
    have cu : (2 : ℝ) ^ e * (2 ^ e * 2 ^ e) ≤ 2 ^ e * (1 / 2 ^ 27 * (1 / 2 ^ 27)) := by gcongr
    generalize (2 : ℝ) ^ e = t at *
    have : t ^ 3 = t * (t * t) := by ring
    rw [this] at b
    norm_num at *
    linarith
  · have a := TensionSpline.sinh_le1 p.le (sm1.trans (by norm_num))
    have := one_le_huge hfl
    generalize (2 : ℝ) ^ (900 : ℤ) = huge at this ⊢
    rw [abs_of_nonneg (Real.sinh_nonneg_iff.2 p.le)]
    norm_num at sm1
    linarith

/-- `cosh` of a small power of 2 is rounded to 1. -/
theorem d_cosh {e : ℤ} (h1 : e ≤ -28) : (double fl).cosh (num (2 ^ e)) = num 1 := by
  have p : (0 : ℝ) < 2 ^ e := by positivity
  have sm : (2 : ℝ) ^ e ≤ 2 ^ (-28 : ℤ) := zpow_le_zpow_right₀ (by norm_num) h1
  have sm1 : (2 : ℝ) ^ e ≤ 1 / 2 ^ 28 := sm.trans (by norm_num)
  have sq : (2 : ℝ) ^ e * 2 ^ e ≤ 1 / 2 ^ 28 * (1 / 2 ^ 28) := by gcongr
  have b := TensionSpline.cosh_le p.le (sm1.trans (by norm_num))
  have a := Real.one_le_cosh ((2 : ℝ) ^ e)
  have e1 : (1 : ℝ) = 2 ^ (0 : ℤ) := by simp
  have : post fl (num (Real.cosh (2 ^ e))) = num (2 ^ (0 : ℤ)) := by
    refine post_round hfl (by omega) (by omega) ?_ ?_
    · rw [← e1, abs_of_nonneg (by linarith)]
      generalize (2 : ℝ) ^ e = t at *
      have : t ^ 2 = t * t := by ring
      rw [this] at b
      norm_num at *
      linarith
    · have := one_le_huge hfl
      generalize (2 : ℝ) ^ (900 : ℤ) = huge at this ⊢
      rw [abs_of_pos (Real.cosh_pos _)]
      have : ((2 : ℝ) ^ e) ^ 2 ≤ 1 := by rw [pow_two]; refine sq.trans (by norm_num)
      linarith
  rw [zpow_zero] at this
  exact this

end

end Ecl.Nan
