import Verif.Props.C141_Tension
import Verif.Lemmas.TensionDouble

/-! # C141: what the tension of a spline does, computed with `double` -/
set_option autoImplicit false

namespace Ecl.Props
open Ecl Ecl.Nan Ecl.Nan.Spec Ecl.Poly Ecl.Poly.Ext Ecl.Spec

/-- **C141.** A tension that is too high: if the tension times the length of one segment is computed as 750 or more, the
spline computed with `double`, however it rounds, gives NaN for every value, slope and acceleration in its domain. -/
theorem C141_overflow (fl : ℝ → ℝ) (mode : Mode) (xs ys : List Ext) (tau : Ext) (s : Tension Ext)
    (h : natural (double fl) mode xs ys tau = .ok s) (k : ℕ) (x0 x1 : Ext) (h0 : xs[k]? = some x0) (h1 : xs[k + 1]? = some x1)
    (w : ℝ) (hw : (double fl).mul tau ((double fl).sub x1 x0) = num w) (hb : 750 ≤ |w|) (x y : Ext) :
    (Tension.value (double fl) mode s x = .ok y → y = nan) ∧
    (Tension.slope (double fl) mode s x = .ok y → y = nan) ∧
    (Tension.curvature (double fl) mode s x = .ok y → y = nan) := by
  have H := double_spreads fl
  have hk : k + 1 < xs.length := (List.getElem?_eq_some_iff.1 h1).1
  have e : hAt (double fl) (get (double fl) xs) k = (double fl).sub x1 x0 := by
    simp [hAt, Nan.get, List.getD, h0, h1]
  have hz := natural_nan_of_quotient H mode xs ys tau s h k hk (by rw [e, hw]; exact quotient_big fl hb)
  exact ⟨fun hy => call_nan (isNan := (· = nan)) _ mode s x y hy fun g hg => value_nan H g _ _ (hz g hg),
    fun hy => call_nan (isNan := (· = nan)) _ mode s x y hy fun g hg => slope_nan H g _ _ (hz g hg),
    fun hy => call_nan (isNan := (· = nan)) _ mode s x y hy fun g hg => curvature_nan H g _ _ (hz g hg)⟩

namespace C141

/-- The spline through three points is always made. -/
theorem three (A : Arith Ext) (mode : Mode) (tau x0 x1 x2 y0 y1 y2 : Ext) :
    natural A mode [x0, x1, x2] [y0, y1, y2] tau = .ok
      { domain := [x0, x1, x2]
        functions := [{ x0 := x0, xf := x1, y0 := y0, yf := y1, z0 := A.lit 0,
                        zf := zAt A tau (get A [x0, x1, x2]) (get A [y0, y1, y2]) 2 1 },
                      { x0 := x1, xf := x2, y0 := y1, yf := y2,
                        z0 := zAt A tau (get A [x0, x1, x2]) (get A [y0, y1, y2]) 2 1, zf := A.lit 0 }]
        tension := tau } := by
  cases mode <;> rfl

/-- At 1/2 the first of the two segments is used. -/
theorem at_half (fl : ℝ → ℝ) (mode : Mode) (tau : Ext) (g0 g1 : Func Ext) (f : Func Ext → Ext → Ext → Ext) :
    Tension.call (double fl) f mode { domain := [num 0, num 1, num 2], functions := [g0, g1], tension := tau } (num (1 / 2)) =
      .ok (f g0 tau (num (1 / 2))) := by
  have a : (double fl).lt (num 1) (num (1 / 2)) = false := by
    show Special.lt (num 1) (num (1 / 2)) = false
    simp [Special.lt, gt]; norm_num
  have b : (double fl).le (num 0) (num (1 / 2)) = true := by
    show Special.le (num 0) (num (1 / 2)) = true
    simp [Special.le, ge, gt]
  have c : (double fl).le (num (1 / 2)) (num 2) = true := by
    show Special.le (num (1 / 2)) (num 2) = true
    simp [Special.le, ge, gt]; norm_num
  cases mode <;> simp only [Tension.call, Nan.segment, List.head?, List.getLast?, List.getLast, List.drop, findFrom, a, b, c] <;> rfl

end C141

/-- **C141 fails** in `double` at high tension: through the points (0, 0), (1, 1) and (2, 0) a spline with any tension from
750 on that is a `double` has the value NaN at 1/2, in both builds, and not one near 1/2. -/
theorem C141_fails_high (fl : ℝ → ℝ) (hfl : RoundsDouble fl) (mode : Mode) (tau : ℝ) (ht : InFormat 53 (-1074) 1024 tau)
    (hb : 750 ≤ tau) :
    ∃ s, natural (double fl) mode [num 0, num 1, num 2] [num 0, num 1, num 0] (num tau) = .ok s ∧
      Tension.value (double fl) mode s (num (1 / 2)) = .ok nan := by
  have h := C141.three (double fl) mode (num tau) (num 0) (num 1) (num 2) (num 0) (num 1) (num 0)
  refine ⟨_, h, ?_⟩
  have v := C141.at_half fl mode (num tau)
    { x0 := num 0, xf := num 1, y0 := num 0, yf := num 1, z0 := (double fl).lit 0,
      zf := zAt (double fl) (num tau) (get (double fl) [num 0, num 1, num 2]) (get (double fl) [num 0, num 1, num 0]) 2 1 }
    { x0 := num 1, xf := num 2, y0 := num 1, yf := num 0,
      z0 := zAt (double fl) (num tau) (get (double fl) [num 0, num 1, num 2]) (get (double fl) [num 0, num 1, num 0]) 2 1,
      zf := (double fl).lit 0 } (Func.value (double fl))
  have n := (C141_overflow fl mode _ _ _ _ h 0 (num 0) (num 1) rfl rfl tau
    (by rw [d_sub hfl (sub_zero 1) fmt_one, d_mul hfl (mul_one tau) ht]) (by rwa [abs_of_nonneg (by linarith)]) (num (1 / 2)) _).1 v
  exact v.trans (by rw [n])

/-- A tension of 1024. -/
example (fl : ℝ → ℝ) (hfl : RoundsDouble fl) :
    ∃ s, natural (double fl) .debug [num 0, num 1, num 2] [num 0, num 1, num 0] (num (2 ^ (10 : ℤ))) = .ok s ∧
      Tension.value (double fl) .debug s (num (1 / 2)) = .ok nan :=
  C141_fails_high fl hfl .debug _ (fmt_pow (by omega) (by omega)) (by norm_num)

/-- **C141 fails** in `double` at low tension: through the same points a spline with the tension `2^-k`, from `k = 28` on,
has the value NaN at 1/2, in both builds, and not one near that of the cubic spline. -/
theorem C141_fails_low (fl : ℝ → ℝ) (hfl : RoundsDouble fl) (mode : Mode) (k : ℕ) (h28 : 28 ≤ k) (h300 : k ≤ 300) :
    ∃ s, natural (double fl) mode [num 0, num 1, num 2] [num 0, num 1, num 0] (num (2 ^ (-k : ℤ))) = .ok s ∧
      Tension.value (double fl) mode s (num (1 / 2)) = .ok nan := by
  refine ⟨_, C141.three (double fl) mode _ _ _ _ _ _ _, ?_⟩
  refine (C141.at_half fl mode _ _ _ _).trans ?_
  congr 1
  set A := double fl with hA
  set T : ℝ := 2 ^ (-k : ℤ) with hT
  have T0 : 0 < T := by positivity
  have fT : Fmt T := fmt_pow (by omega) (by omega)
  have eT2 : T * T = 2 ^ (-2 * k : ℤ) := by rw [hT, ← zpow_add₀ (by norm_num)]; congr 1; ring
  have fT2 : Fmt (T * T) := by rw [eT2]; exact fmt_pow (by omega) (by omega)
  have fT2n : Fmt (-(T * T)) := by rw [eT2]; exact fmt_neg_pow (by omega) (by omega)
  have e2T2 : -(T * T) - T * T = -2 ^ (1 - 2 * k : ℤ) := by
    have : (2 : ℝ) ^ (1 - 2 * k : ℤ) = 2 * 2 ^ (-2 * k : ℤ) := by
      rw [show (1 - 2 * k : ℤ) = 1 + -2 * k by ring, zpow_add₀ (by norm_num), zpow_one]
    rw [this, eT2]
    ring
  have f2T2 : Fmt (-(T * T) - T * T) := by rw [e2T2]; exact fmt_neg_pow (by omega) (by omega)
  have fT3 : Fmt (T * T * T) := by
    have : T * T * T = 2 ^ (-3 * k : ℤ) := by rw [eT2, hT, ← zpow_add₀ (by norm_num)]; congr 1; ring
    rw [this]; exact fmt_pow (by omega) (by omega)
  have eI : 1 / T = 2 ^ (k : ℤ) := by rw [hT, zpow_neg, one_div, inv_inv]
  have fI : Fmt (1 / T) := by rw [eI]; exact fmt_pow (by omega) (by omega)
  have eH : T * (1 / 2) = 2 ^ (-k - 1 : ℤ) := by rw [hT, zpow_sub₀ (by norm_num)]; norm_num; ring
  have fH : Fmt (T * (1 / 2)) := by rw [eH]; exact fmt_pow (by omega) (by omega)
  have sT : A.sinh (num T) = num T := d_sinh hfl (by omega) (by omega)
  have sH : A.sinh (num (T * (1 / 2))) = num (T * (1 / 2)) := by rw [eH]; exact d_sinh hfl (by omega) (by omega)
  have cT : A.cosh (num T) = num 1 := d_cosh hfl (by omega)
  have l0 : A.lit 0 = num 0 := d_lit hfl (by norm_num) fmt_zero
  have l1 : A.lit 1 = num 1 := d_lit hfl (by norm_num) fmt_one
  have h0 : hAt A (get A [num 0, num 1, num 2]) 0 = num 1 := d_sub hfl (sub_zero 1) fmt_one
  have h1 : hAt A (get A [num 0, num 1, num 2]) 1 = num 1 := d_sub hfl (by norm_num) fmt_one
  have m1 : A.mul (num T) (num 1) = num T := d_mul hfl (mul_one T) fT
  have q1 : A.div (num 1) (num 1) = num 1 := d_div hfl (by norm_num) (by norm_num) fmt_one
  have qT : A.div (num T) (num T) = num 1 := d_div hfl T0.ne' (div_self T0.ne') fmt_one
  have qc : A.div (num 1) (num T) = num (1 / T) := d_div hfl T0.ne' rfl fI
  have mc : A.mul (num T) (num (1 / T)) = num 1 := d_mul hfl (mul_one_div_cancel T0.ne') fmt_one
  have s11 : A.sub (num 1) (num 1) = num 0 := d_sub hfl (sub_self 1) fmt_zero
  have mTT : A.mul (num T) (num T) = num (T * T) := d_mul hfl rfl fT2
  have a1 : aAt A (num T) (get A [num 0, num 1, num 2]) 1 = num 0 := by
    simp only [aAt, h1, l1, m1, sT, q1, qT, s11]
  have b0 : betaAt A (num T) (get A [num 0, num 1, num 2]) 0 = num 0 := by
    simp only [betaAt, h0, l1, m1, sT, cT, q1, qc, mc, s11]
  have b1 : betaAt A (num T) (get A [num 0, num 1, num 2]) 1 = num 0 := by
    simp only [betaAt, h1, l1, m1, sT, cT, q1, qc, mc, s11]
  have g0 : gammaAt A (num T) (get A [num 0, num 1, num 2]) (get A [num 0, num 1, num 0]) 0 = num (T * T) := by
    have d : A.sub (get A [num 0, num 1, num 0] (0 + 1)) (get A [num 0, num 1, num 0] 0) = num 1 := d_sub hfl (sub_zero 1) fmt_one
    simp only [gammaAt, h0, mTT, d]
    rw [d_mul hfl (mul_one (T * T)) fT2, d_div hfl one_ne_zero (div_one (T * T)) fT2]
  have g1 : gammaAt A (num T) (get A [num 0, num 1, num 2]) (get A [num 0, num 1, num 0]) 1 = num (-(T * T)) := by
    have d : A.sub (get A [num 0, num 1, num 0] (1 + 1)) (get A [num 0, num 1, num 0] 1) = num (-1) :=
      d_sub hfl (by norm_num) (by simpa using fmt_neg_pow (e := 0) (by omega) (by omega))
    simp only [gammaAt, h1, mTT, d]
    rw [d_mul hfl (show T * T * -1 = -(T * T) by ring) fT2n, d_div hfl one_ne_zero (div_one (-(T * T))) fT2n]
  have z1 : zAt A (num T) (get A [num 0, num 1, num 2]) (get A [num 0, num 1, num 0]) 2 1 = inf true := by
    show A.div (A.sub (A.sub _ _) (A.mul _ (A.lit 0))) (A.add _ _) = _
    rw [g0, g1, a1, b0, b1, l0, d_sub hfl rfl f2T2, d_mul hfl (mul_zero 0) fmt_zero, d_sub hfl (sub_zero _) f2T2,
      d_add hfl (add_zero 0) fmt_zero]
    have neg : -(T * T) - T * T < 0 := by nlinarith
    show post fl (Ext.div false (num _) (num 0)) = _
    rw [Ext.div, if_pos rfl, if_neg neg.ne, sign, if_neg neg.ne]
    simp [post, neg]
  have half0 : A.sub (num 1) (num (1 / 2)) = num (1 / 2) := d_sub hfl (by norm_num) fmt_half
  have half1 : A.sub (num (1 / 2)) (num 0) = num (1 / 2) := d_sub hfl (by norm_num) fmt_half
  have one0 : A.sub (num 1) (num 0) = num 1 := d_sub hfl (by norm_num) fmt_one
  have mH : A.mul (num T) (num (1 / 2)) = num (T * (1 / 2)) := d_mul hfl rfl fH
  have w0 : A.mul (num 0) (num (T * (1 / 2))) = num 0 := d_mul hfl (zero_mul _) fmt_zero
  have w1 : A.mul (inf true) (num (T * (1 / 2))) = inf true := by
    show post fl (Ext.mul (inf true) (num (T * (1 / 2)))) = _
    have p : 0 < T * (1 / 2) := by positivity
    rw [Ext.mul, if_neg p.ne', sign, if_neg p.ne']
    simp [post, T0.le]
  have w2 : A.add (num 0) (inf true) = inf true := rfl
  have w3 : A.mul (num (T * T)) (num T) = num (T * T * T) := d_mul hfl rfl fT3
  have w4 : A.div (inf true) (num (T * T * T)) = inf true := by
    have p : 0 < T * T * T := by positivity
    show post fl (Ext.div false (inf true) (num (T * T * T))) = _
    rw [Ext.div, sign, if_neg p.ne']
    simp [post, not_lt.2 p.le]
  have w5 : A.div (num 0) (num (T * T)) = num 0 := d_div hfl (by positivity) (zero_div _) fmt_zero
  have w6 : A.sub (num 0) (num 0) = num 0 := d_sub hfl (sub_zero 0) fmt_zero
  have w7 : A.mul (num 0) (num (1 / 2)) = num 0 := d_mul hfl (zero_mul _) fmt_zero
  have w8 : A.div (num 0) (num 1) = num 0 := d_div hfl one_ne_zero (zero_div _) fmt_zero
  have w9 : A.add (inf true) (num 0) = inf true := rfl
  have w10 : A.div (inf true) (num (T * T)) = inf true := by
    have p : 0 < T * T := by positivity
    show post fl (Ext.div false (inf true) (num (T * T))) = _
    rw [Ext.div, sign, if_neg p.ne']
    simp [post, not_lt.2 p.le]
  have w11 : A.sub (num 1) (inf true) = inf false := rfl
  have w12 : A.mul (inf false) (num (1 / 2)) = inf false := by
    show post fl (Ext.mul (inf false) (num (1 / 2))) = _
    rw [Ext.mul, if_neg (by norm_num), sign, if_neg (by norm_num)]
    simp [post]
  have w13 : A.div (inf false) (num 1) = inf false := by
    show post fl (Ext.div false (inf false) (num 1)) = _
    rw [Ext.div, sign, if_neg one_ne_zero]
    simp [post]
  have w14 : A.add (inf true) (inf false) = nan := by
    show post fl (Ext.add (inf true) (inf false)) = _
    simp [Ext.add, post]
  simp only [Func.value, z1, l0, one0, half0, half1, mH, sH, w0, w1, w2, m1, sT, mTT, w3, w4, w5, w6, w7, w8, w9, w10, w11,
    w12, w13, w14]

/-- A tension of about 10^-9. -/
example (fl : ℝ → ℝ) (hfl : RoundsDouble fl) :
    ∃ s, natural (double fl) .release [num 0, num 1, num 2] [num 0, num 1, num 0] (num (2 ^ (-(30 : ℕ) : ℤ))) = .ok s ∧
      Tension.value (double fl) .release s (num (1 / 2)) = .ok nan :=
  C141_fails_low fl hfl .release 30 (by omega) (by omega)

end Ecl.Props
