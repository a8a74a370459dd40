import Mathlib.Data.Real.Basic
import Mathlib.Data.Finset.Max
import Mathlib.Tactic.Linarith
import Mathlib.Tactic.Positivity
import Mathlib.Tactic.NormNum
import Mathlib.Tactic.Ring
import Mathlib.Tactic.FieldSimp

/-! # Elimination with rounding: the errors of one row and of the whole system -/
set_option autoImplicit false

namespace Ecl.SplineFloat

/-- A rounded value near a value with an error. -/
theorem rnd {u a' a b e B : ℝ} (hu : 0 ≤ u) (h : |a' - a| ≤ u * |a|) (hab : |a - b| ≤ e) (hB : |b| ≤ B) :
    |a' - b| ≤ e + u * (B + e) := by
  have h1 : |a| ≤ B + e := by
    have : a = b + (a - b) := by ring
    rw [this]; exact (abs_add_le _ _).trans (add_le_add hB hab)
  have h2 : a' - b = (a' - a) + (a - b) := by ring
  rw [h2]
  refine (abs_add_le _ _).trans ?_
  have := mul_le_mul_of_nonneg_left h1 hu
  linarith

theorem times {a' a b e B : ℝ} (h : |a' - a| ≤ e) (hB : |b| ≤ B) : |a' * b - a * b| ≤ e * B := by
  rw [← sub_mul, abs_mul]
  exact mul_le_mul h hB (abs_nonneg _) ((abs_nonneg _).trans h)

theorem near {a b e B : ℝ} (h : |a - b| ≤ e) (hB : |b| ≤ B) : |a| ≤ B + e := by
  have : a = b + (a - b) := by ring
  rw [this]; exact (abs_add_le _ _).trans (add_le_add hB h)

/-- A rounded quotient nearly solves the division. -/
theorem quot {u a' a b : ℝ} (hb : b ≠ 0) (h : |a' - a / b| ≤ u * |a / b|) : |a' * b - a| ≤ u * |a| := by
  have e : a' * b - a = (a' - a / b) * b := by field_simp
  rw [e, abs_mul]
  refine (mul_le_mul_of_nonneg_right h (abs_nonneg b)).trans (le_of_eq ?_)
  rw [abs_div, mul_assoc, div_mul_cancel₀ _ (abs_ne_zero.2 hb)]

/-- What a row of the elimination computes. -/
structure Row (u s S c v t q p m c' z n v' : ℝ) : Prop where
  hq : |q - S * c| ≤ u * |S * c|
  hp : |p - (q + 2)| ≤ u * |q + 2|
  hm : |m - (S - 1)| ≤ u * |S - 1|
  hc : |c' - m / p| ≤ u * |m / p|
  hz : |z - S * v| ≤ u * |S * v|
  hn : |n - (t - z)| ≤ u * |t - z|
  hv : |v' - n / p| ≤ u * |n / p|
  hS : |S - s| ≤ 5 * u

/-- The pivot of a row and its coefficient. -/
theorem Row.left {u s S c v t q p m c' z n v' : ℝ} (h : Row u s S c v t q p m c' z n v')
    (hu0 : 0 < u) (hu : u ≤ 1 / 10 ^ 15) (hs0 : 0 ≤ s) (hs1 : s ≤ 1) (hc : |c| ≤ 51 / 100) :
    |p - (s * c + 2)| ≤ 11 * u ∧ 2 - 51 / 100 * s ≤ s * c + 2 ∧ s * c + 2 ≤ 251 / 100 ∧ |c'| ≤ 51 / 100 ∧
      |c' * (s * c + 2) - (s - 1)| ≤ 20 * u := by
  have huu : u * u ≤ u * (1 / 10 ^ 15) := mul_le_mul_of_nonneg_left hu hu0.le
  have hs : |s| ≤ 1 := abs_le.2 ⟨by linarith, hs1⟩
  have hsc : |s * c| ≤ 51 / 100 * s := by
    rw [abs_mul, abs_of_nonneg hs0, mul_comm]; exact mul_le_mul_of_nonneg_right hc hs0
  have hsc' := abs_le.1 hsc
  have hP0 : 2 - 51 / 100 * s ≤ s * c + 2 := by linarith
  have hP1 : s * c + 2 ≤ 251 / 100 := by linarith
  have hSc := times h.hS hc
  have q1 : |q - s * c| ≤ 7 * u := (rnd hu0.le h.hq hSc (hsc.trans (by linarith : _ ≤ (51 : ℝ) / 100))).trans (by nlinarith)
  have p0 : |q + 2 - (s * c + 2)| ≤ 7 * u := by rw [add_sub_add_right_eq_sub]; exact q1
  have p1 : |p - (s * c + 2)| ≤ 11 * u :=
    (rnd hu0.le h.hp p0 (abs_le.2 ⟨by linarith, hP1⟩)).trans (by nlinarith)
  have m0 : |S - 1 - (s - 1)| ≤ 5 * u := by rw [sub_sub_sub_cancel_right]; exact h.hS
  have m1 : |m - (s - 1)| ≤ 5 * u + u * (1 - s + 5 * u) := rnd hu0.le h.hm m0 (by rw [abs_of_nonpos (by linarith)]; linarith)
  have m2 : |m - (s - 1)| ≤ 7 * u := m1.trans (by nlinarith)
  have hm' : |m| ≤ 1 - s + 7 * u := near m2 (by rw [abs_of_nonpos (by linarith)]; linarith)
  have hp' := abs_le.1 p1
  have hppos : 0 < p := by linarith
  have c1 := quot hppos.ne' h.hc
  have c2 : |c' * p| ≤ |m| + u * |m| := near c1 le_rfl
  rw [abs_mul, abs_of_pos hppos] at c2
  have c3 : |c'| ≤ 51 / 100 := by
    by_contra hcon
    have hcon := not_le.1 hcon
    have a1 : 51 / 100 * p ≤ |c'| * p := mul_le_mul_of_nonneg_right hcon.le hppos.le
    have a2 : u * |m| ≤ u * 2 := mul_le_mul_of_nonneg_left (by linarith) hu0.le
    linarith
  refine ⟨p1, hP0, hP1, c3, ?_⟩
  have e : c' * (s * c + 2) - (s - 1) = (c' * p - m) + (m - (s - 1)) - c' * (p - (s * c + 2)) := by ring
  rw [e]
  refine (abs_sub _ _).trans ?_
  have a1 : |c' * (p - (s * c + 2))| ≤ 51 / 100 * (11 * u) := by
    rw [abs_mul]; exact mul_le_mul c3 p1 (abs_nonneg _) (by norm_num)
  have a2 : u * |m| ≤ u * 2 := mul_le_mul_of_nonneg_left (by linarith) hu0.le
  have a3 := abs_add_le (c' * p - m) (m - (s - 1))
  linarith

/-- The right hand side of a row. -/
theorem Row.right {u s S c v t q p m c' z n v' : ℝ} (h : Row u s S c v t q p m c' z n v')
    (hu0 : 0 < u) (hu : u ≤ 1 / 10 ^ 15) (hs0 : 0 ≤ s) (hs1 : s ≤ 1) (hc : |c| ≤ 51 / 100)
    {T R : ℝ} (hR : 0 ≤ R) (ht : |t - T| ≤ 10 * u * R) (hT : |T| ≤ R) (hv : |v| ≤ 21 / 10 * R) :
    |v'| ≤ 21 / 10 * R ∧ |v' * (s * c + 2) - (T - s * v)| ≤ 61 * (u * R) := by
  obtain ⟨p1, hP0, hP1, -, -⟩ := h.left hu0 hu hs0 hs1 hc
  have huR : 0 ≤ u * R := mul_nonneg hu0.le hR
  have huR' : u * R ≤ 1 / 10 ^ 15 * R := mul_le_mul_of_nonneg_right hu hR
  have huuR : u * (u * R) ≤ 1 / 10 ^ 15 * (u * R) := mul_le_mul_of_nonneg_right hu huR
  have hs : |s| ≤ 1 := abs_le.2 ⟨by linarith, hs1⟩
  have hsv : |s * v| ≤ s * (21 / 10 * R) := by
    rw [abs_mul, abs_of_nonneg hs0]; exact mul_le_mul_of_nonneg_left hv hs0
  have hsR : s * (21 / 10 * R) ≤ 21 / 10 * R := by nlinarith
  have hSv := times h.hS hv
  have z1 : |z - s * v| ≤ 14 * (u * R) := (rnd hu0.le h.hz hSv (hsv.trans hsR)).trans (by nlinarith)
  have n0 : |t - z - (T - s * v)| ≤ 24 * (u * R) := by
    have e : t - z - (T - s * v) = (t - T) - (z - s * v) := by ring
    rw [e]; refine (abs_sub _ _).trans ?_
    linarith
  have hTs : |T - s * v| ≤ R + s * (21 / 10 * R) := (abs_sub _ _).trans (add_le_add hT hsv)
  have n1 : |n - (T - s * v)| ≤ 28 * (u * R) :=
    (rnd hu0.le h.hn n0 (hTs.trans (by linarith : _ ≤ 31 / 10 * R))).trans (by nlinarith)
  have hn' : |n| ≤ R + s * (21 / 10 * R) + 28 * (u * R) := near n1 hTs
  have hp' := abs_le.1 p1
  have hppos : 0 < p := by linarith
  have v1 := quot hppos.ne' h.hv
  have v2 : |v' * p| ≤ |n| + u * |n| := near v1 le_rfl
  rw [abs_mul, abs_of_pos hppos] at v2
  have hun : u * |n| ≤ 4 * (u * R) := by
    have := mul_le_mul_of_nonneg_left (show |n| ≤ 4 * R by linarith) hu0.le
    linarith
  have v3 : |v'| ≤ 21 / 10 * R := by
    by_contra hcon
    have hcon := not_le.1 hcon
    have hpl : 2 - 51 / 100 * s - 11 * u ≤ p := by linarith
    have a1 : 21 / 10 * R * p < |v'| * p := mul_lt_mul_of_pos_right hcon hppos
    have a2 : 21 / 10 * R * (2 - 51 / 100 * s - 11 * u) ≤ 21 / 10 * R * p :=
      mul_le_mul_of_nonneg_left hpl (by linarith)
    have a3 : s * R ≤ 1 * R := mul_le_mul_of_nonneg_right hs1 hR
    nlinarith
  refine ⟨v3, ?_⟩
  have e : v' * (s * c + 2) - (T - s * v) = (v' * p - n) + (n - (T - s * v)) - v' * (p - (s * c + 2)) := by ring
  rw [e]
  refine (abs_sub _ _).trans ?_
  have a1 : |v' * (p - (s * c + 2))| ≤ 21 / 10 * R * (11 * u) := by
    rw [abs_mul]; exact mul_le_mul v3 p1 (abs_nonneg _) (by linarith)
  have a3 := abs_add_le (v' * p - n) (n - (T - s * v))
  linarith

/-- Back substitution of a row. -/
theorem back {u c v w q w' R : ℝ} (hu0 : 0 < u) (hu : u ≤ 1 / 10 ^ 15) (hR : 0 ≤ R) (hc : |c| ≤ 51 / 100)
    (hv : |v| ≤ 21 / 10 * R) (hw : |w| ≤ 5 * R) (hq : |q - c * w| ≤ u * |c * w|) (h : |w' - (q + v)| ≤ u * |q + v|) :
    |w'| ≤ 5 * R ∧ |w' - (c * w + v)| ≤ 8 * (u * R) := by
  have huR : 0 ≤ u * R := mul_nonneg hu0.le hR
  have huR' : u * R ≤ 1 / 10 ^ 15 * R := mul_le_mul_of_nonneg_right hu hR
  have huuR : u * (u * R) ≤ 1 / 10 ^ 15 * (u * R) := mul_le_mul_of_nonneg_right hu huR
  have hcw : |c * w| ≤ 51 / 100 * (5 * R) := by
    rw [abs_mul]; exact mul_le_mul hc hw (abs_nonneg _) (by norm_num)
  have q1 : |q + v - (c * w + v)| ≤ 255 / 100 * (u * R) := by
    rw [add_sub_add_right_eq_sub]
    refine hq.trans ?_
    have := mul_le_mul_of_nonneg_left hcw hu0.le
    linarith
  have hcv : |c * w + v| ≤ 465 / 100 * R := (abs_add_le _ _).trans (by linarith)
  have w1 : |w' - (c * w + v)| ≤ 8 * (u * R) := (rnd hu0.le h q1 hcv).trans (by nlinarith)
  exact ⟨(near w1 hcv).trans (by linarith), w1⟩

/-- The equation of a row, from elimination and back substitution. -/
theorem residual {u s c c' v v' w w' w'' T R : ℝ} (hu0 : 0 < u) (hR : 0 ≤ R)
    (hs0 : 0 ≤ s) (hs1 : s ≤ 1) (hP0 : 0 ≤ s * c + 2) (hP1 : s * c + 2 ≤ 251 / 100)
    (h1 : |c' * (s * c + 2) - (s - 1)| ≤ 20 * u) (h2 : |v' * (s * c + 2) - (T - s * v)| ≤ 61 * (u * R))
    (hw : |w''| ≤ 5 * R) (b1 : |w - (c * w' + v)| ≤ 8 * (u * R)) (b2 : |w' - (c' * w'' + v')| ≤ 8 * (u * R)) :
    |s * w + 2 * w' + (1 - s) * w'' - T| ≤ 200 * (u * R) := by
  have huR : 0 ≤ u * R := mul_nonneg hu0.le hR
  have e : s * w + 2 * w' + (1 - s) * w'' - T =
      (c' * (s * c + 2) - (s - 1)) * w'' + (v' * (s * c + 2) - (T - s * v)) + s * (w - (c * w' + v)) +
        (s * c + 2) * (w' - (c' * w'' + v')) := by ring
  rw [e]
  have a1 : |(c' * (s * c + 2) - (s - 1)) * w''| ≤ 20 * u * (5 * R) := by
    rw [abs_mul]; exact mul_le_mul h1 hw (abs_nonneg _) (by positivity)
  have a2 : |s * (w - (c * w' + v))| ≤ 1 * (8 * (u * R)) := by
    rw [abs_mul, abs_of_nonneg hs0]; exact mul_le_mul hs1 b1 (abs_nonneg _) (by norm_num)
  have a3 : |(s * c + 2) * (w' - (c' * w'' + v'))| ≤ 251 / 100 * (8 * (u * R)) := by
    rw [abs_mul, abs_of_nonneg hP0]; exact mul_le_mul hP1 b2 (abs_nonneg _) (by norm_num)
  have t1 := abs_add_le ((c' * (s * c + 2) - (s - 1)) * w'' + (v' * (s * c + 2) - (T - s * v)) + s * (w - (c * w' + v)))
    ((s * c + 2) * (w' - (c' * w'' + v')))
  have t2 := abs_add_le ((c' * (s * c + 2) - (s - 1)) * w'' + (v' * (s * c + 2) - (T - s * v))) (s * (w - (c * w' + v)))
  have t3 := abs_add_le ((c' * (s * c + 2) - (s - 1)) * w'') (v' * (s * c + 2) - (T - s * v))
  linarith

/-- A diagonally dominant system answers a small residual with a small error. -/
theorem dominant {m : ℕ} {e s : ℕ → ℝ} {K : ℝ} (hK : 0 ≤ K)
    (h0 : |2 * e 0 + 0 * e 1| ≤ K ∨ |2 * e 0 + e 1| ≤ K)
    (h1 : |2 * e (m + 1) + 0 * e m| ≤ K ∨ |2 * e (m + 1) + e m| ≤ K)
    (h : ∀ i, i < m → 0 ≤ s i ∧ s i ≤ 1 ∧ |s i * e i + 2 * e (i + 1) + (1 - s i) * e (i + 2)| ≤ K) :
    ∀ i, i ≤ m + 1 → |e i| ≤ K := by
  obtain ⟨j, hj, hmax⟩ := Finset.exists_max_image (Finset.range (m + 2)) (fun i => |e i|) ⟨0, by simp⟩
  have hmax' : ∀ i, i ≤ m + 1 → |e i| ≤ |e j| := fun i hi => hmax i (by simp; omega)
  have hj' : j ≤ m + 1 := by simp at hj; omega
  suffices hh : |e j| ≤ K from fun i hi => (hmax' i hi).trans hh
  have two : |2 * e j| = 2 * |e j| := by rw [abs_mul]; norm_num
  have both : ∀ a b : ℝ, |2 * a + 0 * b| ≤ K ∨ |2 * a + b| ≤ K → |b| ≤ |a| → |a| ≤ K := by
    intro a b hab hba
    have h2 : |2 * a| = 2 * |a| := by rw [abs_mul]; norm_num
    rcases hab with h | h
    · rw [zero_mul, add_zero, h2] at h; linarith [abs_nonneg a]
    · have : 2 * a = (2 * a + b) - b := by ring
      have := abs_sub (2 * a + b) b
      rw [add_sub_cancel_right, h2] at this
      linarith
  rcases Nat.eq_zero_or_pos j with rfl | hpos
  · exact both _ _ h0 (hmax' 1 (by omega))
  rcases Nat.eq_or_lt_of_le hj' with rfl | hlt
  · exact both _ _ h1 (hmax' m (by omega))
  obtain ⟨i, rfl⟩ : ∃ i, j = i + 1 := ⟨j - 1, by omega⟩
  obtain ⟨s0, s1, hr⟩ := h i (by omega)
  have a1 : |s i * e i| ≤ s i * |e (i + 1)| := by
    rw [abs_mul, abs_of_nonneg s0]; exact mul_le_mul_of_nonneg_left (hmax' i (by omega)) s0
  have a2 : |(1 - s i) * e (i + 2)| ≤ (1 - s i) * |e (i + 1)| := by
    rw [abs_mul, abs_of_nonneg (by linarith)]
    exact mul_le_mul_of_nonneg_left (hmax' (i + 2) (by omega)) (by linarith)
  have e1 : 2 * e (i + 1) = (s i * e i + 2 * e (i + 1) + (1 - s i) * e (i + 2)) - s i * e i - (1 - s i) * e (i + 2) := by
    ring
  have t1 := abs_sub (s i * e i + 2 * e (i + 1) + (1 - s i) * e (i + 2) - s i * e i) ((1 - s i) * e (i + 2))
  have t2 := abs_sub (s i * e i + 2 * e (i + 1) + (1 - s i) * e (i + 2)) (s i * e i)
  rw [← e1, two] at t1
  linarith

end Ecl.SplineFloat
