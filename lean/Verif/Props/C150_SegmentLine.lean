import Verif.Model.SegmentLine
import Verif.Lemmas.PolynomialFloat
import Verif.Lemmas.Double

/-! # C150: the line of a segment in floating point arithmetic -/
set_option autoImplicit false

namespace Ecl.Props
open Ecl Ecl.SegmentFloat Ecl.Spec
open Ecl.PolyFloat (round_to round_factor isFloat_int)

namespace C150

/-- The equation at both ends. -/
theorem ends {fl : ℝ → ℝ} (hfl : Rounds 53 fl) {x1 y1 x2 y2 M : ℝ} (hx : x1 ≠ x2) (h1 : |x1| ≤ M) (h2 : |y1| ≤ M)
    (h4 : |y2| ≤ M) :
    let l := line fl x1 y1 x2 y2
    l.b = 1 ∧ |l.a * x1 + l.b * y1 + l.c| ≤ 12 / 2 ^ 53 * M * Real.sqrt (l.a ^ 2 + 1) ∧
      |l.a * x2 + l.b * y2 + l.c| ≤ 12 / 2 ^ 53 * M * Real.sqrt (l.a ^ 2 + 1) := by
  intro l
  have hl : l = ⟨fl (-1 * fl (y2 - y1) / fl (x2 - x1)), 1,
      fl (-y1 - fl (x1 * fl (-1 * fl (y2 - y1) / fl (x2 - x1))))⟩ := by
    show line fl x1 y1 x2 y2 = _
    unfold line
    rw [if_neg (Ne.symm hx)]
  rw [hl]
  clear hl l
  obtain ⟨e1, b1, f1⟩ := round_factor hfl (by norm_num) (y2 - y1)
  obtain ⟨e2, b2, f2⟩ := round_factor hfl (by norm_num) (x2 - x1)
  obtain ⟨e3, b3, f3⟩ := round_factor hfl (by norm_num) (-1 * fl (y2 - y1) / fl (x2 - x1))
  have hA : fl (-1 * fl (y2 - y1) / fl (x2 - x1)) * ((x2 - x1) * (1 + e2)) = -(y2 - y1) * (1 + e1) * (1 + e3) := by
    have hu : (1 : ℝ) / 2 ^ 53 ≤ 1 / 1000 := by norm_num
    have := abs_le.1 b2
    have h0 : 1 + e2 ≠ 0 := by
      have : 0 < 1 + e2 := by linarith
      exact this.ne'
    have h5 : x2 - x1 ≠ 0 := sub_ne_zero.2 (Ne.symm hx)
    rw [f3, f1, f2]
    field_simp
  generalize fl (-1 * fl (y2 - y1) / fl (x2 - x1)) = A at *
  obtain ⟨e4, b4, f4⟩ := round_factor hfl (by norm_num) (x1 * A)
  obtain ⟨e5, b5, f5⟩ := round_factor hfl (by norm_num) (-y1 - fl (x1 * A))
  rw [f4] at f5
  rw [f4, f5]
  clear f1 f2 f3 f4 f5
  have hn1 : 1 ≤ Real.sqrt (A ^ 2 + 1) := by
    rw [Real.le_sqrt (by norm_num) (by positivity)]
    have := sq_nonneg A
    linarith
  have hnA : |A| ≤ Real.sqrt (A ^ 2 + 1) := Real.abs_le_sqrt (by linarith)
  rw [show (12 : ℝ) / 2 ^ 53 = 12 * (1 / 2 ^ 53) by ring]
  have hu0 : (0 : ℝ) < 1 / 2 ^ 53 := by positivity
  have hu : (1 : ℝ) / 2 ^ 53 ≤ 1 / 1000 := by norm_num
  generalize (1 : ℝ) / 2 ^ 53 = u at *
  generalize Real.sqrt (A ^ 2 + 1) = n at *
  have hM : 0 ≤ M := (abs_nonneg _).trans h1
  have hMn : 0 ≤ M * n := by positivity
  have hMM : M ≤ M * n := le_mul_of_one_le_right hM hn1
  have hxA : |x1 * A| ≤ M * n := by
    rw [abs_mul]
    exact mul_le_mul h1 hnA (abs_nonneg _) hM
  have q1 : |A * x1 + 1 * y1 + (-y1 - x1 * A * (1 + e4)) * (1 + e5)| ≤ 4 * (u * (M * n)) := by
    have e : A * x1 + 1 * y1 + (-y1 - x1 * A * (1 + e4)) * (1 + e5) =
        -(e4 * (x1 * A)) - e5 * (y1 + x1 * A + e4 * (x1 * A)) := by ring
    have t4 : |e4 * (x1 * A)| ≤ u * (M * n) := by
      rw [abs_mul]
      exact mul_le_mul b4 hxA (abs_nonneg _) hu0.le
    have t5 : |y1 + x1 * A + e4 * (x1 * A)| ≤ 3 * (M * n) := by
      have s1 := abs_add_le (y1 + x1 * A) (e4 * (x1 * A))
      have s2 := abs_add_le y1 (x1 * A)
      have s3 : u * (M * n) ≤ 1 * (M * n) := mul_le_mul_of_nonneg_right (by linarith) hMn
      linarith
    have t6 := mul_le_mul b5 t5 (abs_nonneg _) hu0.le
    rw [← abs_mul] at t6
    rw [e]
    have s := abs_sub (-(e4 * (x1 * A))) (e5 * (y1 + x1 * A + e4 * (x1 * A)))
    rw [abs_neg] at s
    linarith
  refine ⟨rfl, ?_, ?_⟩
  · refine q1.trans ?_
    have := mul_nonneg hu0.le hMn
    linarith
  · have g : |A * (x2 - x1) + (y2 - y1)| ≤ 8 * (u * (M * n)) := by
      have c1 := abs_le.1 b1
      have c2 := abs_le.1 b2
      have c3 := abs_le.1 b3
      have hp : 0 < 1 + e2 := by linarith
      have e : A * (x2 - x1) + (y2 - y1) = (y2 - y1) * ((e2 - e1 - e3 - e1 * e3) / (1 + e2)) := by
        field_simp
        linear_combination hA
      have hf : |(e2 - e1 - e3 - e1 * e3) / (1 + e2)| ≤ 4 * u := by
        rw [abs_div, abs_of_pos hp, div_le_iff₀ hp]
        have s1 := abs_sub (e2 - e1 - e3) (e1 * e3)
        have s2 := abs_sub (e2 - e1) e3
        have s3 := abs_sub e2 e1
        have s4 : |e1 * e3| ≤ u * (1 / 1000) := by
          rw [abs_mul]
          exact mul_le_mul b1 (b3.trans hu) (abs_nonneg _) hu0.le
        have s5 : 4 * u * (1 - 1 / 1000) ≤ 4 * u * (1 + e2) := mul_le_mul_of_nonneg_left (by linarith) (by linarith)
        linarith
      rw [e, abs_mul]
      have hd : |y2 - y1| ≤ 2 * (M * n) := by
        have := abs_sub y2 y1
        linarith
      have := mul_le_mul hd hf (abs_nonneg _) (by positivity)
      linarith
    have e : A * x2 + 1 * y2 + (-y1 - x1 * A * (1 + e4)) * (1 + e5) = (A * (x2 - x1) + (y2 - y1)) +
        (A * x1 + 1 * y1 + (-y1 - x1 * A * (1 + e4)) * (1 + e5)) := by ring
    rw [e]
    have := abs_add_le (A * (x2 - x1) + (y2 - y1)) (A * x1 + 1 * y1 + (-y1 - x1 * A * (1 + e4)) * (1 + e5))
    linarith

end C150

/-- **C150.** Every point of a segment that is not vertical is within `12 M / 2^53` of the line of its coefficients, if
the coordinates of its ends are at most `M`: however short or steep it is.

Missing from the full statement: vertical segments, see `C150_fails_vertical`. -/
theorem C150_near_partial {fl : ℝ → ℝ} (hfl : Rounds 53 fl) {x1 y1 x2 y2 M t : ℝ} (hx : x1 ≠ x2) (h1 : |x1| ≤ M)
    (h2 : |y1| ≤ M) (h4 : |y2| ≤ M) (ht0 : 0 ≤ t) (ht1 : t ≤ 1) :
    let l := line fl x1 y1 x2 y2
    ∃ px py : ℝ, l.a * px + l.b * py + l.c = 0 ∧
      Real.sqrt ((px - (x1 + t * (x2 - x1))) ^ 2 + (py - (y1 + t * (y2 - y1))) ^ 2) ≤ 12 / 2 ^ 53 * M := by
  intro l
  obtain ⟨hb, r1, r2⟩ := C150.ends hfl hx h1 h2 h4
  change l.b = 1 at hb
  change |l.a * x1 + l.b * y1 + l.c| ≤ 12 / 2 ^ 53 * M * Real.sqrt (l.a ^ 2 + 1) at r1
  change |l.a * x2 + l.b * y2 + l.c| ≤ 12 / 2 ^ 53 * M * Real.sqrt (l.a ^ 2 + 1) at r2
  rw [hb] at r1 r2 ⊢
  generalize l.a = A at *
  generalize l.c = C at *
  have hn : 0 < A ^ 2 + 1 := by positivity
  obtain ⟨x, hxt⟩ : ∃ x, x = x1 + t * (x2 - x1) := ⟨_, rfl⟩
  obtain ⟨y, hyt⟩ : ∃ y, y = y1 + t * (y2 - y1) := ⟨_, rfl⟩
  rw [← hxt, ← hyt]
  have hr : |A * x + 1 * y + C| ≤ 12 / 2 ^ 53 * M * Real.sqrt (A ^ 2 + 1) := by
    have e : A * x + 1 * y + C = (1 - t) * (A * x1 + 1 * y1 + C) + t * (A * x2 + 1 * y2 + C) := by
      rw [hxt, hyt]; ring
    rw [e]
    refine (abs_add_le _ _).trans ?_
    rw [abs_mul, abs_mul, abs_of_nonneg ht0, abs_of_nonneg (show 0 ≤ 1 - t by linarith)]
    have s1 := mul_le_mul_of_nonneg_left r1 (show 0 ≤ 1 - t by linarith)
    have s2 := mul_le_mul_of_nonneg_left r2 ht0
    linarith
  have hM : 0 ≤ 12 / 2 ^ 53 * M := mul_nonneg (by positivity) ((abs_nonneg _).trans h1)
  refine ⟨x - A * (A * x + 1 * y + C) / (A ^ 2 + 1), y - (A * x + 1 * y + C) / (A ^ 2 + 1), ?_, ?_⟩
  · field_simp
    ring
  · rw [Real.sqrt_le_left hM]
    have e : (x - A * (A * x + 1 * y + C) / (A ^ 2 + 1) - x) ^ 2 + (y - (A * x + 1 * y + C) / (A ^ 2 + 1) - y) ^ 2 =
        (A * x + 1 * y + C) ^ 2 / (A ^ 2 + 1) := by
      field_simp
      ring
    rw [e, div_le_iff₀ hn]
    have := pow_le_pow_left₀ (abs_nonneg _) hr 2
    rwa [sq_abs, mul_pow, Real.sq_sqrt hn.le] at this

/-- **C150 fails.** The line of a vertical segment keeps away from it by twice its distance to the axis: it is the mirror
image, as without rounding. -/
theorem C150_fails_vertical (fl : ℝ → ℝ) (x1 y1 y2 px py : ℝ)
    (h : (line fl x1 y1 x1 y2).a * px + (line fl x1 y1 x1 y2).b * py + (line fl x1 y1 x1 y2).c = 0) (y : ℝ) :
    2 * |x1| ≤ Real.sqrt ((px - x1) ^ 2 + (py - y) ^ 2) := by
  unfold line at h
  rw [if_pos rfl] at h
  have hp : px = -x1 := by
    simp only at h
    linarith
  rw [hp]
  refine Real.le_sqrt_of_sq_le ?_
  rw [mul_pow, sq_abs]
  have := sq_nonneg (py - y)
  nlinarith

/-- **C150 fails.** The equation is not exact: that of the segment from (0, 0) to (3, 1) does not hold at (3, 1). -/
theorem C150_fails_exact {fl : ℝ → ℝ} (hfl : Rounds 53 fl) :
    (line fl 0 0 3 1).a * 3 + (line fl 0 0 3 1).b * 1 + (line fl 0 0 3 1).c ≠ 0 := by
  unfold line
  rw [if_neg (by norm_num)]
  have i1 : fl (1 - 0) = 1 := by
    have := hfl.self (isFloat_int (p := 53) (by norm_num) (z := 1) (by norm_num))
    norm_num at this ⊢
    exact this
  have i3 : fl (3 - 0) = 3 := by
    have := hfl.self (isFloat_int (p := 53) (by norm_num) (z := 3) (by norm_num))
    norm_num at this ⊢
    exact this
  have i0 : fl 0 = 0 := hfl.self (isFloat_zero 53)
  have ha : fl (-1 * 1 / 3) = -(6004799503160661 / 2 ^ 54) := by
    have := round_to hfl.flip (by norm_num) (x := 1 / 3) 6004799503160661 (-54) (by norm_num) (by norm_num)
      (by norm_num [abs_lt])
    norm_num at this ⊢
    linarith
  rw [sub_zero] at i1 i3
  simp only [sub_zero, i1, i3, ha, zero_mul, i0, neg_zero]
  norm_num

/-! ## Examples -/

/-- Some rounding exists. -/
example : ∃ fl : ℝ → ℝ, Rounds 53 fl := ⟨_, rounds_double.2 round53_nearest⟩

/-- A short and steep segment far from the origin. -/
example {fl : ℝ → ℝ} (hfl : Rounds 53 fl) : ∃ px py : ℝ,
    (line fl 1000 0 (1000 + 1 / 2 ^ 30) 1000).a * px + (line fl 1000 0 (1000 + 1 / 2 ^ 30) 1000).b * py +
      (line fl 1000 0 (1000 + 1 / 2 ^ 30) 1000).c = 0 ∧
    Real.sqrt ((px - (1000 + 1 / 2 * (1000 + 1 / 2 ^ 30 - 1000))) ^ 2 + (py - (0 + 1 / 2 * (1000 - 0))) ^ 2) ≤
      12 / 2 ^ 53 * 1000 :=
  C150_near_partial hfl (by norm_num) (by norm_num) (by norm_num) (by norm_num) (by norm_num) (by norm_num)

/-- The line of the segment from (1, 0) to (1, 1) is `x = -1`. -/
example (fl : ℝ → ℝ) : (line fl 1 0 1 1).a * -1 + (line fl 1 0 1 1).b * 5 + (line fl 1 0 1 1).c = 0 := by
  unfold line
  rw [if_pos rfl]
  norm_num

end Ecl.Props
