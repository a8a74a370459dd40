import Verif.Lemmas.DriveFloat

/-! # Rounding errors of `PoseToBaseDifferential` -/
set_option autoImplicit false

namespace Ecl.DriveFloat
open Ecl.Angle Ecl.Pose Ecl.DiffDrive Ecl.PoseFloat Ecl.Spec Ecl.Spec.Odometry

variable {u : ℝ} {fl : ℝ → ℝ}

/-- The determinant of a rotation matrix with small errors. -/
theorem det_err (h : Rel u fl) {c s θ : ℝ} (hc : |c - Real.cos θ| ≤ u) (hs : |s - Real.sin θ| ≤ u) :
    |fl (fl (c * c) - fl (s * -s)) - 1| ≤ 4.9 * u := by
  have hu := h.pos
  have hsm := h.small
  have hC := Real.abs_cos_le_one θ
  have hS := Real.abs_sin_le_one θ
  have hCS := sum_le ⟨Real.cos θ, Real.sin θ⟩
  rw [norm_unit] at hCS
  simp only at hCS
  -- the exact sum of the squares
  have q : |(c * c + s * s) - 1| ≤ 2.84 * u := by
    have e : (c * c + s * s) - 1 = (2 * Real.cos θ * (c - Real.cos θ) + 2 * Real.sin θ * (s - Real.sin θ)) +
        ((c - Real.cos θ) * (c - Real.cos θ) + (s - Real.sin θ) * (s - Real.sin θ)) := by
      have := Real.cos_sq_add_sin_sq θ
      linear_combination this
    rw [e]
    have a1 := abs_add_le (2 * Real.cos θ * (c - Real.cos θ) + 2 * Real.sin θ * (s - Real.sin θ))
      ((c - Real.cos θ) * (c - Real.cos θ) + (s - Real.sin θ) * (s - Real.sin θ))
    have a2 := abs_add_le (2 * Real.cos θ * (c - Real.cos θ)) (2 * Real.sin θ * (s - Real.sin θ))
    have a3 := abs_add_le ((c - Real.cos θ) * (c - Real.cos θ)) ((s - Real.sin θ) * (s - Real.sin θ))
    simp only [abs_mul, abs_two] at a2 a3
    have b1 := mul_le_mul_of_nonneg_left hc (abs_nonneg (Real.cos θ))
    have b2 := mul_le_mul_of_nonneg_left hs (abs_nonneg (Real.sin θ))
    have b3 := mul_le_mul hc hc (abs_nonneg _) hu
    have b4 := mul_le_mul hs hs (abs_nonneg _) hu
    have b5 : u * u ≤ u * (1 / 1024) := mul_le_mul_of_nonneg_left hsm hu
    have b6 := mul_le_mul_of_nonneg_right hCS hu
    linarith
  have h1 := h.err (c * c)
  have h2 := h.err (s * -s)
  have h3 := h.err (fl (c * c) - fl (s * -s))
  have n1 : |c * c| = c * c := abs_mul_self c
  have n2 : |s * -s| = s * s := by rw [mul_neg, abs_neg, abs_mul_self]
  rw [n1] at h1
  rw [n2] at h2
  obtain ⟨q1, q2⟩ := abs_le.1 q
  have hp1 := mul_self_nonneg c
  have hp2 := mul_self_nonneg s
  generalize c * c = A at *
  have e2 : s * -s = -(s * s) := by ring
  rw [e2] at h2 h3 ⊢
  generalize s * s = B at *
  have k1 : |(fl A - fl (-B)) - (A + B)| ≤ (A + B) * u := by
    have := abs_sub (fl A - A) (fl (-B) - -B)
    rw [show fl A - A - (fl (-B) - -B) = fl A - fl (-B) - (A + B) by ring] at this
    linarith
  have k2 : |fl A - fl (-B)| ≤ (A + B) * (1 + u) := by
    have := abs_sub_abs_le_abs_sub (fl A - fl (-B)) (A + B)
    rw [abs_of_nonneg (by linarith : 0 ≤ A + B)] at this
    linarith
  have k3 := abs_add_le (fl (fl A - fl (-B)) - (fl A - fl (-B))) ((fl A - fl (-B)) - (A + B))
  rw [sub_add_sub_cancel] at k3
  have k4 := abs_add_le (fl (fl A - fl (-B)) - (A + B)) ((A + B) - 1)
  rw [sub_add_sub_cancel] at k4
  have k5 : |fl A - fl (-B)| * u ≤ (A + B) * (1 + u) * u := mul_le_mul_of_nonneg_right k2 hu
  have k6 : (A + B) * u ≤ 1.003 * u := mul_le_mul_of_nonneg_right (by linarith) hu
  have k7 : (A + B) * u * u ≤ 1.003 * u * (1 / 1024) := mul_le_mul k6 hsm hu (by positivity)
  linarith

/-- The inverse of the determinant. -/
theorem inv_err (h : Rel u fl) {t : ℝ} (ht : |t - 1| ≤ 4.9 * u) : |fl (1 / t) - 1| ≤ 6 * u := by
  have hu := h.pos
  have hsm := h.small
  obtain ⟨t1, t2⟩ := abs_le.1 ht
  have tp : 0.995 ≤ t := by linarith
  have k1 : |1 / t - 1| ≤ 4.93 * u := by
    rw [show 1 / t - 1 = -((t - 1) / t) by field_simp; ring, abs_neg, abs_div, abs_of_pos (by linarith : 0 < t),
      div_le_iff₀ (by linarith)]
    nlinarith
  have k2 := h.err (1 / t)
  have k3 := abs_sub_abs_le_abs_sub (1 / t) 1
  rw [abs_one] at k3
  have k4 := abs_add_le (fl (1 / t) - 1 / t) (1 / t - 1)
  rw [sub_add_sub_cancel] at k4
  have k5 : |1 / t| * u ≤ (1 + 4.93 * u) * u := mul_le_mul_of_nonneg_right (by linarith) hu
  have k6 : u * u ≤ u * (1 / 1024) := mul_le_mul_of_nonneg_left hsm hu
  linarith

/-- An entry of the inverse. -/
theorem entry_err (h : Rel u fl) {c C i : ℝ} (hC : |C| ≤ 1) (hc : |c - C| ≤ u) (hi : |i - 1| ≤ 6 * u) :
    |fl (c * i) - C| ≤ 8.1 * u := by
  have hu := h.pos
  have hsm := h.small
  have c1 := abs_sub_abs_le_abs_sub c C
  have k1 : |c * i - C| ≤ 7.01 * u := by
    have := abs_add_le (c * (i - 1)) (c - C)
    rw [show c * (i - 1) + (c - C) = c * i - C by ring, abs_mul] at this
    have b := mul_le_mul (by linarith : |c| ≤ 1 + u) hi (abs_nonneg _) (by linarith)
    have b2 : u * u ≤ u * (1 / 1024) := mul_le_mul_of_nonneg_left hsm hu
    linarith
  have k2 := h.err (c * i)
  have k3 := abs_sub_abs_le_abs_sub (c * i) C
  have k4 := abs_add_le (fl (c * i) - c * i) (c * i - C)
  rw [sub_add_sub_cancel] at k4
  have k5 : |c * i| * u ≤ (1 + 7.01 * u) * u := mul_le_mul_of_nonneg_right (by linarith) hu
  have k6 : u * u ≤ u * (1 / 1024) := mul_le_mul_of_nonneg_left hsm hu
  linarith

/-- A coordinate of the turned difference. -/
theorem coord_err (h : Rel u fl) {a b A B x y : ℝ} (hA : |A| ≤ 1) (hB : |B| ≤ 1) (ha : |a - A| ≤ 8.1 * u)
    (hb : |b - B| ≤ 8.1 * u) :
    |dotF fl a (fl x) b (fl y) - (A * x + B * y)| ≤ 11.2 * u * (|x| + |y|) := by
  have hu := h.pos
  have hsm := h.small
  have h1 := h.dot a (fl x) b (fl y)
  rw [abs_mul, abs_mul] at h1
  have hx := h.err x
  have hy := h.err y
  have hx' := h.abs x
  have hy' := h.abs y
  have a1 := abs_sub_abs_le_abs_sub a A
  have b1 := abs_sub_abs_le_abs_sub b B
  have e : a * fl x + b * fl y - (A * x + B * y) =
      ((a - A) * fl x + (b - B) * fl y) + (A * (fl x - x) + B * (fl y - y)) := by ring
  have k1 : |a * fl x + b * fl y - (A * x + B * y)| ≤
      (8.1 * u * |fl x| + 8.1 * u * |fl y|) + (|x| * u + |y| * u) := by
    rw [e]
    have c1 := abs_add_le ((a - A) * fl x + (b - B) * fl y) (A * (fl x - x) + B * (fl y - y))
    have c2 := abs_add_le ((a - A) * fl x) ((b - B) * fl y)
    have c3 := abs_add_le (A * (fl x - x)) (B * (fl y - y))
    simp only [abs_mul] at c2 c3
    have d1 := mul_le_mul_of_nonneg_right ha (abs_nonneg (fl x))
    have d2 := mul_le_mul_of_nonneg_right hb (abs_nonneg (fl y))
    have d3 := mul_le_mul hA hx (abs_nonneg _) (by norm_num)
    have d4 := mul_le_mul hB hy (abs_nonneg _) (by norm_num)
    linarith
  have k2 := abs_add_le (dotF fl a (fl x) b (fl y) - (a * fl x + b * fl y))
    (a * fl x + b * fl y - (A * x + B * y))
  rw [sub_add_sub_cancel] at k2
  have m1 : |a| * |fl x| ≤ 1.008 * |fl x| := mul_le_mul_of_nonneg_right (by linarith) (abs_nonneg _)
  have m2 : |b| * |fl y| ≤ 1.008 * |fl y| := mul_le_mul_of_nonneg_right (by linarith) (abs_nonneg _)
  have x0 := abs_nonneg x
  have y0 := abs_nonneg y
  have m3 : |fl x| ≤ |x| * (1025 / 1024) := hx'.trans (mul_le_mul_of_nonneg_left (by linarith) x0)
  have m4 : |fl y| ≤ |y| * (1025 / 1024) := hy'.trans (mul_le_mul_of_nonneg_left (by linarith) y0)
  generalize |fl x| = X at *
  generalize |fl y| = Y at *
  generalize |x| = x' at *
  generalize |y| = y' at *
  have n1 := mul_le_mul_of_nonneg_left (add_le_add m1 m2) hu
  have n2 := mul_le_mul_of_nonneg_left (add_le_add m3 m4) hu
  have n3 : 0 ≤ u * (x' + y') := by positivity
  nlinarith

/-- The length of a vector. -/
theorem length_err (h : Rel u fl) (x y : ℝ) :
    |fl (Real.sqrt (dotF fl x x y y)) - ‖(⟨x, y⟩ : ℂ)‖| ≤ 3.01 * u * ‖(⟨x, y⟩ : ℂ)‖ := by
  have hu := h.pos
  have hsm := h.small
  have h1 := h.dot x x y y
  rw [abs_mul_self, abs_mul_self] at h1
  have hN : ‖(⟨x, y⟩ : ℂ)‖ ^ 2 = x * x + y * y := by rw [sq_norm]; ring
  rw [← hN] at h1
  have hN0 := norm_nonneg (⟨x, y⟩ : ℂ)
  generalize ‖(⟨x, y⟩ : ℂ)‖ = N at *
  generalize dotF fl x x y y = q at *
  obtain ⟨h2, h3⟩ := abs_le.1 h1
  have hq : 0 ≤ q := by nlinarith [sq_nonneg N]
  have r0 := Real.sqrt_nonneg q
  have r1 := Real.sq_sqrt hq
  generalize Real.sqrt q = r at *
  rw [← r1] at h2 h3
  have k1 : |r - N| ≤ 2.001 * u * N := by
    rw [abs_le]
    constructor
    · by_contra hc
      push Not at hc
      have : r ^ 2 < (N * (1 - 2.001 * u)) ^ 2 := by
        apply pow_lt_pow_left₀ (by linarith) r0 (by norm_num)
      have : (N * (1 - 2.001 * u)) ^ 2 ≤ N ^ 2 * (1 - 2.001 * u) := by
        rw [mul_pow]
        apply mul_le_mul_of_nonneg_left _ (sq_nonneg N)
        nlinarith
      linarith
    · by_contra hc
      push Not at hc
      have : (N * (1 + 2.001 * u)) ^ 2 < r ^ 2 := by
        apply pow_lt_pow_left₀ (by linarith) (by positivity) (by norm_num)
      have : N ^ 2 * (1 + 2.001 * u) ≤ (N * (1 + 2.001 * u)) ^ 2 := by
        rw [mul_pow]
        apply mul_le_mul_of_nonneg_left _ (sq_nonneg N)
        nlinarith
      linarith
  have k2 := h.err r
  rw [abs_of_nonneg r0] at k2
  have k3 := abs_add_le (fl r - r) (r - N)
  rw [sub_add_sub_cancel] at k3
  have k4 : r ≤ N + 2.001 * u * N := by linarith [(abs_le.1 k1).2]
  have k5 := mul_le_mul_of_nonneg_right k4 hu
  have k6 : u * N * u ≤ u * N * (1 / 1024) := mul_le_mul_of_nonneg_left hsm (by positivity)
  have k7 : 0 ≤ u * N := by positivity
  nlinarith

/-- Distance and sign of `PoseToBaseDifferential` for a heading that needs no wrapping. -/
theorem base_err (h : Rel u fl) {cosF sinF : ℝ → ℝ}
    (ht : ∀ a, |cosF a - Real.cos a| ≤ u ∧ |sinF a - Real.sin a| ≤ u) (a b : XYH)
    (hw : Ecl.AngleFloat.wrapD fl a.h = a.h) (hpos : ∀ x, 0 ≤ x → 0 ≤ fl x) :
    let D := ‖(⟨b.x - a.x, b.y - a.y⟩ : ℂ)‖
    let F := Real.cos a.h * (b.x - a.x) + Real.sin a.h * (b.y - a.y)
    abs (|(poseToBaseF fl cosF sinF a b).1| - D) ≤ 27 * u * D ∧
    (16 * u * D < F → 0 ≤ (poseToBaseF fl cosF sinF a b).1) ∧
    (F < -(16 * u * D) → (poseToBaseF fl cosF sinF a b).1 ≤ 0) := by
  intro D F
  obtain ⟨hc, hs⟩ := ht a.h
  have hu := h.pos
  have hsm := h.small
  have hC := Real.abs_cos_le_one a.h
  have hS := Real.abs_sin_le_one a.h
  have hdet := inv_err h (det_err h hc hs)
  have e00 := entry_err h hC hc hdet
  have e01 := entry_err h hS hs hdet
  have hs' : |-sinF a.h - -Real.sin a.h| ≤ u := by
    rw [show -sinF a.h - -Real.sin a.h = -(sinF a.h - Real.sin a.h) by ring, abs_neg]; exact hs
  have hS' : |-Real.sin a.h| ≤ 1 := by rwa [abs_neg]
  have e10 := entry_err h hS' hs' hdet
  have c0 := coord_err (x := b.x - a.x) (y := b.y - a.y) h hC hS e00 e01
  have c1 := coord_err (x := b.x - a.x) (y := b.y - a.y) h hS' hC e10 e00
  have es : |b.x - a.x| + |b.y - a.y| ≤ 1.4143 * D := sum_le ⟨b.x - a.x, b.y - a.y⟩
  have hD : 0 ≤ D := norm_nonneg _
  have hm := mul_le_mul_of_nonneg_left es hu
  have huD : 0 ≤ u * D := by positivity
  have c0' := c0.trans (by nlinarith : _ ≤ 15.85 * u * D)
  have c1' := c1.trans (by nlinarith : _ ≤ 15.85 * u * D)
  have ep : (poseToBaseF fl cosF sinF a b).1 =
      if dotF fl (fl (cosF a.h * fl (1 / fl (fl (cosF a.h * cosF a.h) - fl (sinF a.h * -sinF a.h)))))
        (fl (b.x - a.x)) (fl (sinF a.h * fl (1 / fl (fl (cosF a.h * cosF a.h) - fl (sinF a.h * -sinF a.h)))))
        (fl (b.y - a.y)) < 0 then
      -fl (Real.sqrt (dotF fl
        (dotF fl (fl (cosF a.h * fl (1 / fl (fl (cosF a.h * cosF a.h) - fl (sinF a.h * -sinF a.h)))))
        (fl (b.x - a.x)) (fl (sinF a.h * fl (1 / fl (fl (cosF a.h * cosF a.h) - fl (sinF a.h * -sinF a.h)))))
        (fl (b.y - a.y)))
        (dotF fl (fl (cosF a.h * fl (1 / fl (fl (cosF a.h * cosF a.h) - fl (sinF a.h * -sinF a.h)))))
        (fl (b.x - a.x)) (fl (sinF a.h * fl (1 / fl (fl (cosF a.h * cosF a.h) - fl (sinF a.h * -sinF a.h)))))
        (fl (b.y - a.y)))
        (dotF fl (fl (-sinF a.h * fl (1 / fl (fl (cosF a.h * cosF a.h) - fl (sinF a.h * -sinF a.h)))))
        (fl (b.x - a.x)) (fl (cosF a.h * fl (1 / fl (fl (cosF a.h * cosF a.h) - fl (sinF a.h * -sinF a.h)))))
        (fl (b.y - a.y)))
        (dotF fl (fl (-sinF a.h * fl (1 / fl (fl (cosF a.h * cosF a.h) - fl (sinF a.h * -sinF a.h)))))
        (fl (b.x - a.x)) (fl (cosF a.h * fl (1 / fl (fl (cosF a.h * cosF a.h) - fl (sinF a.h * -sinF a.h)))))
        (fl (b.y - a.y)))))
      else fl (Real.sqrt (dotF fl
        (dotF fl (fl (cosF a.h * fl (1 / fl (fl (cosF a.h * cosF a.h) - fl (sinF a.h * -sinF a.h)))))
        (fl (b.x - a.x)) (fl (sinF a.h * fl (1 / fl (fl (cosF a.h * cosF a.h) - fl (sinF a.h * -sinF a.h)))))
        (fl (b.y - a.y)))
        (dotF fl (fl (cosF a.h * fl (1 / fl (fl (cosF a.h * cosF a.h) - fl (sinF a.h * -sinF a.h)))))
        (fl (b.x - a.x)) (fl (sinF a.h * fl (1 / fl (fl (cosF a.h * cosF a.h) - fl (sinF a.h * -sinF a.h)))))
        (fl (b.y - a.y)))
        (dotF fl (fl (-sinF a.h * fl (1 / fl (fl (cosF a.h * cosF a.h) - fl (sinF a.h * -sinF a.h)))))
        (fl (b.x - a.x)) (fl (cosF a.h * fl (1 / fl (fl (cosF a.h * cosF a.h) - fl (sinF a.h * -sinF a.h)))))
        (fl (b.y - a.y)))
        (dotF fl (fl (-sinF a.h * fl (1 / fl (fl (cosF a.h * cosF a.h) - fl (sinF a.h * -sinF a.h)))))
        (fl (b.x - a.x)) (fl (cosF a.h * fl (1 / fl (fl (cosF a.h * cosF a.h) - fl (sinF a.h * -sinF a.h)))))
        (fl (b.y - a.y))))) := by
    simp only [poseToBaseF, inverse2F, rotationF, hw, neg_neg]
  rw [ep]
  generalize dotF fl (fl (cosF a.h * fl (1 / fl (fl (cosF a.h * cosF a.h) - fl (sinF a.h * -sinF a.h)))))
        (fl (b.x - a.x)) (fl (sinF a.h * fl (1 / fl (fl (cosF a.h * cosF a.h) - fl (sinF a.h * -sinF a.h)))))
        (fl (b.y - a.y)) = x at *
  generalize dotF fl (fl (-sinF a.h * fl (1 / fl (fl (cosF a.h * cosF a.h) - fl (sinF a.h * -sinF a.h)))))
        (fl (b.x - a.x)) (fl (cosF a.h * fl (1 / fl (fl (cosF a.h * cosF a.h) - fl (sinF a.h * -sinF a.h)))))
        (fl (b.y - a.y)) = y at *
  clear ep e00 e01 e10 c0 c1
  have hl := length_err h x y
  have hl0 : 0 ≤ fl (Real.sqrt (dotF fl x x y y)) := hpos _ (Real.sqrt_nonneg _)
  have hlen : ‖(⟨F, -Real.sin a.h * (b.x - a.x) + Real.cos a.h * (b.y - a.y)⟩ : ℂ)‖ = D := by
    have e : ‖(⟨F, -Real.sin a.h * (b.x - a.x) + Real.cos a.h * (b.y - a.y)⟩ : ℂ)‖ ^ 2 = D ^ 2 := by
      rw [sq_norm, sq_norm]
      have := Real.cos_sq_add_sin_sq a.h
      simp only [F]
      linear_combination ((b.x - a.x) ^ 2 + (b.y - a.y) ^ 2) * this
    exact (pow_left_inj₀ (norm_nonneg _) hD (by norm_num)).1 e
  have hv : ‖(⟨x, y⟩ : ℂ) - ⟨F, -Real.sin a.h * (b.x - a.x) + Real.cos a.h * (b.y - a.y)⟩‖ ≤
      1.4143 * (15.85 * u * D) := norm_le_of c0' c1'
  have hv1 := abs_norm_sub_norm_le (⟨x, y⟩ : ℂ)
    ⟨F, -Real.sin a.h * (b.x - a.x) + Real.cos a.h * (b.y - a.y)⟩
  rw [hlen] at hv1
  generalize ‖(⟨x, y⟩ : ℂ)‖ = N at *
  generalize fl (Real.sqrt (dotF fl x x y y)) = L at *
  have hN : N ≤ D + 22.5 * u * D := by linarith [(abs_le.1 (hv1.trans hv)).2]
  have hL : |L - D| ≤ 27 * u * D := by
    have := abs_add_le (L - N) (N - D)
    rw [sub_add_sub_cancel] at this
    have k1 := mul_le_mul_of_nonneg_left hN hu
    have k2 : u * D * u ≤ u * D * (1 / 1024) := mul_le_mul_of_nonneg_left hsm huD
    have k3 := hv1.trans hv
    nlinarith
  have hF : |x - F| ≤ 15.85 * u * D := c0'
  obtain ⟨f1, f2⟩ := abs_le.1 hF
  refine ⟨?_, fun hf => ?_, fun hf => ?_⟩
  · split
    · rw [abs_neg, abs_of_nonneg hl0]; exact hL
    · rw [abs_of_nonneg hl0]; exact hL
  · rw [if_neg (by nlinarith)]; exact hl0
  · rw [if_pos (by nlinarith)]; linarith

end Ecl.DriveFloat
