import Verif.Lemmas.PoseFloat
import Verif.Lemmas.Rounding
import Verif.Model.DriveFloat

/-! # Rounding errors of the differential drive -/
set_option autoImplicit false

namespace Ecl.DriveFloat
open Ecl.Angle Ecl.Pose Ecl.DiffDrive Ecl.PoseFloat Ecl.Spec Ecl.Spec.Odometry
open Ecl.AngleFloat.Spec (Near)

variable {u : ℝ} {fl : ℝ → ℝ}

/-- One more rounding. -/
theorem up (h : Rel u fl) {k x x' : ℝ} (hk0 : 0 ≤ k) (hk : |x' - x| ≤ k * u * |x|) :
    |fl x' - x| ≤ (1.001 * k + 1) * u * |x| := by
  have hu := h.pos
  have hs := h.small
  have h1 := h.err x'
  have h2 := abs_sub_abs_le_abs_sub x' x
  have h3 := abs_add_le (fl x' - x') (x' - x)
  rw [sub_add_sub_cancel] at h3
  have hx := abs_nonneg x
  have h4 : |x'| * u ≤ (|x| + k * u * |x|) * u := mul_le_mul_of_nonneg_right (by linarith) hu
  have h5 : k * u * |x| * u ≤ k * u * |x| * (1 / 1024) := mul_le_mul_of_nonneg_left hs (by positivity)
  have h6 : 0 ≤ k * u * |x| := by positivity
  nlinarith

theorem scaled {k x x' : ℝ} (c : ℝ) (hk : |x' - x| ≤ k * u * |x|) : |c * x' - c * x| ≤ k * u * |c * x| := by
  rw [← mul_sub, abs_mul, abs_mul]
  have := mul_le_mul_of_nonneg_left hk (abs_nonneg c)
  linarith

theorem exact0 (h : Rel u fl) (x : ℝ) : |fl x - x| ≤ 1 * u * |x| := by
  have := h.err x
  linarith

/-- The path of `poseUpdateFromWheelDifferential`. -/
theorem forward_err (h : Rel u fl) (R l r : ℝ) :
    |fl (fl (R * fl (l + r)) / 2) - R * (l + r) / 2| ≤ 3.1 * u * |R * (l + r) / 2| := by
  have h1 := up h (by norm_num) (scaled R (exact0 h (l + r)))
  have h2 := up h (by norm_num) (scaled (1 / 2) h1)
  rw [show 1 / 2 * fl (R * fl (l + r)) = fl (R * fl (l + r)) / 2 by ring,
    show 1 / 2 * (R * (l + r)) = R * (l + r) / 2 by ring] at h2
  refine h2.trans ?_
  have := mul_nonneg h.pos (abs_nonneg (R * (l + r) / 2))
  nlinarith

/-- The angle of `poseUpdateFromWheelDifferential`. -/
theorem turn_err (h : Rel u fl) (d : Drive) (l r : ℝ) :
    |turnF fl d l r - d.radius * (r - l) / d.bias| ≤ 3.1 * u * |d.radius * (r - l) / d.bias| := by
  unfold turnF
  have h1 := up h (by norm_num) (scaled d.radius (exact0 h (r - l)))
  have h2 := up h (by norm_num) (scaled (1 / d.bias) h1)
  rw [show 1 / d.bias * fl (d.radius * fl (r - l)) = fl (d.radius * fl (r - l)) / d.bias by ring,
    show 1 / d.bias * (d.radius * (r - l)) = d.radius * (r - l) / d.bias by ring] at h2
  refine h2.trans ?_
  have := mul_nonneg h.pos (abs_nonneg (d.radius * (r - l) / d.bias))
  nlinarith

/-- The right wheel of `baseToWheelVelocities`, up to the last division. -/
theorem sum_err (h : Rel u fl) (v w b : ℝ) :
    |fl (fl (2 * v) + fl (w * b)) - (2 * v + w * b)| ≤ 2.01 * u * (|2 * v| + |w * b|) := by
  have hu := h.pos
  have hs := h.small
  have h1 := h.err (2 * v)
  have h2 := h.err (w * b)
  have h3 := h.err (fl (2 * v) + fl (w * b))
  have h4 := h.abs (2 * v)
  have h5 := h.abs (w * b)
  have h6 := abs_add_le (fl (2 * v)) (fl (w * b))
  have e : fl (fl (2 * v) + fl (w * b)) - (2 * v + w * b) = (fl (fl (2 * v) + fl (w * b)) -
      (fl (2 * v) + fl (w * b))) + ((fl (2 * v) - 2 * v) + (fl (w * b) - w * b)) := by ring
  rw [e]
  have h7 := abs_add_le (fl (fl (2 * v) + fl (w * b)) - (fl (2 * v) + fl (w * b)))
    ((fl (2 * v) - 2 * v) + (fl (w * b) - w * b))
  have h8 := abs_add_le (fl (2 * v) - 2 * v) (fl (w * b) - w * b)
  have hv := abs_nonneg (2 * v)
  have hw := abs_nonneg (w * b)
  generalize |2 * v| = V at *
  generalize |w * b| = W at *
  have k1 : |fl (2 * v) + fl (w * b)| ≤ (V + W) * (1 + u) := by linarith
  have k2 : |fl (2 * v) + fl (w * b)| * u ≤ (V + W) * (1 + u) * u := mul_le_mul_of_nonneg_right k1 hu
  have k3 : (V + W) * u * u ≤ (V + W) * u * (1 / 1024) := mul_le_mul_of_nonneg_left hs (by positivity)
  have k4 : 0 ≤ (V + W) * u := by positivity
  nlinarith

/-- A quotient of approximate numbers; `s` is a size the dividend does not exceed. -/
theorem div_err (h : Rel u fl) {k s x x' y y' : ℝ} (hy : y ≠ 0) (hk0 : 0 ≤ k) (hk3 : k ≤ 8)
    (hx : |x' - x| ≤ k * u * s) (hxs : |x| ≤ s) (hy' : |y' - y| ≤ u * |y|) :
    |fl (x' / y') - x / y| ≤ (1.01 * k + 2.03) * u * (s / |y|) := by
  have hu := h.pos
  have hs := h.small
  have hs0 : 0 ≤ s := (abs_nonneg x).trans hxs
  have hyp : 0 < |y| := abs_pos.2 hy
  have k1 : |y| * (1 - u) ≤ |y'| := by
    have := abs_sub_abs_le_abs_sub y y'
    rw [abs_sub_comm] at hy'
    nlinarith
  have k0 : (1023 / 1024) * |y| ≤ |y'| := by nlinarith
  have hy'p : 0 < |y'| := by linarith
  have hy'0 : y' ≠ 0 := abs_pos.1 hy'p
  -- the exact quotient
  have e : x' / y' - x / y = ((x' - x) * y - x * (y' - y)) / (y' * y) := by
    field_simp
    ring
  have q : |x' / y' - x / y| ≤ (k + 1) * 1.001 * u * (s / |y|) := by
    rw [e, abs_div, abs_mul]
    have n : |(x' - x) * y - x * (y' - y)| ≤ (k + 1) * u * s * |y| := by
      have := abs_sub ((x' - x) * y) (x * (y' - y))
      rw [abs_mul, abs_mul] at this
      have a1 := mul_le_mul_of_nonneg_right hx hyp.le
      have a2 := mul_le_mul hxs hy' (abs_nonneg _) hs0
      linarith
    rw [div_le_iff₀ (by positivity)]
    refine n.trans ?_
    have e2 : (k + 1) * 1.001 * u * (s / |y|) * (|y'| * |y|) = (k + 1) * 1.001 * u * s * |y'| := by
      field_simp
    rw [e2]
    have a3 : 0 ≤ (k + 1) * u * s := by positivity
    have a4 := mul_le_mul_of_nonneg_left k0 a3
    nlinarith [mul_nonneg a3 hyp.le]
  have h1 := h.err (x' / y')
  have h2 := abs_sub_abs_le_abs_sub (x' / y') (x / y)
  have h3 := abs_add_le (fl (x' / y') - x' / y') (x' / y' - x / y)
  rw [sub_add_sub_cancel] at h3
  have h4 : |x / y| ≤ s / |y| := by
    rw [abs_div]
    exact div_le_div_of_nonneg_right hxs hyp.le
  have hS : 0 ≤ s / |y| := by positivity
  generalize s / |y| = S at *
  have h5 : |x' / y'| * u ≤ (S + (k + 1) * 1.001 * u * S) * u := mul_le_mul_of_nonneg_right (by linarith) hu
  have h6 : (k + 1) * 1.001 * u * S * u ≤ (k + 1) * 1.001 * u * S * (1 / 1024) :=
    mul_le_mul_of_nonneg_left hs (by positivity)
  have h7 : 0 ≤ u * S := by positivity
  have h8 : 0 ≤ k * u * S := by positivity
  nlinarith

/-- The right wheel. -/
theorem right_err (h : Rel u fl) (d : Drive) (v w : ℝ) (hr : d.radius ≠ 0) :
    |(baseToWheelF fl d v w).2 - (baseToWheel d v w).2| ≤
      2.04 * u * ((|2 * v| + |w * d.bias|) / |d.radius|) := by
  simp only [baseToWheelF, baseToWheel]
  have hy : 2 * d.radius ≠ 0 := mul_ne_zero (by norm_num) hr
  have h1 := div_err h hy (by norm_num) (by norm_num) (sum_err h v w d.bias) (abs_add_le _ _)
    (by have := h.err (2 * d.radius); linarith)
  refine h1.trans ?_
  rw [abs_mul 2 d.radius, abs_two]
  have hp : 0 < |d.radius| := abs_pos.2 hr
  rw [show (|2 * v| + |w * d.bias|) / (2 * |d.radius|) = (|2 * v| + |w * d.bias|) / |d.radius| / 2 by
    field_simp]
  have : 0 ≤ u * ((|2 * v| + |w * d.bias|) / |d.radius|) := mul_nonneg h.pos (by positivity)
  nlinarith

/-- The left wheel. -/
theorem left_err (h : Rel u fl) (d : Drive) (v w : ℝ) (hr : d.radius ≠ 0) :
    |(baseToWheelF fl d v w).1 - (baseToWheel d v w).1| ≤
      5.7 * u * ((|2 * v| + |w * d.bias|) / |d.radius|) := by
  have h1 := right_err h d v w hr
  have h2 := div_err (y' := d.radius) h hr (by norm_num : (0 : ℝ) ≤ 1) (by norm_num)
    (exact0 h (2 * v)) le_rfl (by simp; exact mul_nonneg h.pos (abs_nonneg _))
  have e : (baseToWheelF fl d v w).1 = fl (fl (fl (2 * v) / d.radius) - (baseToWheelF fl d v w).2) := rfl
  have e' : (baseToWheel d v w).1 = 2 * v / d.radius - (baseToWheel d v w).2 := rfl
  have hp : 0 < |d.radius| := abs_pos.2 hr
  have h3 : |(baseToWheel d v w).1| ≤ (|2 * v| + |w * d.bias|) / |d.radius| / 2 := by
    have : (baseToWheel d v w).1 = (2 * v - w * d.bias) / (2 * d.radius) := by
      simp only [baseToWheel]
      field_simp
      ring
    rw [this, abs_div, abs_mul 2 d.radius, abs_two, div_div]
    rw [mul_comm 2 |d.radius|]
    exact div_le_div_of_nonneg_right (abs_sub _ _) (by positivity)
  rw [e]
  rw [e'] at h3 ⊢
  have hu := h.pos
  have hs := h.small
  have h4 : |2 * v| / |d.radius| ≤ (|2 * v| + |w * d.bias|) / |d.radius| :=
    div_le_div_of_nonneg_right (by linarith [abs_nonneg (w * d.bias)]) hp.le
  have h5 := h.err (fl (fl (2 * v) / d.radius) - (baseToWheelF fl d v w).2)
  have hS : 0 ≤ (|2 * v| + |w * d.bias|) / |d.radius| := by positivity
  generalize (|2 * v| + |w * d.bias|) / |d.radius| = S at *
  generalize fl (fl (2 * v) / d.radius) = A at *
  generalize (baseToWheelF fl d v w).2 = r' at *
  generalize (baseToWheel d v w).2 = r at *
  generalize 2 * v / d.radius = a at *
  have h6 : |A - a| ≤ 3.04 * u * S := by
    refine h2.trans ?_
    have := mul_le_mul_of_nonneg_left h4 hu
    nlinarith
  have h7 : |(A - r') - (a - r)| ≤ 5.08 * u * S := by
    have := abs_sub (A - a) (r' - r)
    rw [show A - a - (r' - r) = (A - r') - (a - r) by ring] at this
    linarith
  have h8 := abs_sub_abs_le_abs_sub (A - r') (a - r)
  have h9 := abs_add_le (fl (A - r') - (A - r')) ((A - r') - (a - r))
  rw [sub_add_sub_cancel] at h9
  have h10 : |A - r'| * u ≤ (S / 2 + 5.08 * u * S) * u := mul_le_mul_of_nonneg_right (by linarith) hu
  have h11 : 5.08 * u * S * u ≤ 5.08 * u * S * (1 / 1024) := mul_le_mul_of_nonneg_left hs (by positivity)
  have h12 : 0 ≤ u * S := by positivity
  nlinarith

/-- From velocities to wheels and back. -/
theorem back_err (h : Rel u fl) (d : Drive) (v w : ℝ) (hr : d.radius ≠ 0) (hb : d.bias ≠ 0) :
    let t := baseToWheelF fl d v w
    |fl (fl (d.radius * fl (t.1 + t.2)) / 2) - v| ≤ 8 * u * (|2 * v| + |w * d.bias|) ∧
    |turnF fl d t.1 t.2 - w| ≤ 12 * u * ((|2 * v| + |w * d.bias|) / |d.bias|) := by
  intro t
  have h1 : |t.2 - _| ≤ _ := right_err h d v w hr
  have h2 : |t.1 - _| ≤ _ := left_err h d v w hr
  have e1 : d.radius * ((baseToWheel d v w).1 + (baseToWheel d v w).2) / 2 = v := by
    simp only [baseToWheel]; field_simp; ring
  have e2 : d.radius * ((baseToWheel d v w).2 - (baseToWheel d v w).1) / d.bias = w := by
    simp only [baseToWheel]; field_simp; ring
  have hu := h.pos
  have hs := h.small
  have hR : 0 < |d.radius| := abs_pos.2 hr
  have hB : 0 < |d.bias| := abs_pos.2 hb
  have f1 := forward_err h d.radius t.1 t.2
  have f2 := turn_err h d t.1 t.2
  have hv : |v| ≤ (|2 * v| + |w * d.bias|) / 2 := by
    rw [abs_mul, abs_two]; linarith [abs_nonneg (w * d.bias)]
  have hw : |w| ≤ (|2 * v| + |w * d.bias|) / |d.bias| := by
    rw [le_div_iff₀ hB, ← abs_mul]; linarith [abs_nonneg (2 * v)]
  have hs0 : 0 ≤ |2 * v| + |w * d.bias| := by positivity
  generalize |2 * v| + |w * d.bias| = s at *
  generalize (baseToWheel d v w).2 = r at *
  generalize (baseToWheel d v w).1 = l at *
  have g1 : |d.radius| * |t.2 - r| ≤ 2.04 * u * s := by
    have := mul_le_mul_of_nonneg_left h1 hR.le
    rwa [show |d.radius| * (2.04 * u * (s / |d.radius|)) = 2.04 * u * s by field_simp] at this
  have g2 : |d.radius| * |t.1 - l| ≤ 5.7 * u * s := by
    have := mul_le_mul_of_nonneg_left h2 hR.le
    rwa [show |d.radius| * (5.7 * u * (s / |d.radius|)) = 5.7 * u * s by field_simp] at this
  rw [← abs_mul] at g1 g2
  have hus : 0 ≤ u * s := by positivity
  have hus2 : u * s * u ≤ u * s * (1 / 1024) := mul_le_mul_of_nonneg_left hs hus
  constructor
  · have g3 : |d.radius * (t.1 + t.2) / 2 - v| ≤ 3.87 * u * s := by
      rw [← e1, show d.radius * (t.1 + t.2) / 2 - d.radius * (l + r) / 2 =
        (d.radius * (t.2 - r) + d.radius * (t.1 - l)) / 2 by ring, abs_div, abs_two]
      have := abs_add_le (d.radius * (t.2 - r)) (d.radius * (t.1 - l))
      linarith
    have g4 := abs_sub_abs_le_abs_sub (d.radius * (t.1 + t.2) / 2) v
    have g5 : u * |d.radius * (t.1 + t.2) / 2| ≤ u * (s / 2 + 3.87 * u * s) :=
      mul_le_mul_of_nonneg_left (by linarith) hu
    have g6 := abs_add_le (fl (fl (d.radius * fl (t.1 + t.2)) / 2) - d.radius * (t.1 + t.2) / 2)
      (d.radius * (t.1 + t.2) / 2 - v)
    rw [sub_add_sub_cancel] at g6
    nlinarith
  · have g3 : |d.radius * (t.2 - t.1) / d.bias - w| ≤ 7.74 * u * (s / |d.bias|) := by
      rw [← e2, show d.radius * (t.2 - t.1) / d.bias - d.radius * (r - l) / d.bias =
        (d.radius * (t.2 - r) - d.radius * (t.1 - l)) / d.bias by ring, abs_div,
        show 7.74 * u * (s / |d.bias|) = 7.74 * u * s / |d.bias| by ring]
      apply div_le_div_of_nonneg_right _ hB.le
      have := abs_sub (d.radius * (t.2 - r)) (d.radius * (t.1 - l))
      linarith
    have g4 := abs_sub_abs_le_abs_sub (d.radius * (t.2 - t.1) / d.bias) w
    have hS : 0 ≤ s / |d.bias| := by positivity
    generalize s / |d.bias| = S at *
    have hus : 0 ≤ u * S := by positivity
    have hus2 : u * S * u ≤ u * S * (1 / 1024) := mul_le_mul_of_nonneg_left hs hus
    have g5 : u * |d.radius * (t.2 - t.1) / d.bias| ≤ u * (S + 7.74 * u * S) :=
      mul_le_mul_of_nonneg_left (by linarith) hu
    have g6 := abs_add_le (turnF fl d t.1 t.2 - d.radius * (t.2 - t.1) / d.bias)
      (d.radius * (t.2 - t.1) / d.bias - w)
    rw [sub_add_sub_cancel] at g6
    nlinarith

/-! ## Two journeys that are close -/

theorem way_cons_nonneg (ms : List Place) : 0 ≤ way ms :=
  List.sum_nonneg (by intro x hx; obtain ⟨m, _, rfl⟩ := List.mem_map.1 hx; exact Real.sqrt_nonneg _)

theorem turn_near {ε a b : ℝ} (h : Near ε a b) :
    ‖(⟨Real.cos a, Real.sin a⟩ : ℂ) - ⟨Real.cos b, Real.sin b⟩‖ ≤ ε := by
  obtain ⟨k, hk⟩ := h
  have := turn_le a (b + k * (2 * Real.pi))
  rw [Real.cos_add_int_mul_two_pi, Real.sin_add_int_mul_two_pi] at this
  linarith

/-- Motions straight ahead with turns: small errors of the motions cause small errors of the place. -/
theorem travel_close {α : Type} (f g : α → Place) (ε : ℝ) (η : α → ℝ) (ws : List α) (hη : ∀ a ∈ ws, 0 ≤ η a)
    (hx : ∀ a ∈ ws, |(f a).x - (g a).x| ≤ ε * |(g a).x|) (hf : ∀ a ∈ ws, (f a).y = 0)
    (hg : ∀ a ∈ ws, (g a).y = 0) (hh : ∀ a ∈ ws, Near (η a) (f a).h (g a).h) :
    Near (ws.map η).sum (travel (ws.map f)).h (travel (ws.map g)).h ∧
    ‖(⟨(travel (ws.map f)).x, (travel (ws.map f)).y⟩ : ℂ) - ⟨(travel (ws.map g)).x, (travel (ws.map g)).y⟩‖ ≤
      (ε + (ws.map η).sum) * way (ws.map g) := by
  induction ws using List.reverseRecOn with
  | nil => exact ⟨⟨0, by simp [travel]⟩, by simp [travel, way]⟩
  | append_singleton ws a ih =>
    obtain ⟨ih1, ih2⟩ := ih (fun b hb => hη b (by simp [hb])) (fun b hb => hx b (by simp [hb]))
      (fun b hb => hf b (by simp [hb])) (fun b hb => hg b (by simp [hb])) (fun b hb => hh b (by simp [hb]))
    have hηa := hη a (by simp)
    have hxa := hx a (by simp)
    have hfa := hf a (by simp)
    have hga := hg a (by simp)
    have hha := hh a (by simp)
    have et : ∀ k : α → Place, travel ((ws ++ [a]).map k) = go (travel (ws.map k)) (k a) := by
      intro k; simp [travel]
    have ew : way ((ws ++ [a]).map g) = way (ws.map g) + |(g a).x| := by
      simp [way, hga, Real.sqrt_sq_eq_abs]
    have es : ((ws ++ [a]).map η).sum = (ws.map η).sum + η a := by simp
    rw [et, et, ew, es]
    have hw := way_cons_nonneg (ws.map g)
    have hsum : 0 ≤ (ws.map η).sum := List.sum_nonneg (by
      intro x hx; obtain ⟨m, hm, rfl⟩ := List.mem_map.1 hx; exact hη m (by simp [hm]))
    generalize travel (ws.map f) = P at *
    generalize travel (ws.map g) = Q at *
    constructor
    · obtain ⟨k1, hk1⟩ := ih1
      obtain ⟨k2, hk2⟩ := hha
      refine ⟨k1 + k2, ?_⟩
      simp only [go]
      have := abs_add_le (P.h - (Q.h + k1 * (2 * Real.pi))) ((f a).h - ((g a).h + k2 * (2 * Real.pi)))
      rw [show P.h - (Q.h + k1 * (2 * Real.pi)) + ((f a).h - ((g a).h + k2 * (2 * Real.pi))) =
        P.h + (f a).h - (Q.h + (g a).h + (k1 + k2) * (2 * Real.pi)) by ring] at this
      push_cast
      linarith
    · simp only [go, hfa, hga, mul_zero, sub_zero, add_zero]
      have ht := turn_near ih1
      have e : (⟨P.x + Real.cos P.h * (f a).x, P.y + Real.sin P.h * (f a).x⟩ : ℂ) -
          ⟨Q.x + Real.cos Q.h * (g a).x, Q.y + Real.sin Q.h * (g a).x⟩ =
          ((⟨P.x, P.y⟩ : ℂ) - ⟨Q.x, Q.y⟩) +
          (((((f a).x - (g a).x : ℝ) : ℂ)) * ⟨Real.cos P.h, Real.sin P.h⟩ +
          (((g a).x : ℝ) : ℂ) * ((⟨Real.cos P.h, Real.sin P.h⟩ : ℂ) - ⟨Real.cos Q.h, Real.sin Q.h⟩)) := by
        apply Complex.ext
        · simp; ring
        · simp; ring
      rw [e]
      have n1 := norm_add_le ((⟨P.x, P.y⟩ : ℂ) - ⟨Q.x, Q.y⟩)
        (((((f a).x - (g a).x : ℝ) : ℂ)) * ⟨Real.cos P.h, Real.sin P.h⟩ +
          (((g a).x : ℝ) : ℂ) * ((⟨Real.cos P.h, Real.sin P.h⟩ : ℂ) - ⟨Real.cos Q.h, Real.sin Q.h⟩))
      have n2 := norm_add_le (((((f a).x - (g a).x : ℝ) : ℂ)) * ⟨Real.cos P.h, Real.sin P.h⟩)
          ((((g a).x : ℝ) : ℂ) * ((⟨Real.cos P.h, Real.sin P.h⟩ : ℂ) - ⟨Real.cos Q.h, Real.sin Q.h⟩))
      rw [norm_mul, norm_mul, Complex.norm_real, Complex.norm_real, Real.norm_eq_abs, Real.norm_eq_abs,
        norm_unit, mul_one] at n2
      have n3 := mul_le_mul_of_nonneg_left ht (abs_nonneg (g a).x)
      have n4 := mul_nonneg hηa hw
      have n5 := mul_nonneg hηa (abs_nonneg (g a).x)
      nlinarith

/-! ## Quotients are not half way between two numbers -/

theorem odd_part (m : ℤ) (hm : m ≠ 0) : ∃ (k : ℕ) (M : ℤ), Odd M ∧ m = 2 ^ k * M := by
  obtain ⟨k, n, hn, e⟩ := Nat.exists_eq_two_pow_mul_odd (Int.natAbs_ne_zero.2 hm)
  rcases Int.natAbs_eq m with h | h
  · exact ⟨k, n, by exact_mod_cast hn, by rw [h, e]; push_cast; ring⟩
  · refine ⟨k, -n, ?_, by rw [h, e]; push_cast; ring⟩
    exact (by exact_mod_cast hn : Odd (n : ℤ)).neg

/-- Two odd numbers with powers of two: equal only if the odd numbers are. -/
theorem odd_unique_le {A B a b : ℤ} (hA : Odd A) (hab : a ≤ b)
    (h : (A : ℝ) * 2 ^ a = B * 2 ^ b) : A = B := by
  obtain ⟨n, rfl⟩ := Int.le.dest hab
  rw [zpow_add₀ (by norm_num), zpow_natCast] at h
  have h1 : (A : ℝ) = B * 2 ^ n := by
    have h2 : (2 : ℝ) ^ a ≠ 0 := by positivity
    apply mul_right_cancel₀ h2
    rw [h]; ring
  have h3 : A = B * 2 ^ n := by exact_mod_cast h1
  cases n with
  | zero => simpa using h3
  | succ n =>
    exfalso
    rw [pow_succ, ← mul_assoc] at h3
    exact (Int.not_even_iff_odd.2 hA) ⟨B * 2 ^ n, by rw [h3]; ring⟩

theorem odd_unique {A B a b : ℤ} (hA : Odd A) (hB : Odd B) (h : (A : ℝ) * 2 ^ a = B * 2 ^ b) : A = B := by
  rcases le_total a b with hab | hab
  · exact odd_unique_le hA hab h
  · exact (odd_unique_le hB hab h.symm).symm

theorem odd_small {p : ℕ} {M e : ℤ} (hM : Odd M) (h : IsFloat p (M * (2 : ℝ) ^ e)) : |M| < 2 ^ p := by
  obtain ⟨m, e', hm, h⟩ := h
  have hm0 : m ≠ 0 := by
    rintro rfl
    have : (M : ℝ) ≠ 0 := by
      have : M ≠ 0 := by rintro rfl; exact absurd hM (by decide)
      exact_mod_cast this
    have h2 : (2 : ℝ) ^ e ≠ 0 := by positivity
    rw [Int.cast_zero, zero_mul] at h
    exact mul_ne_zero this h2 h
  obtain ⟨k, N, hN, rfl⟩ := odd_part m hm0
  have : M = N := by
    apply odd_unique hM hN (a := e) (b := e' + k)
    rw [h, zpow_add₀ (by norm_num), zpow_natCast]
    push_cast
    ring
  subst this
  rw [abs_mul] at hm
  have h1 : (1 : ℤ) ≤ |2 ^ k| := by
    rw [abs_of_pos (by positivity)]
    exact one_le_pow₀ (by norm_num)
  nlinarith [abs_nonneg M]

/-- A quotient of two numbers of `p` bits has at most `p` bits or infinitely many. -/
theorem quotient_float {p : ℕ} {v r : ℝ} (hv : IsFloat p v) (hr : IsFloat p r) (hr0 : r ≠ 0) (m e : ℤ)
    (hx : v / r = m * (2 : ℝ) ^ e) : IsFloat p (v / r) := by
  rcases eq_or_ne m 0 with rfl | hm
  · rw [hx]; simpa using isFloat_zero p
  obtain ⟨k, M, hM, rfl⟩ := odd_part m hm
  obtain ⟨a, f, ha, rfl⟩ := hr
  have ha0 : a ≠ 0 := by rintro rfl; simp at hr0
  obtain ⟨j, N, hN, rfl⟩ := odd_part a ha0
  have e1 : v = ((N * M : ℤ) : ℝ) * 2 ^ ((k : ℤ) + e + (j + f)) := by
    rw [div_eq_iff hr0] at hx
    rw [hx, zpow_add₀ (by norm_num), zpow_add₀ (by norm_num), zpow_add₀ (by norm_num), zpow_natCast,
      zpow_natCast]
    push_cast
    ring
  rw [e1] at hv
  have h1 := odd_small (hN.mul hM) hv
  rw [abs_mul] at h1
  have h2 : 1 ≤ |N| := Int.one_le_abs (by rintro rfl; exact absurd hN (by decide))
  refine ⟨M, k + e, by nlinarith [abs_nonneg M], ?_⟩
  rw [hx, zpow_add₀ (by norm_num), zpow_natCast]
  push_cast
  ring

theorem isFloat_two_mul {p : ℕ} {x : ℝ} (h : IsFloat p x) : IsFloat p (2 * x) := by
  obtain ⟨m, e, hm, rfl⟩ := h
  refine ⟨m, e + 1, hm, ?_⟩
  rw [zpow_add₀ (by norm_num), zpow_one]
  ring

theorem isFloat_half {p : ℕ} {x : ℝ} (h : IsFloat p x) : IsFloat p (x / 2) := by
  obtain ⟨m, e, hm, rfl⟩ := h
  refine ⟨m, e - 1, hm, ?_⟩
  rw [zpow_sub₀ (by norm_num), zpow_one]
  ring

/-- The sum of two numbers of finitely many bits has finitely many. -/
theorem dyadic_add {p : ℕ} {x y : ℝ} (hx : IsFloat p x) (hy : IsFloat p y) :
    ∃ m e : ℤ, (x + y) / 2 = m * (2 : ℝ) ^ e := by
  obtain ⟨m, e, -, rfl⟩ := hx
  obtain ⟨n, f, -, rfl⟩ := hy
  rcases le_total e f with h | h
  · obtain ⟨k, rfl⟩ := Int.le.dest h
    refine ⟨m + n * 2 ^ k, e - 1, ?_⟩
    rw [zpow_sub₀ (by norm_num), zpow_one, zpow_add₀ (by norm_num), zpow_natCast]
    push_cast
    ring
  · obtain ⟨k, rfl⟩ := Int.le.dest h
    refine ⟨m * 2 ^ k + n, f - 1, ?_⟩
    rw [zpow_sub₀ (by norm_num), zpow_one, zpow_add₀ (by norm_num), zpow_natCast]
    push_cast
    ring

/-- Twice a quotient is rounded to twice the rounded quotient, whatever is done with ties. -/
theorem round_twice {p : ℕ} {fl : ℝ → ℝ} (hfl : Rounds p fl) {v r : ℝ} (hv : IsFloat p v) (hr : IsFloat p r)
    (hr0 : r ≠ 0) : fl (2 * v / r) = 2 * fl (v / r) := by
  have e : 2 * v / r = 2 * (v / r) := by ring
  rw [e]
  by_cases hx : IsFloat p (v / r)
  · rw [hfl.self hx, hfl.self (isFloat_two_mul hx)]
  have h1 := (hfl (2 * (v / r))).2 (2 * fl (v / r)) (isFloat_two_mul (hfl _).1)
  have h2 := (hfl (v / r)).2 (fl (2 * (v / r)) / 2) (isFloat_half (hfl _).1)
  have f1 := (hfl (2 * (v / r))).1
  have f2 := (hfl (v / r)).1
  have hd := dyadic_add f2 (isFloat_half f1)
  obtain ⟨m, k, hd⟩ := hd
  by_contra hne
  have h3 : |fl (2 * (v / r)) / 2 - v / r| = |fl (v / r) - v / r| := by
    apply le_antisymm _ h2
    rw [← mul_sub, abs_mul, abs_two, show fl (2 * (v / r)) - 2 * (v / r) =
      2 * (fl (2 * (v / r)) / 2 - v / r) by ring, abs_mul, abs_two] at h1
    linarith
  rcases abs_eq_abs.1 h3 with h4 | h4
  · apply hne; linarith
  · apply hx
    refine quotient_float hv hr hr0 m k ?_
    rw [← hd]
    linarith

end Ecl.DriveFloat
