import Verif.Lemmas.DriveFloatBase
import Verif.Props.C119_PoseDrift
import Verif.Spec.TwoWheels

/-! # C122: differential drive kinematics and dead reckoning in floating point arithmetic -/
set_option autoImplicit false

namespace Ecl.Props
open Ecl.Spec Ecl.Spec.Odometry Ecl.Spec.TwoWheels Ecl.PoseFloat Ecl.Pose Ecl.DiffDrive Ecl.DriveFloat
open Ecl.AngleFloat (wrapD piD)
open Ecl.AngleFloat.Spec (Near)

namespace C122

theorem rel {fl : ℝ → ℝ} (hfl : RoundsToNearest fl) : Rel (1 / 2 ^ 53) fl :=
  C119.rel (by norm_num) (rounds_double.2 hfl)

/-- Wrapping an angle that is known approximately. -/
theorem wrapped {fl : ℝ → ℝ} (hfl : RoundsToNearest fl) {t w k s : ℝ} (hk : k ≤ 16)
    (ht : |t - w| ≤ k * (1 / 2 ^ 53) * s) (hw : |w| ≤ s) :
    Near (((k + 2.1) * s + 12) / 2 ^ 53) (wrapD fl t) w := by
  obtain ⟨n, hn⟩ := C109.double_near hfl t
  refine ⟨n, ?_⟩
  have h1 := abs_sub_abs_le_abs_sub t w
  have h2 := abs_add_le (wrapD fl t - (t + n * (2 * Real.pi))) (t - w)
  rw [show wrapD fl t - (t + n * (2 * Real.pi)) + (t - w) = wrapD fl t - (w + n * (2 * Real.pi)) by ring] at h2
  refine h2.trans ?_
  have hs : 0 ≤ s := (abs_nonneg w).trans hw
  have h3 : k * (1 / 2 ^ 53) * s ≤ 0.01 * s := mul_le_mul_of_nonneg_right (by linarith) hs
  have h4 : |t| ≤ 1.01 * s := by linarith
  have e1 : (|t| + 6) / 2 ^ 52 = (|t| + 6) * 2 * (1 / 2 ^ 53) := by ring
  have e2 : ((k + 2.1) * s + 12) / 2 ^ 53 = ((k + 2.1) * s + 12) * (1 / 2 ^ 53) := by ring
  rw [e1] at hn
  rw [e2]
  have hu : (0 : ℝ) < 1 / 2 ^ 53 := by positivity
  generalize (1 : ℝ) / 2 ^ 53 = u at *
  have h5 := mul_le_mul_of_nonneg_right h4 hu.le
  nlinarith [mul_nonneg hs hu.le]

theorem sum_map_const {α : Type} (f : α → ℝ) (a b : ℝ) (ws : List α) :
    (ws.map fun w => a * f w + b).sum = a * (ws.map f).sum + b * ws.length := by
  induction ws with
  | nil => simp
  | cons w ws ih => simp only [List.map_cons, List.sum_cons, ih, List.length_cons]; push_cast; ring

theorem way_le {α : Type} (f g : α → Place) (ε : ℝ) (ws : List α)
    (hx : ∀ a ∈ ws, |(f a).x - (g a).x| ≤ ε * |(g a).x|) (hf : ∀ a ∈ ws, (f a).y = 0)
    (hg : ∀ a ∈ ws, (g a).y = 0) : way (ws.map f) ≤ (1 + ε) * way (ws.map g) := by
  induction ws with
  | nil => simp [way]
  | cons a ws ih =>
    have := ih (fun b hb => hx b (by simp [hb])) (fun b hb => hf b (by simp [hb]))
      (fun b hb => hg b (by simp [hb]))
    simp only [way, List.map_cons, List.sum_cons, hf a (by simp), hg a (by simp)] at this ⊢
    simp only [ne_eq, OfNat.ofNat_ne_zero, not_false_eq_true, zero_pow, add_zero, Real.sqrt_sq_eq_abs]
    have h1 := hx a (by simp)
    have h2 := abs_sub_abs_le_abs_sub (f a).x (g a).x
    linarith

theorem zero_wrap (fl : ℝ → ℝ) : wrapD fl 0 = 0 := by
  have := C109.piD_lo
  exact C109.double_fixed fl (by linarith) (by linarith)

end C122

/-- The update for wheels that turn by `l` and `r`: the path has a relative error of four units in the last place,
there is no motion to the side, and the turn is as accurate as long as it is not larger than half a turn; otherwise
the error is a little larger. -/
theorem C122_update (fl : ℝ → ℝ) (hfl : RoundsToNearest fl) (d : Drive) (l r : ℝ) :
    let m := motion d.radius d.bias l r
    let q := poseUpdateFromWheelF fl d l r
    |q.x - m.x| ≤ 4 / 2 ^ 53 * |m.x| ∧ q.y = m.y ∧ (|m.h| ≤ 3.14 → |q.h - m.h| ≤ 4 / 2 ^ 53 * |m.h|) ∧
    Near ((6 * |m.h| + 12) / 2 ^ 53) q.h m.h ∧ -Real.pi ≤ q.h ∧ q.h ≤ Real.pi := by
  intro m q
  have h := C122.rel hfl
  have h1 := forward_err h d.radius l r
  have h2 := turn_err h d l r
  have hu : (0 : ℝ) < 1 / 2 ^ 53 := by positivity
  have hr := C109.double_range hfl (turnF fl d l r)
  have hpi := Real.pi_gt_d6
  have hlo := C109.piD_lo
  have hhi := C109.piD_hi
  have hpp : piD ≤ Real.pi := by
    have := Real.pi_gt_d20
    unfold piD
    norm_num at this ⊢
    linarith
  refine ⟨?_, rfl, fun hm => ?_, ?_, (neg_le_neg hpp).trans hr.1, hr.2.trans hpp⟩
  · refine h1.trans ?_
    rw [show (4 : ℝ) / 2 ^ 53 = 4 * (1 / 2 ^ 53) by ring]
    exact mul_le_mul_of_nonneg_right (by linarith) (abs_nonneg _)
  · have h3 : |turnF fl d l r - m.h| ≤ 3.1 * (1 / 2 ^ 53) * |m.h| := h2
    have h4 : |turnF fl d l r - m.h| ≤ 4 / 2 ^ 53 * |m.h| := by
      refine h3.trans ?_
      rw [show (4 : ℝ) / 2 ^ 53 = 4 * (1 / 2 ^ 53) by ring]
      exact mul_le_mul_of_nonneg_right (by linarith) (abs_nonneg _)
    have h5 : |turnF fl d l r - m.h| ≤ 0.0001 := by
      refine h4.trans ?_
      have := mul_le_mul_of_nonneg_left hm (by positivity : (0 : ℝ) ≤ 4 / 2 ^ 53)
      refine this.trans ?_
      norm_num
    obtain ⟨a1, a2⟩ := abs_le.1 h5
    obtain ⟨b1, b2⟩ := abs_le.1 hm
    have e : q.h = turnF fl d l r := C109.double_fixed fl (by linarith) (by linarith)
    rw [e]
    exact h4
  · obtain ⟨n, hn⟩ := C122.wrapped hfl (by norm_num) h2 le_rfl
    refine ⟨n, hn.trans ?_⟩
    apply div_le_div_of_nonneg_right _ (by positivity)
    have := abs_nonneg m.h
    have e : |m.h| = |d.radius * (r - l) / d.bias| := rfl
    linarith

/-- The rates of the wheels for given velocities: with `s` the sum of the speeds of the two wheels at most needed,
the right wheel is off by less than three, the left one by less than six units in the last place of `s`. -/
theorem C122_rates_partial (fl : ℝ → ℝ) (hfl : RoundsToNearest fl) (d : Drive) (v w : ℝ) (hr : d.radius ≠ 0) :
    let s := (2 * |v| + |w * d.bias|) / |d.radius|
    |(baseToWheelF fl d v w).1 - leftRate d.radius d.bias v w| ≤ 6 / 2 ^ 53 * s ∧
    |(baseToWheelF fl d v w).2 - rightRate d.radius d.bias v w| ≤ 3 / 2 ^ 53 * s := by
  intro s
  have h := C122.rel hfl
  have h1 := left_err h d v w hr
  have h2 := right_err h d v w hr
  have e1 : (baseToWheel d v w).1 = leftRate d.radius d.bias v w := by
    simp only [baseToWheel, leftRate]; field_simp; ring
  have e2 : (baseToWheel d v w).2 = rightRate d.radius d.bias v w := by
    simp only [baseToWheel, rightRate]; field_simp
  rw [e1, abs_mul 2 v, abs_two] at h1
  rw [e2, abs_mul 2 v, abs_two] at h2
  have hs : 0 ≤ s := by positivity
  have hu : (0 : ℝ) < 1 / 2 ^ 53 := by positivity
  rw [show (6 : ℝ) / 2 ^ 53 = 6 * (1 / 2 ^ 53) by ring, show (3 : ℝ) / 2 ^ 53 = 3 * (1 / 2 ^ 53) by ring]
  exact ⟨h1.trans (mul_le_mul_of_nonneg_right (by linarith) hs),
    h2.trans (mul_le_mul_of_nonneg_right (by linarith) hs)⟩

/-- No relative accuracy of the left wheel: whenever the product of turn and axle is not a double, there is a
velocity for which the computed rate is zero although the wheel has to turn. -/
theorem C122_fails_relative (fl : ℝ → ℝ) (hfl : RoundsToNearest fl) (w b : ℝ) (hwb : ¬ IsDouble (w * b)) :
    IsDouble (fl (w * b) / 2) ∧ (baseToWheelF fl (make b 1) (fl (w * b) / 2) w).1 = 0 ∧
    leftRate 1 b (fl (w * b) / 2) w ≠ 0 := by
  have hR := rounds_double.2 hfl
  have f : IsFloat 53 (fl (w * b)) := (hR _).1
  have f2 : IsFloat 53 (2 * fl (w * b)) := isFloat_two_mul f
  have two : IsFloat 53 (2 : ℝ) := ⟨1, 1, by norm_num, by norm_num⟩
  refine ⟨isFloat_half f, ?_, ?_⟩
  · simp only [baseToWheelF, make]
    rw [show 2 * (fl (w * b) / 2) = fl (w * b) by ring, hR.self f, show (2 : ℝ) * 1 = 2 by norm_num,
      hR.self two, div_one, hR.self f, show fl (w * b) + fl (w * b) = 2 * fl (w * b) by ring, hR.self f2,
      show 2 * fl (w * b) / 2 = fl (w * b) by ring, hR.self f, sub_self, hR.self (isFloat_zero 53)]
  · unfold leftRate
    intro h0
    apply hwb
    have : w * b = fl (w * b) := by linarith
    rw [this]
    exact f

/-- Driving straight is exact: the two wheels get the same rate, and if they turn so, the heading does not change
at all. -/
theorem C122_straight (fl : ℝ → ℝ) (hfl : RoundsToNearest fl) (d : Drive) (v : ℝ) (hv : IsDouble v)
    (hd : IsDouble d.radius) (hr : d.radius ≠ 0) :
    (baseToWheelF fl d v 0).1 = (baseToWheelF fl d v 0).2 ∧ (baseToWheelF fl d v 0).2 = fl (v / d.radius) ∧
    ∀ r, (poseUpdateFromWheelF fl d r r).h = 0 := by
  have hR := rounds_double.2 hfl
  have e0 : fl 0 = 0 := hR.self (isFloat_zero 53)
  have h1 : (baseToWheelF fl d v 0).2 = fl (v / d.radius) := by
    simp only [baseToWheelF]
    rw [hR.self (isFloat_two_mul hv), hR.self (isFloat_two_mul hd), zero_mul, e0, add_zero,
      hR.self (isFloat_two_mul hv), mul_div_mul_left v d.radius (by norm_num)]
  refine ⟨?_, h1, fun r => ?_⟩
  · have : (baseToWheelF fl d v 0).1 = fl (fl (fl (2 * v) / d.radius) - (baseToWheelF fl d v 0).2) := rfl
    rw [this, h1, hR.self (isFloat_two_mul hv), round_twice hR hv hd hr,
      show 2 * fl (v / d.radius) - fl (v / d.radius) = fl (v / d.radius) by ring, hR.self (hR _).1]
  · simp only [poseUpdateFromWheelF, turnF, sub_self, e0, mul_zero, zero_div]
    exact C122.zero_wrap fl

/-- Turning on the spot is exact, too: the wheels get opposite rates, and if they turn so, the vehicle does not
move forward at all. -/
theorem C122_spot (fl : ℝ → ℝ) (hfl : RoundsToNearest fl) (d : Drive) (w : ℝ) :
    (baseToWheelF fl d 0 w).1 = -(baseToWheelF fl d 0 w).2 ∧
    ∀ r, (poseUpdateFromWheelF fl d (-r) r).x = 0 ∧ (poseUpdateFromWheelF fl d (-r) r).y = 0 := by
  have hR := rounds_double.2 hfl
  have e0 : fl 0 = 0 := hR.self (isFloat_zero 53)
  refine ⟨?_, fun r => ⟨?_, rfl⟩⟩
  · have f : IsFloat 53 (baseToWheelF fl d 0 w).2 := (hR _).1
    have : (baseToWheelF fl d 0 w).1 = fl (fl (fl (2 * 0) / d.radius) - (baseToWheelF fl d 0 w).2) := rfl
    rw [this, mul_zero, e0, zero_div, e0, zero_sub, hR.self f.neg]
  · simp only [poseUpdateFromWheelF, neg_add_cancel, e0, mul_zero, zero_div]

/-- From velocities to the rates of the wheels and back to the motion of the base. -/
theorem C122_round_trip_partial (fl : ℝ → ℝ) (hfl : RoundsToNearest fl) (d : Drive) (v w : ℝ) (hr : d.radius ≠ 0)
    (hb : d.bias ≠ 0) :
    let t := baseToWheelF fl d v w
    let q := poseUpdateFromWheelF fl d t.1 t.2
    |q.x - v| ≤ 8 / 2 ^ 53 * (2 * |v| + |w * d.bias|) ∧ q.y = 0 ∧
    Near ((15 * (2 * |v| / |d.bias| + |w|) + 12) / 2 ^ 53) q.h w := by
  intro t q
  have h := C122.rel hfl
  obtain ⟨h1, h2⟩ := back_err h d v w hr hb
  rw [abs_mul 2 v, abs_two] at h1 h2
  have hB : 0 < |d.bias| := abs_pos.2 hb
  have e : (2 * |v| + |w * d.bias|) / |d.bias| = 2 * |v| / |d.bias| + |w| := by
    rw [abs_mul]; field_simp
  rw [e] at h2
  refine ⟨?_, rfl, ?_⟩
  · rw [show (8 : ℝ) / 2 ^ 53 = 8 * (1 / 2 ^ 53) by ring]
    exact h1
  · have hw : |w| ≤ 2 * |v| / |d.bias| + |w| := by
      have : 0 ≤ 2 * |v| / |d.bias| := by positivity
      linarith
    obtain ⟨n, hn⟩ := C122.wrapped hfl (by norm_num) h2 hw
    refine ⟨n, hn.trans ?_⟩
    apply div_le_div_of_nonneg_right _ (by positivity)
    have : 0 ≤ 2 * |v| / |d.bias| + |w| := (abs_nonneg w).trans hw
    linarith

/-- Dead reckoning: the pose found by extending a pose by the updates of any number of turns of the wheels.  After
`n` of them the heading is off by at most 44 units in the last place for each and six for each radian turned; the
position is off by at most 50 for each and six for each radian, of the length of the way. -/
theorem C122_dead_reckoning (fl cosF sinF : ℝ → ℝ) (hfl : RoundsToNearest fl) (ht : Trig 53 cosF sinF) (d : Drive)
    (ws : List (ℝ × ℝ)) (hn : ws.length ≤ 2 ^ 43) (q : XYH)
    (hq : q = ws.foldl (fun q w => concatenateF fl cosF sinF (wrapD fl) q (poseUpdateFromWheelF fl d w.1 w.2))
      ⟨0, 0, 0⟩) :
    let ms := ws.map fun w => motion d.radius d.bias w.1 w.2
    Near ((44 * ws.length + 6 * turned ms) / 2 ^ 53) q.h (travel ms).h ∧
    √((q.x - (travel ms).x) ^ 2 + (q.y - (travel ms).y) ^ 2) ≤
      (50 * ws.length + 6 * turned ms) / 2 ^ 53 * way ms := by
  intro ms
  let f : ℝ × ℝ → Place := fun w =>
    ⟨(poseUpdateFromWheelF fl d w.1 w.2).x, (poseUpdateFromWheelF fl d w.1 w.2).y,
      (poseUpdateFromWheelF fl d w.1 w.2).h⟩
  let g : ℝ × ℝ → Place := fun w => motion d.radius d.bias w.1 w.2
  have hf : ∀ w ∈ ws, (f w).y = 0 := fun _ _ => rfl
  have hg : ∀ w ∈ ws, (g w).y = 0 := fun _ _ => rfl
  have hx : ∀ w ∈ ws, |(f w).x - (g w).x| ≤ 4 / 2 ^ 53 * |(g w).x| := fun w _ =>
    (C122_update fl hfl d w.1 w.2).1
  have hh : ∀ w ∈ ws, Near (6 / 2 ^ 53 * |(g w).h| + 12 / 2 ^ 53) (f w).h (g w).h := fun w _ => by
    have := (C122_update fl hfl d w.1 w.2).2.2.2.1
    rwa [show (6 * |(motion d.radius d.bias w.1 w.2).h| + 12) / 2 ^ 53 =
      6 / 2 ^ 53 * |(g w).h| + 12 / 2 ^ 53 by simp only [g]; ring] at this
  obtain ⟨c1, c2⟩ := travel_close f g (4 / 2 ^ 53) (fun w => 6 / 2 ^ 53 * |(g w).h| + 12 / 2 ^ 53) ws
    (fun w _ => by positivity) hx hf hg hh
  rw [C122.sum_map_const (fun w => |(g w).h|)] at c1 c2
  have ht' : (ws.map fun w => |(g w).h|).sum = turned ms := by simp [turned, ms, g, List.map_map, Function.comp_def]
  rw [ht'] at c1 c2
  have hm : ∀ m ∈ ws.map f, |m.h| ≤ 3.15 := by
    intro m hm
    obtain ⟨w, _, rfl⟩ := List.mem_map.1 hm
    have h1 := C109.double_range hfl (turnF fl d w.1 w.2)
    have h2 := C109.piD_hi
    have e : (f w).h = wrapD fl (turnF fl d w.1 w.2) := rfl
    rw [e]
    exact abs_le.2 ⟨by linarith [h1.1], by linarith [h1.2]⟩
  have hq' : q = (ws.map f).foldl (fun q m => concatenateF fl cosF sinF (wrapD fl) q ⟨m.x, m.y, m.h⟩)
      ⟨0, 0, 0⟩ := by rw [hq, List.foldl_map]
  obtain ⟨a1, a2⟩ := C119_angle_double fl cosF sinF hfl ht (ws.map f) hm (by simpa using hn) q hq'
  rw [List.length_map] at a1 a2
  have hw := C122.way_le f g (4 / 2 ^ 53) ws hx hf hg
  have hw0 : 0 ≤ way (ws.map g) := way_cons_nonneg _
  have hT : 0 ≤ turned ms := List.sum_nonneg (by
    intro x hx; obtain ⟨m, _, rfl⟩ := List.mem_map.1 hx; exact abs_nonneg _)
  constructor
  · obtain ⟨k1, hk1⟩ := a1
    obtain ⟨k2, hk2⟩ := c1
    refine ⟨k1 + k2, ?_⟩
    have := abs_add_le (q.h - ((travel (ws.map f)).h + k1 * (2 * Real.pi)))
      ((travel (ws.map f)).h - ((travel (ws.map g)).h + k2 * (2 * Real.pi)))
    rw [show q.h - ((travel (ws.map f)).h + k1 * (2 * Real.pi)) +
      ((travel (ws.map f)).h - ((travel (ws.map g)).h + k2 * (2 * Real.pi))) =
      q.h - ((travel (ws.map g)).h + (k1 + k2) * (2 * Real.pi)) by ring] at this
    push_cast
    refine this.trans ?_
    have e : (44 * (ws.length : ℝ) + 6 * turned ms) / 2 ^ 53 = 32 * ws.length / 2 ^ 53 +
      (6 / 2 ^ 53 * turned ms + 12 / 2 ^ 53 * ws.length) := by ring
    rw [e]
    exact add_le_add hk1 hk2
  · rw [← norm_eq_sqrt] at a2 ⊢
    have e : (⟨q.x - (travel ms).x, q.y - (travel ms).y⟩ : ℂ) =
        ⟨q.x - (travel (ws.map f)).x, q.y - (travel (ws.map f)).y⟩ +
        ((⟨(travel (ws.map f)).x, (travel (ws.map f)).y⟩ : ℂ) - ⟨(travel (ws.map g)).x, (travel (ws.map g)).y⟩) := by
      apply Complex.ext
      · simp [ms, g]
      · simp [ms, g]
    rw [e]
    refine (norm_add_le _ _).trans ((add_le_add a2 c2).trans ?_)
    change _ ≤ (50 * (ws.length : ℝ) + 6 * turned ms) / 2 ^ 53 * way (ws.map g)
    rcases ws.length.eq_zero_or_pos with h0 | h0
    · have : ws = [] := List.length_eq_zero_iff.1 h0
      subst this
      simp [way]
    · have h1 : (1 : ℝ) ≤ ws.length := by exact_mod_cast h0
      have hN : (0 : ℝ) ≤ 33 * ws.length / 2 ^ 53 := by positivity
      have h2 := mul_le_mul_of_nonneg_left hw hN
      refine (add_le_add h2 le_rfl).trans ?_
      generalize way (ws.map g) = W at *
      generalize (ws.length : ℝ) = n at *
      generalize turned ms = T at *
      have h3 : 33 * n / 2 ^ 53 * ((1 + 4 / 2 ^ 53) * W) ≤ 34 * n / 2 ^ 53 * W := by
        rw [← mul_assoc]
        apply mul_le_mul_of_nonneg_right _ hw0
        rw [div_mul_eq_mul_div]
        apply div_le_div_of_nonneg_right _ (by positivity)
        have : 33 * n * (1 + 4 / 2 ^ 53) = n * (33 * (1 + 4 / 2 ^ 53)) := by ring
        rw [this, mul_comm 34 n]
        exact mul_le_mul_of_nonneg_left (by norm_num) (by linarith)
      refine (add_le_add h3 le_rfl).trans ?_
      rw [← add_mul]
      apply mul_le_mul_of_nonneg_right _ hw0
      have e2 : 34 * n / 2 ^ 53 + (4 / 2 ^ 53 + (6 / 2 ^ 53 * T + 12 / 2 ^ 53 * n)) =
        (46 * n + 4 + 6 * T) / 2 ^ 53 := by ring
      rw [e2]
      apply div_le_div_of_nonneg_right _ (by positivity)
      linarith

/-- The motion of the base between two poses: the length is the distance of the two up to 27 units in the last
place, and the sign tells forward from backward unless the motion is almost exactly to the side; the turn is the
difference of the headings. -/
theorem C122_between_partial (fl cosF sinF : ℝ → ℝ) (hfl : RoundsToNearest fl) (ht : Trig 53 cosF sinF) (a b : XYH)
    (ha : |a.h| ≤ 3.1415926) :
    let D := √((b.x - a.x) ^ 2 + (b.y - a.y) ^ 2)
    let ahead := Real.cos a.h * (b.x - a.x) + Real.sin a.h * (b.y - a.y)
    let m := poseToBaseF fl cosF sinF a b
    abs (|m.1| - D) ≤ 27 / 2 ^ 53 * D ∧ (16 / 2 ^ 53 * D < ahead → 0 ≤ m.1) ∧
    (ahead < -(16 / 2 ^ 53 * D) → m.1 ≤ 0) ∧ Near ((4 * |b.h - a.h| + 12) / 2 ^ 53) m.2 (b.h - a.h) := by
  intro D ahead m
  have h := C122.rel hfl
  have hR := rounds_double.2 hfl
  have hlo := C109.piD_lo
  obtain ⟨a1, a2⟩ := abs_le.1 ha
  have hw : wrapD fl a.h = a.h := C109.double_fixed fl (by linarith) (by linarith)
  obtain ⟨h1, h2, h3⟩ := base_err h ht a b hw (fun x hx => hR.ge (isFloat_zero 53) hx)
  rw [norm_eq_sqrt, mul_one_div] at h1
  rw [norm_eq_sqrt, mul_one_div] at h2 h3
  refine ⟨h1, h2, h3, ?_⟩
  have h4 : |fl (b.h - a.h) - (b.h - a.h)| ≤ 1 * (1 / 2 ^ 53) * |b.h - a.h| := exact0 h _
  obtain ⟨n, hn⟩ := C122.wrapped hfl (by norm_num) h4 le_rfl
  refine ⟨n, hn.trans ?_⟩
  apply div_le_div_of_nonneg_right _ (by positivity)
  linarith [abs_nonneg (b.h - a.h)]

/-- The hypotheses can be met: an arithmetic, a library, a drive and a journey of a thousand steps. -/
example : RoundsToNearest round53 ∧ Trig 53 (fun a => round53 (Real.cos a)) (fun a => round53 (Real.sin a)) ∧
    (make 0.5 0.125).radius ≠ 0 ∧ (make 0.5 0.125).bias ≠ 0 ∧ IsDouble (make 0.5 0.125).radius ∧ IsDouble 3 ∧
    (List.replicate 1000 ((1 : ℝ), (1.5 : ℝ))).length ≤ 2 ^ 43 ∧
    way ((List.replicate 1000 ((1 : ℝ), (1.5 : ℝ))).map fun w => motion 0.125 0.5 w.1 w.2) = 156.25 ∧
    turned ((List.replicate 1000 ((1 : ℝ), (1.5 : ℝ))).map fun w => motion 0.125 0.5 w.1 w.2) = 125 := by
  refine ⟨round53_nearest, (C119.good (by norm_num) (rounds_double.2 round53_nearest)).1, by norm_num [make],
    by norm_num [make], ⟨1, -3, by norm_num, by norm_num [make]⟩, ⟨3, 0, by norm_num, by norm_num⟩,
    by rw [List.length_replicate]; norm_num, ?_, ?_⟩
  · rw [way, List.map_replicate, List.map_replicate, List.sum_replicate]
    simp only [motion]
    rw [show (0.125 * (1 + 1.5) / 2 : ℝ) ^ 2 + 0 ^ 2 = 0.15625 ^ 2 by norm_num, Real.sqrt_sq (by norm_num)]
    norm_num
  · rw [turned, List.map_replicate, List.map_replicate, List.sum_replicate]
    simp only [motion]
    rw [abs_of_nonneg (by norm_num)]
    norm_num

/-- A product of two doubles that is not a double. -/
example : IsDouble (1 + 1 / 2 ^ 30) ∧ ¬ IsDouble ((1 + 1 / 2 ^ 30) * (1 + 1 / 2 ^ 30)) := by
  refine ⟨⟨2 ^ 30 + 1, -30, by norm_num, by norm_num⟩, fun h => ?_⟩
  have e : ((1 : ℝ) + 1 / 2 ^ 30) * (1 + 1 / 2 ^ 30) = ((2 ^ 60 + 2 ^ 31 + 1 : ℤ) : ℝ) * 2 ^ (-60 : ℤ) := by
    norm_num
  rw [e] at h
  have := odd_small (p := 53) (by decide) h
  norm_num at this

end Ecl.Props
