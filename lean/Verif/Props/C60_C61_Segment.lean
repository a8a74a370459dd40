import Verif.Model.Odometry
import Verif.Spec.Plane
import Mathlib.Tactic.Linarith
import Mathlib.Tactic.FieldSimp
import Mathlib.Tactic.Ring
import Mathlib.Tactic.LinearCombination
import Mathlib.Order.Bounds.Basic

/-! # C60, C61: segments and paths -/
set_option autoImplicit false
set_option linter.unusedSimpArgs false

namespace Ecl.Props
open Ecl Ecl.Segment Ecl.Odometry Ecl.Spec

theorem make_ends (x1 y1 x2 y2 : ℝ) :
    (make x1 y1 x2 y2).x1 = x1 ∧ (make x1 y1 x2 y2).y1 = y1 ∧ (make x1 y1 x2 y2).x2 = x2 ∧
    (make x1 y1 x2 y2).y2 = y2 := by
  unfold make; split <;> exact ⟨rfl, rfl, rfl, rfl⟩

/-- **C60.** `squaredDistanceFromPoint` is the least squared distance from the point to a point of the
segment. -/
theorem C60_segment (x1 y1 x2 y2 x y : ℝ) :
    IsLeast {d | ∃ r, OnSegment (x1, y1) (x2, y2) r ∧ d = sqDist (x, y) r}
      (squaredDistanceFromPoint (make x1 y1 x2 y2) x y) := by
  obtain ⟨e1, e2, e3, e4⟩ := make_ends x1 y1 x2 y2
  unfold squaredDistanceFromPoint nearest
  simp only [e1, e2, e3, e4]
  generalize hdx : x2 - x1 = dx
  generalize hdy : y2 - y1 = dy
  have key : ∀ t : ℝ, sqDist (x, y) (x1 + t * dx, y1 + t * dy) =
      (x - x1) ^ 2 + (y - y1) ^ 2 - 2 * t * ((x - x1) * dx + (y - y1) * dy) + t ^ 2 * (dx * dx + dy * dy) := by
    intro t; simp only [sqDist]; ring
  have hL : 0 ≤ dx * dx + dy * dy := add_nonneg (mul_self_nonneg _) (mul_self_nonneg _)
  generalize hdot : (x - x1) * dx + (y - y1) * dy = dot at key
  have suff : ∀ t : ℝ, 0 ≤ t → t ≤ 1 →
      (∀ u : ℝ, 0 ≤ u → u ≤ 1 → - 2 * t * dot + t ^ 2 * (dx * dx + dy * dy) ≤ - 2 * u * dot + u ^ 2 * (dx * dx + dy * dy)) →
      ∀ d, d = sqDist (x, y) (x1 + t * dx, y1 + t * dy) →
      IsLeast {d | ∃ r, OnSegment (x1, y1) (x2, y2) r ∧ d = sqDist (x, y) r} d := by
    intro t h0 h1 hmin d hd
    constructor
    · exact ⟨_, ⟨t, h0, h1, rfl⟩, by rw [hd]; simp only [hdx, hdy]⟩
    · rintro _ ⟨r, ⟨u, hu0, hu1, rfl⟩, rfl⟩
      simp only [hdx, hdy]
      rw [hd, key, key]
      have := hmin u hu0 hu1
      linarith
  by_cases hz : dx * dx + dy * dy = 0
  · have hdot0 : dot = 0 := by
      have h1 : dx = 0 := by nlinarith [mul_self_nonneg dx, mul_self_nonneg dy]
      have h2 : dy = 0 := by nlinarith [mul_self_nonneg dx, mul_self_nonneg dy]
      rw [← hdot, h1, h2]; ring
    simp only [hz, ne_eq, not_true, if_false]
    rw [if_pos (by norm_num)]
    refine suff 0 (le_refl _) zero_le_one ?_ _ ?_
    · intro u _ _; rw [hdot0, hz]; simp
    · simp only [sqDist]; ring
  · have hpos : 0 < dx * dx + dy * dy := lt_of_le_of_ne hL (Ne.symm hz)
    have hz' : (dx * dx + dy * dy ≠ 0) := hz
    simp only [if_pos hz']
    generalize dx * dx + dy * dy = L at *
    split
    · rename_i ht
      have hd : dot < 0 := by
        by_contra h
        exact absurd (div_nonneg (not_lt.1 h) hL) (not_le.2 ht)
      refine suff 0 (le_refl _) zero_le_one ?_ _ ?_
      · intro u hu _
        have : 0 ≤ u ^ 2 * L := mul_nonneg (sq_nonneg _) hL
        nlinarith
      · simp only [sqDist]; ring
    · split
      · rename_i _ ht
        have hd : L < dot := by rwa [gt_iff_lt, lt_div_iff₀ hpos, one_mul] at ht
        refine suff 1 zero_le_one (le_refl _) ?_ _ ?_
        · intro u hu hu1
          have h1 : 0 ≤ (1 - u) * (dot - L) := mul_nonneg (by linarith) (by linarith)
          have h2 : 0 ≤ (1 - u) * (1 - u) * L := mul_nonneg (mul_self_nonneg _) hL
          nlinarith
        · simp only [sqDist, ← hdx, ← hdy]; ring
      · rename_i h1 h2
        refine suff (dot / L) (not_lt.1 h1) (not_lt.1 h2) ?_ _ ?_
        · intro u _ _
          have e : dot / L * L = dot := div_mul_cancel₀ _ hpos.ne'
          have h2 : 0 ≤ (u - dot / L) ^ 2 * L := mul_nonneg (sq_nonneg _) hL
          generalize dot / L = q at *
          rw [← e]
          nlinarith
        · simp only [sqDist]; ring

/-- A degenerate and a proper segment. -/
example : squaredDistanceFromPoint (make 1 1 1 1) 4 5 = 25 ∧
    squaredDistanceFromPoint (make 0 0 2 0) 1 3 = 9 := by
  constructor
  · norm_num [squaredDistanceFromPoint, nearest, make]
  · norm_num [squaredDistanceFromPoint, nearest, make]

theorem sqDist_nonneg (p q : ℝ × ℝ) : 0 ≤ sqDist p q := add_nonneg (sq_nonneg _) (sq_nonneg _)

/-- The smallest of the start value and the squared distances to the segments. -/
theorem distanceLoop_spec (x y : ℝ) : ∀ (rest : List Pose) (p : Pose) (best : Option ℝ),
    (rest ≠ [] ∨ best ≠ none) →
    ∃ d, distanceLoop x y p rest best = some d ∧
      IsLeast {e | best = some e ∨ (rest ≠ [] ∧ ∃ r, OnPolyline ((p :: rest).map fun q => (q.x, q.y)) r ∧
        e = sqDist (x, y) r)} d := by
  intro rest
  induction rest with
  | nil =>
    intro p best h
    cases best with
    | none => simp at h
    | some b =>
      refine ⟨b, rfl, Or.inl rfl, ?_⟩
      rintro e (h1 | h1)
      · cases h1; exact le_refl _
      · exact absurd rfl h1.1
  | cons q rest ih =>
    intro p best _
    have hseg := C60_segment p.x p.y q.x q.y x y
    generalize hs : squaredDistanceFromPoint (make p.x p.y q.x q.y) x y = s at hseg
    obtain ⟨b, hb1, hb2⟩ : ∃ b, keepLess best s = some b ∧ IsLeast {e | best = some e ∨ e = s} b := by
      cases best with
      | none => exact ⟨s, rfl, Or.inr rfl, by rintro e (h | h); · cases h
                                              · exact h.symm.le⟩
      | some b0 =>
        by_cases hlt : b0 > s
        · refine ⟨s, by simp [keepLess, hlt], Or.inr rfl, ?_⟩
          rintro e (h | h)
          · cases h; exact hlt.le
          · exact h.symm.le
        · refine ⟨b0, by simp [keepLess, hlt], Or.inl rfl, ?_⟩
          rintro e (h | h)
          · cases h; exact le_refl _
          · rw [h]; exact not_lt.1 hlt
    obtain ⟨d, hd1, hd2, hd3⟩ := ih q (keepLess best s) (Or.inr (by rw [hb1]; simp))
    refine ⟨d, by rw [distanceLoop, hs]; exact hd1, ?_, ?_⟩
    · rcases hd2 with h | ⟨h1, r, h2, h3⟩
      · rw [hb1] at h; cases h
        rcases hb2.1 with h | h
        · exact Or.inl h
        · right
          refine ⟨by simp, ?_⟩
          obtain ⟨r, hr1, hr2⟩ := hseg.1
          exact ⟨r, Or.inl hr1, h.trans hr2⟩
      · right
        exact ⟨by simp, r, Or.inr h2, h3⟩
    · rintro e (h | ⟨_, r, h2, h3⟩)
      · exact le_trans (hd3 (Or.inl hb1)) (hb2.2 (Or.inl h))
      · rcases h2 with h2 | h2
        · exact le_trans (le_trans (hd3 (Or.inl hb1)) (hb2.2 (Or.inr rfl))) (hseg.2 ⟨r, h2, h3⟩)
        · cases rest with
          | nil =>
            -- the polyline from `q` on is the point `q`, the end of the segment
            have hr : r = (q.x, q.y) := h2
            refine le_trans (le_trans (hd3 (Or.inl hb1)) (hb2.2 (Or.inr rfl))) (hseg.2 ⟨r, ⟨1, by norm_num, by norm_num, ?_⟩, h3⟩)
            rw [hr]; simp
          | cons q' rest => exact hd3 (Or.inr ⟨by simp, r, h2, h3⟩)

/-- **C60.** `distance` to a trajectory is the least distance to a point of the polyline through its
positions. -/
theorem C60_path (mode : Mode) (x y : ℝ) (trajectory : List Pose) (h : trajectory ≠ []) :
    ∃ d, distance mode x y trajectory = .ok (some d) ∧
      IsLeast {e | ∃ r, OnPolyline (trajectory.map fun q => (q.x, q.y)) r ∧
        e = Real.sqrt (sqDist (x, y) r)} d := by
  match trajectory, h with
  | [p], _ =>
    refine ⟨_, rfl, ⟨_, rfl, ?_⟩, ?_⟩
    · congr 1; simp only [sqDist]; ring
    · rintro e ⟨r, hr, rfl⟩
      have hr' : r = (p.x, p.y) := hr
      rw [hr']
      apply le_of_eq; congr 1; simp only [sqDist]; ring
  | p :: q :: rest, _ =>
    obtain ⟨d, hd1, hd2, hd3⟩ := distanceLoop_spec x y (q :: rest) p none (Or.inl (by simp))
    refine ⟨Real.sqrt d, by rw [distance, hd1]; · rfl
                            · simp, ?_, ?_⟩
    · rcases hd2 with h' | ⟨_, r, h2, h3⟩
      · cases h'
      · exact ⟨r, h2, by rw [h3]⟩
    · rintro e ⟨r, hr, rfl⟩
      exact Real.sqrt_le_sqrt (hd3 (Or.inr ⟨by simp, r, hr, rfl⟩))

/-- **C60.** The distance of a pose to a trajectory is the least distance from its position to a point of the
polyline; its heading does not matter. -/
theorem C60_pose (mode : Mode) (p : Pose) (trajectory : List Pose) (h : trajectory ≠ []) :
    ∃ d, distancePose mode p trajectory = .ok (some d) ∧
      IsLeast {e | ∃ r, OnPolyline (trajectory.map fun q => (q.x, q.y)) r ∧
        e = Real.sqrt (sqDist (p.x, p.y) r)} d :=
  C60_path mode p.x p.y trajectory h

/-- **C60.** An empty trajectory has no distance: the call violates a precondition of Eigen. -/
theorem C60_empty (x y : ℝ) :
    distance .debug x y [] = .abort ∧ distance .release x y [] = .ub := ⟨rfl, rfl⟩

example : ∃ d, distance .release 1 3 [⟨0, 0, 0⟩, ⟨2, 0, 0⟩, ⟨2, 4, 0⟩] = .ok (some d) ∧ d ≤ 1 := by
  obtain ⟨d, h1, h2⟩ := C60_path .release 1 3 [⟨0, 0, 0⟩, ⟨2, 0, 0⟩, ⟨2, 4, 0⟩] (by simp)
  refine ⟨d, h1, h2.2 ⟨(2, 3), Or.inr (Or.inl ⟨3 / 4, by norm_num, by norm_num, ?_⟩), ?_⟩⟩
  · norm_num
  · norm_num [sqDist]

/-- **C61** (segments that are not vertical, and vertical ones on the axis; for the others see
`C61_fails_vertical`).  The line `A*x + B*y + C = 0` contains both end points, and, for a segment that is
not vertical, exactly the points collinear with them. -/
theorem C61_line_partial (x1 y1 x2 y2 : ℝ) (h : x1 ≠ x2 ∨ x1 = 0) :
    (make x1 y1 x2 y2).a * x1 + (make x1 y1 x2 y2).b * y1 + (make x1 y1 x2 y2).c = 0 ∧
    (make x1 y1 x2 y2).a * x2 + (make x1 y1 x2 y2).b * y2 + (make x1 y1 x2 y2).c = 0 ∧
    ∀ x y, (x1, y1) ≠ (x2, y2) →
      ((make x1 y1 x2 y2).a * x + (make x1 y1 x2 y2).b * y + (make x1 y1 x2 y2).c = 0 ↔
        Collinear3 (x1, y1) (x2, y2) (x, y)) := by
  unfold make
  split
  · rename_i e
    have h0 : x1 = 0 := by
      rcases h with h | h
      · exact absurd e.symm h
      · exact h
    subst h0; subst e
    refine ⟨by simp, by simp, ?_⟩
    intro x y hne
    simp only [Collinear3]
    have hy : y2 - y1 ≠ 0 := by
      intro h'
      apply hne
      rw [sub_eq_zero.1 h']
    constructor
    · intro h'; have : x = 0 := by linarith
      rw [this]; ring
    · intro h'
      have : x * (y2 - y1) = 0 := by linarith
      rcases mul_eq_zero.1 this with h1 | h1
      · rw [h1]; ring
      · exact absurd h1 hy
  · rename_i e
    have hd : x2 - x1 ≠ 0 := sub_ne_zero.2 e
    refine ⟨by ring, ?_, ?_⟩
    · simp only; field_simp; ring
    · intro x y _
      simp only [Collinear3]
      constructor
      · intro h'; field_simp at h'; linarith
      · intro h'; field_simp; linarith

/-- The property fails for vertical segments beside the axis: the sign of `C` is wrong. -/
theorem C61_fails_vertical :
    ¬ (∀ x1 y1 x2 y2 : ℝ,
      (make x1 y1 x2 y2).a * x1 + (make x1 y1 x2 y2).b * y1 + (make x1 y1 x2 y2).c = 0) := by
  intro h
  have := h 1 0 1 1
  norm_num [make] at this

/-- **C61.** What a vertical segment gets instead: the coefficients of its mirror image in the axis. -/
theorem C61_vertical (x1 y1 y2 x y : ℝ) :
    (make x1 y1 x1 y2).a * x + (make x1 y1 x1 y2).b * y + (make x1 y1 x1 y2).c = 0 ↔ x = -x1 := by
  unfold make
  rw [if_pos rfl]
  constructor
  · intro h; simp only at h; linarith
  · intro h; simp only; rw [h]; ring

end Ecl.Props
