import Verif.Lemmas.SegmentFloat
import Verif.Lemmas.Double
import Verif.Lemmas.Single
import Verif.Props.C60_C61_Segment

/-! # C116: distances to segments and paths, with rounding -/
set_option autoImplicit false
set_option linter.unusedSimpArgs false

namespace Ecl.Props
open Ecl Ecl.Odometry Ecl.Spec
open Ecl.SegmentFloat
open Ecl.PolyFloat (round_to)

namespace C116

/-- Every position is within the square. -/
def Within (M : ℝ) (l : List Pose) : Prop := ∀ q ∈ l, |q.x| ≤ M ∧ |q.y| ≤ M

theorem len_eq (x y px py : ℝ) : len (x - px) (y - py) = Real.sqrt (sqDist (x, y) (px, py)) := rfl

/-- Running minima that are close. -/
def Close (ε M : ℝ) : Option ℝ → Option ℝ → Prop
  | none, none => True
  | some a, some b => |Real.sqrt a - Real.sqrt b| ≤ ε ∧ Real.sqrt b ≤ 3 * M ∧ 0 ≤ a ∧ 0 ≤ b
  | _, _ => False

theorem close_keep {ε M : ℝ} {o o' : Option ℝ} {d d' : ℝ} (h : Close ε M o o') (h' : Close ε M (some d) (some d')) :
    Close ε M (keepLess o d) (keepLess o' d') := by
  cases o with
  | none =>
    cases o' with
    | none => exact h'
    | some b' => exact absurd h id
  | some b =>
    cases o' with
    | none => exact absurd h id
    | some b' =>
      obtain ⟨h1, h2, h3, h4⟩ := h
      obtain ⟨g1, g2, g3, g4⟩ := h'
      unfold keepLess
      dsimp only
      split_ifs with c1 c2 c2
      · exact ⟨g1, g2, g3, g4⟩
      · have e1 := Real.sqrt_le_sqrt c1.le
        have e2 := Real.sqrt_le_sqrt (not_lt.1 c2)
        refine ⟨?_, h2, g3, h4⟩
        rw [abs_le] at *
        constructor <;> linarith
      · have e1 := Real.sqrt_le_sqrt (not_lt.1 c1)
        have e2 := Real.sqrt_le_sqrt c2.le
        refine ⟨?_, g2, h3, g4⟩
        rw [abs_le] at *
        constructor <;> linarith
      · exact ⟨h1, h2, h3, h4⟩

theorem loop_close {fl : ℝ → ℝ} (hfl : Rounds 53 fl) {M x y : ℝ} (hx : |x| ≤ M) (hy : |y| ≤ M) :
    ∀ (rest : List Pose) (q : Pose) (o o' : Option ℝ), Within M (q :: rest) → Close (55 / 2 ^ 53 * M) M o o' →
      Close (55 / 2 ^ 53 * M) M (SegmentFloat.distanceLoop fl x y q rest o) (Odometry.distanceLoop x y q rest o') := by
  intro rest
  induction rest with
  | nil => intro q o o' _ h; exact h
  | cons r rest ih =>
    intro q o o' hw h
    have hq := hw q (by simp)
    have hr := hw r (by simp)
    refine ih r _ _ (fun s hs => hw s (List.mem_cons_of_mem _ hs)) (close_keep h ?_)
    obtain ⟨h1, h2⟩ := segment_error hfl (by norm_num) hq.1 hq.2 hr.1 hr.2 hx hy
    refine ⟨h1, h2, squares_nonneg hfl (by norm_num) _ _ _ _, ?_⟩
    obtain ⟨s, _, e⟩ := (C60_segment q.x q.y r.x r.y x y).1
    rw [e]
    exact sqDist_nonneg _ _

/-- The norm of a difference. -/
theorem norm_error {p : ℕ} {fs : ℝ → ℝ} (hfs : Rounds p fs) (hp : 10 ≤ p) (x y px py : ℝ) :
    |fs (Real.sqrt (squares fs x y px py)) - Real.sqrt (sqDist (x, y) (px, py))| ≤
      6 / 2 ^ p * Real.sqrt (sqDist (x, y) (px, py)) := by
  have h1 := sqrt_squares hfs hp x y px py
  have h2 := hfs.relative (by omega) (Real.sqrt (squares fs x y px py))
  have h0 := len_nonneg (x - px) (y - py)
  have hs := Real.sqrt_nonneg (squares fs x y px py)
  rw [← len_eq]
  have hu : (1 : ℝ) / 2 ^ p ≤ 1 / 1000 := by
    have : (2 : ℝ) ^ 10 ≤ 2 ^ p := pow_le_pow_right₀ (by norm_num) hp
    exact one_div_le_one_div_of_le (by norm_num) (by norm_num at this ⊢; linarith)
  have hu0 : (0 : ℝ) ≤ 1 / 2 ^ p := by positivity
  rw [abs_of_nonneg hs, div_eq_mul_one_div] at h2
  rw [show (4.01 : ℝ) / 2 ^ p = 4.01 * (1 / 2 ^ p) by ring] at h1
  rw [show (6 : ℝ) / 2 ^ p = 6 * (1 / 2 ^ p) by ring]
  generalize Real.sqrt (squares fs x y px py) = s at *
  generalize len (x - px) (y - py) = l at *
  generalize (1 : ℝ) / 2 ^ p = u at *
  have h3 := abs_sub_le (fs s) s l
  have h4 := (abs_le.1 h1).2
  have h5 : u * l * u ≤ u * l * (1 / 1000) := mul_le_mul_of_nonneg_left hu (by positivity)
  have h6 : s * u ≤ (l + 4.01 * u * l) * u := mul_le_mul_of_nonneg_right (by linarith) hu0
  have h7 : 0 ≤ u * l := by positivity
  nlinarith

/-- A vertex where a segment starts. -/
theorem start_zero {fl : ℝ → ℝ} (hfl : Rounds 53 fl) {x1 y1 x2 y2 : ℝ} (hx : IsFloat 53 x1) (hy : IsFloat 53 y1) :
    squaredDistance fl x1 y1 x2 y2 x1 y1 = 0 := by
  have z0 : fl 0 = 0 := hfl.self (isFloat_zero 53)
  have ex := hfl.self hx
  have ey := hfl.self hy
  have hn : SegmentFloat.nearest fl x1 y1 x2 y2 x1 y1 = (x1, y1) := by
    unfold SegmentFloat.nearest
    simp only [sub_self, z0, zero_mul, add_zero, zero_div]
    generalize fl (fl (fl (x2 - x1) * fl (x2 - x1)) + fl (fl (y2 - y1) * fl (y2 - y1))) = S
    by_cases h : S = 0
    · rw [if_neg (not_not.2 h), if_pos (by norm_num)]
    · rw [if_pos h, if_neg (by norm_num), if_neg (by norm_num)]
      simp only [zero_mul, z0, add_zero, ex, ey]
  unfold squaredDistance
  rw [hn]
  unfold squares
  simp only [sub_self, z0, mul_zero, add_zero]

end C116
open C116

/-- **C116.** The distance from a point to a trajectory of two or more poses is that to the nearest point of the
polyline, to within `64 * M / 2 ^ 53`, when all coordinates are at most `M`. -/
theorem C116_path {fl fs : ℝ → ℝ} (hfl : Rounds 53 fl) (mode : Mode) {M x y : ℝ} (trajectory : List Pose)
    (h2 : 2 ≤ trajectory.length) (hx : |x| ≤ M) (hy : |y| ≤ M)
    (hM : ∀ q ∈ trajectory, |q.x| ≤ M ∧ |q.y| ≤ M) :
    ∃ c d, SegmentFloat.distance fl fs mode x y trajectory = .ok (some c) ∧
      IsLeast {e | ∃ r, OnPolyline (trajectory.map fun q => (q.x, q.y)) r ∧ e = Real.sqrt (sqDist (x, y) r)} d ∧
      |c - d| ≤ 64 * M / 2 ^ 53 := by
  obtain ⟨d, hd1, hd2⟩ := C60_path mode x y trajectory (by intro h; rw [h] at h2; simp at h2)
  match trajectory, h2 with
  | q :: r :: rest, _ =>
    have hc := loop_close hfl hx hy (r :: rest) q none none hM trivial
    simp only [Odometry.distance] at hd1
    simp only [SegmentFloat.distance]
    generalize SegmentFloat.distanceLoop fl x y q (r :: rest) none = o at *
    generalize Odometry.distanceLoop x y q (r :: rest) none = o' at *
    cases o' with
    | none => simp at hd1
    | some b =>
      cases o with
      | none => exact absurd hc id
      | some a =>
        refine ⟨fl (Real.sqrt a), d, rfl, hd2, ?_⟩
        have hd : Real.sqrt b = d := by simpa using hd1
        obtain ⟨h1, h2, -, -⟩ := hc
        rw [hd] at h1 h2
        have h3 := hfl.relative (by norm_num) (Real.sqrt a)
        have h0 := Real.sqrt_nonneg a
        rw [abs_of_nonneg h0] at h3
        have hM0 : 0 ≤ M := (abs_nonneg x).trans hx
        generalize Real.sqrt a = s at *
        have h4 := abs_sub_le (fl s) s d
        have h5 := (abs_le.1 h1).2
        have h6 : s / 2 ^ 53 ≤ (3 * M + 55 / 2 ^ 53 * M) / 2 ^ 53 :=
          div_le_div_of_nonneg_right (by linarith) (by positivity)
        have h7 : (3 * M + 55 / 2 ^ 53 * M) / 2 ^ 53 ≤ 4 * M / 2 ^ 53 := by
          refine div_le_div_of_nonneg_right ?_ (by positivity)
          norm_num
          linarith
        have e : 64 * M / 2 ^ 53 = 55 / 2 ^ 53 * M + 4 * M / 2 ^ 53 + 5 * M / 2 ^ 53 := by ring
        have : 0 ≤ 5 * M / 2 ^ 53 := by positivity
        linarith

example : ∃ (fl : ℝ → ℝ) (c d : ℝ), Rounds 53 fl ∧
    SegmentFloat.distance fl fl .release 1 3 [⟨0, 0, 0⟩, ⟨2, 0, 0⟩, ⟨2, 4, 0⟩] = .ok (some c) ∧ d ≤ 1 ∧
      |c - d| ≤ 1 / 2 ^ 45 := by
  have hfl := rounds_double.2 round53_nearest
  obtain ⟨c, d, h1, h2, h3⟩ := C116_path (fs := _) hfl .release (M := 4) (x := 1) (y := 3)
    [⟨0, 0, 0⟩, ⟨2, 0, 0⟩, ⟨2, 4, 0⟩] (by simp) (by norm_num) (by norm_num) (by
      intro q hq
      fin_cases hq <;> norm_num)
  refine ⟨_, c, d, hfl, h1, ?_, h3.trans (by norm_num)⟩
  refine h2.2 ⟨(2, 3), Or.inr (Or.inl ⟨3 / 4, by norm_num, by norm_num, ?_⟩), ?_⟩
  · norm_num
  · norm_num [sqDist]

/-- **C116.** A trajectory of one pose is treated in single precision: the relative error is at most `6 / 2 ^ 24`. -/
theorem C116_single {fl fs : ℝ → ℝ} (hfs : Rounds 24 fs) (mode : Mode) (x y : ℝ) (q : Pose) :
    ∃ c, SegmentFloat.distance fl fs mode x y [q] = .ok (some c) ∧
      |c - Real.sqrt (sqDist (x, y) (q.x, q.y))| ≤ 6 / 2 ^ 24 * Real.sqrt (sqDist (x, y) (q.x, q.y)) :=
  ⟨_, rfl, norm_error hfs (by norm_num) _ _ _ _⟩

/-- **C116.** So are distances and squared distances of two poses; both are zero exactly when the positions agree. -/
theorem C116_poses {fs : ℝ → ℝ} (hfs : Rounds 24 fs) (ax ay bx by' : ℝ) :
    |distance2 fs ax ay bx by' - Real.sqrt (sqDist (ax, ay) (bx, by'))| ≤
      6 / 2 ^ 24 * Real.sqrt (sqDist (ax, ay) (bx, by')) ∧
    |distanceSquared2 fs ax ay bx by' - sqDist (ax, ay) (bx, by')| ≤ 5 / 2 ^ 24 * sqDist (ax, ay) (bx, by') ∧
    (distance2 fs ax ay bx by' = 0 ↔ (ax, ay) = (bx, by')) ∧
    (distanceSquared2 fs ax ay bx by' = 0 ↔ (ax, ay) = (bx, by')) := by
  have h1 := norm_error hfs (by norm_num) ax ay bx by'
  have h2 : |distanceSquared2 fs ax ay bx by' - sqDist (ax, ay) (bx, by')| ≤ 5 / 2 ^ 24 * sqDist (ax, ay) (bx, by') := by
    have h := squares_error hfs (by norm_num) ax ay bx by'
    rw [len_sq] at h
    refine h.trans (mul_le_mul_of_nonneg_right ?_ (by positivity))
    norm_num
  have h0 := sqDist_nonneg (ax, ay) (bx, by')
  have hz : sqDist (ax, ay) (bx, by') = 0 ↔ (ax, ay) = (bx, by') := by
    unfold sqDist
    constructor
    · intro h
      have e1 : ax - bx = 0 := by nlinarith [sq_nonneg (ax - bx), sq_nonneg (ay - by')]
      have e2 : ay - by' = 0 := by nlinarith [sq_nonneg (ax - bx), sq_nonneg (ay - by')]
      rw [sub_eq_zero.1 e1, sub_eq_zero.1 e2]
    · intro h
      cases h
      simp
  have rel {c k d : ℝ} (hk : k < 1) (hd : 0 ≤ d) (h : |c - d| ≤ k * d) : c = 0 ↔ d = 0 := by
    constructor
    · rintro rfl
      rw [zero_sub, abs_neg, abs_of_nonneg hd] at h
      nlinarith
    · rintro rfl
      rw [mul_zero, sub_zero] at h
      exact abs_eq_zero.1 (le_antisymm h (abs_nonneg _))
  refine ⟨h1, h2, ?_, ?_⟩
  · rw [← hz, ← Real.sqrt_eq_zero h0]
    exact rel (by norm_num) (Real.sqrt_nonneg _) h1
  · rw [← hz]
    exact rel (by norm_num) h0 h2

example : ∃ fs : ℝ → ℝ, Rounds 24 fs ∧ |distance2 fs 0 0 3 4 - 5| ≤ 30 / 2 ^ 24 := by
  have hfs := rounds_single.2 round24_nearest
  refine ⟨_, hfs, ?_⟩
  have h := (C116_poses hfs 0 0 3 4).1
  have e : Real.sqrt (sqDist (0, 0) (3, 4)) = 5 := by
    rw [show sqDist (0, 0) (3, 4) = 5 ^ 2 by norm_num [sqDist]]
    exact Real.sqrt_sq (by norm_num)
  rw [e] at h
  exact h.trans (by norm_num)

/-- **C116.** At every vertex but the last the distance is exactly zero. -/
theorem C116_vertex {fl fs : ℝ → ℝ} (hfl : Rounds 53 fl) (mode : Mode) (before after : List Pose) (q : Pose)
    (h : after ≠ []) (hx : IsFloat 53 q.x) (hy : IsFloat 53 q.y) :
    SegmentFloat.distance fl fs mode q.x q.y (before ++ q :: after) = .ok (some 0) := by
  have nonneg (a b c d x y : ℝ) : 0 ≤ squaredDistance fl a b c d x y := squares_nonneg hfl (by norm_num) _ _ _ _
  have stays : ∀ (l : List Pose) (r : Pose), SegmentFloat.distanceLoop fl q.x q.y r l (some 0) = some 0 := by
    intro l
    induction l with
    | nil => intro r; rfl
    | cons s l ih =>
      intro r
      simp only [SegmentFloat.distanceLoop]
      rw [show keepLess (some 0) (squaredDistance fl r.x r.y s.x s.y q.x q.y) = some 0 from if_neg (not_lt.2 (nonneg _ _ _ _ _ _))]
      exact ih s
  have here (o : Option ℝ) (ho : ∀ b, o = some b → 0 ≤ b) : SegmentFloat.distanceLoop fl q.x q.y q after o = some 0 := by
    cases after with
    | nil => exact absurd rfl h
    | cons s l =>
      simp only [SegmentFloat.distanceLoop]
      rw [start_zero hfl hx hy]
      have : keepLess o 0 = some 0 := by
        cases o with
        | none => rfl
        | some b =>
          unfold keepLess
          dsimp only
          split_ifs with hb
          · rfl
          · rw [le_antisymm (not_lt.1 hb) (ho b rfl)]
      rw [this]
      exact stays l s
  have reach : ∀ (l : List Pose) (r : Pose) (o : Option ℝ), (∀ b, o = some b → 0 ≤ b) →
      SegmentFloat.distanceLoop fl q.x q.y r (l ++ q :: after) o = some 0 := by
    intro l
    induction l with
    | nil =>
      intro r o ho
      simp only [List.nil_append, SegmentFloat.distanceLoop]
      refine here _ ?_
      intro b hb
      cases o with
      | none => cases hb; exact nonneg _ _ _ _ _ _
      | some b' =>
        unfold keepLess at hb
        dsimp only at hb
        split_ifs at hb
        · cases hb; exact nonneg _ _ _ _ _ _
        · cases hb; exact ho _ rfl
    | cons s l ih =>
      intro r o ho
      simp only [List.cons_append, SegmentFloat.distanceLoop]
      refine ih s _ ?_
      intro b hb
      cases o with
      | none => cases hb; exact nonneg _ _ _ _ _ _
      | some b' =>
        unfold keepLess at hb
        dsimp only at hb
        split_ifs at hb
        · cases hb; exact nonneg _ _ _ _ _ _
        · cases hb; exact ho _ rfl
  have z0 : fl 0 = 0 := hfl.self (isFloat_zero 53)
  cases before with
  | nil =>
    cases after with
    | nil => exact absurd rfl h
    | cons s l =>
      simp only [List.nil_append, SegmentFloat.distance]
      rw [here none (by simp)]
      simp [z0]
  | cons r l =>
    have e := reach l r none (by simp)
    cases l with
    | nil =>
      simp only [List.cons_append, List.nil_append, SegmentFloat.distance] at e ⊢
      rw [e]
      simp [z0]
    | cons s l =>
      simp only [List.cons_append, SegmentFloat.distance] at e ⊢
      rw [e]
      simp [z0]

example : ∃ (fl : ℝ → ℝ), Rounds 53 fl ∧
    SegmentFloat.distance fl fl .release 2 0 [⟨0, 0, 0⟩, ⟨2, 0, 0⟩, ⟨2, 4, 0⟩] = .ok (some 0) := by
  have hfl := rounds_double.2 round53_nearest
  refine ⟨_, hfl, C116_vertex hfl .release [⟨0, 0, 0⟩] [⟨2, 4, 0⟩] ⟨2, 0, 0⟩ (by simp) ?_ (isFloat_zero 53)⟩
  exact_mod_cast isFloat_nat (p := 53) (n := 2) (by norm_num) (by norm_num)

/-- The distance is not exact: a point on the segment, with integer coordinates, gets a distance that is not zero. -/
theorem C116_fails_on_segment {fl fs : ℝ → ℝ} (hfl : Rounds 53 fl) (mode : Mode) :
    OnPolyline [(0, 0), (49, 0)] (1, 0) ∧
    SegmentFloat.distance fl fs mode 1 0 [⟨0, 0, 0⟩, ⟨49, 0, 0⟩] = .ok (some (1 / 2 ^ 53)) := by
  constructor
  · left
    exact ⟨1 / 49, by norm_num, by norm_num, by norm_num⟩
  · have z0 : fl 0 = 0 := hfl.self (isFloat_zero 53)
    have nat (n : ℕ) (h : n ≤ 2 ^ 53) : fl n = n := hfl.self (isFloat_nat (by norm_num) h)
    have n1 : fl 1 = 1 := by exact_mod_cast nat 1 (by norm_num)
    have n49 : fl 49 = 49 := by exact_mod_cast nat 49 (by norm_num)
    have n2401 : fl 2401 = 2401 := by exact_mod_cast nat 2401 (by norm_num)
    have hq : fl (49 / 2401) = 5882252574524729 / 2 ^ 58 := by
      rw [round_to hfl (by norm_num) 5882252574524729 (-58) (by norm_num) (by norm_num) (by norm_num [abs_lt])]
      norm_num
    have hm : fl (5882252574524729 / 2 ^ 58 * 49) = 1 - 1 / 2 ^ 53 := by
      rw [round_to hfl (by norm_num) (2 ^ 53 - 1) (-53) (by norm_num) (by norm_num) (by norm_num [abs_lt])]
      norm_num
    have hself : fl (1 - 1 / 2 ^ 53) = 1 - 1 / 2 ^ 53 := by
      rw [← hm]
      exact hfl.self (hfl _).1
    have hpow (k : ℤ) : fl ((2 : ℝ) ^ k) = 2 ^ k := by
      have := hfl.self (isFloat_grid (p := 53) (by norm_num) (k := 1) (E := k) (by norm_num))
      simpa using this
    have p53 : fl (1 / 2 ^ 53) = 1 / 2 ^ 53 := by
      have := hpow (-53)
      norm_num at this ⊢
      exact this
    have p106 : fl (1 / 2 ^ 53 * (1 / 2 ^ 53)) = 1 / 2 ^ 53 * (1 / 2 ^ 53) := by
      have := hpow (-106)
      norm_num at this ⊢
      exact this
    have hn : SegmentFloat.nearest fl 0 0 49 0 1 0 = (1 - 1 / 2 ^ 53, 0) := by
      unfold SegmentFloat.nearest
      simp only [sub_zero, n1, n49, z0, one_mul, mul_zero, add_zero]
      rw [show (49 : ℝ) * 49 = 2401 by norm_num, n2401]
      simp only [n49, n2401]
      rw [if_pos (show (2401 : ℝ) ≠ 0 by norm_num), hq, if_neg (by norm_num), if_neg (by norm_num), hm, zero_add, hself]
    have hd : squaredDistance fl 0 0 49 0 1 0 = (1 / 2 ^ 53) ^ 2 := by
      unfold squaredDistance
      rw [hn]
      unfold squares
      dsimp only
      rw [show (1 : ℝ) - (1 - 1 / 2 ^ 53) = 1 / 2 ^ 53 by ring, p53, p106]
      simp only [sub_zero, z0, mul_zero, add_zero]
      rw [p106, pow_two]
    simp only [SegmentFloat.distance, SegmentFloat.distanceLoop]
    rw [hd]
    simp only [keepLess, Option.map_some]
    rw [Real.sqrt_sq (by positivity), p53]

/-- At the last vertex the distance need not be zero. -/
theorem C116_fails_at_end {fl fs : ℝ → ℝ} (hfl : Rounds 53 fl) (mode : Mode) :
    SegmentFloat.distance fl fs mode (1 / 2 ^ 60) 0 [⟨1, 0, 0⟩, ⟨1 / 2 ^ 60, 0, 0⟩] = .ok (some (1 / 2 ^ 60)) := by
  have z0 : fl 0 = 0 := hfl.self (isFloat_zero 53)
  have hpow (k : ℤ) : fl ((2 : ℝ) ^ k) = 2 ^ k := by
    have := hfl.self (isFloat_grid (p := 53) (by norm_num) (k := 1) (E := k) (by norm_num))
    simpa using this
  have n1 : fl 1 = 1 := by simpa using hpow 0
  have hm : fl (1 / 2 ^ 60 - 1) = -1 := by
    have h := round_to hfl.flip (by norm_num) (x := 1 - 1 / 2 ^ 60) (2 ^ 53) (-53) (by norm_num) (by norm_num)
      (by norm_num [abs_lt])
    have e : -(1 - 1 / 2 ^ 60 : ℝ) = 1 / 2 ^ 60 - 1 := by ring
    simp only [e] at h
    norm_num at h ⊢
    linarith
  have nm1 : fl (-1) = -1 := by
    rw [← hm]
    exact hfl.self (hfl _).1
  have p60 : fl (1 / 2 ^ 60) = 1 / 2 ^ 60 := by
    have := hpow (-60)
    norm_num at this ⊢
    exact this
  have p120 : fl (1 / 2 ^ 60 * (1 / 2 ^ 60)) = 1 / 2 ^ 60 * (1 / 2 ^ 60) := by
    have := hpow (-120)
    norm_num at this ⊢
    exact this
  have hn : SegmentFloat.nearest fl 1 0 (1 / 2 ^ 60) 0 (1 / 2 ^ 60) 0 = (0, 0) := by
    unfold SegmentFloat.nearest
    simp only [hm, sub_self, z0, mul_zero, add_zero, mul_neg, neg_mul, neg_neg, mul_one, n1]
    rw [if_pos (one_ne_zero : (1 : ℝ) ≠ 0)]
    simp only [div_one, n1]
    rw [if_neg (by norm_num), if_neg (by norm_num), nm1]
    simp [z0]
  have hd : squaredDistance fl 1 0 (1 / 2 ^ 60) 0 (1 / 2 ^ 60) 0 = (1 / 2 ^ 60) ^ 2 := by
    unfold squaredDistance
    rw [hn]
    unfold squares
    simp only [sub_zero, p60, p120, z0, mul_zero, add_zero]
    rw [pow_two]
  simp only [SegmentFloat.distance, SegmentFloat.distanceLoop]
  rw [hd]
  simp only [keepLess, Option.map_some]
  rw [Real.sqrt_sq (by positivity), p60]

end Ecl.Props
