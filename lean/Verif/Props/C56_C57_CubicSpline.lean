import Verif.Lemmas.CubicSpline

/-! # C56, C57: cubic splines -/
set_option autoImplicit false
set_option linter.unusedSimpArgs false

namespace Ecl.Props
open Ecl Ecl.CubicSpline Ecl.Glue Ecl.Spec

/-- **C56.** The natural cubic spline through at least two points with increasing abscissae is
constructed, passes through every point, is twice continuously differentiable on the whole domain with
`derivative` and `dderivative` as its derivatives, and has no curvature at its ends. -/
theorem C56_natural (mode : Mode) (xs ys : List ℝ) (hlen : xs.length = ys.length) (h2 : 2 ≤ xs.length)
    (hinc : xs.Pairwise (· < ·)) (a b : ℝ) (ha : xs.head? = some a) (hb : xs.getLast? = some b) :
    ∃ s, natural mode xs ys = .ok s ∧
      TwiceSmooth (value mode s) (slope mode s) (curvature mode s) a b ∧
      (∀ (i : ℕ) (hx : i < xs.length) (hy : i < ys.length), value mode s xs[i] = .ok ys[i]) ∧
      curvature mode s a = .ok 0 ∧ curvature mode s b = .ok 0 := by
  obtain ⟨m, hm⟩ : ∃ m, xs.length = m + 2 := ⟨xs.length - 2, by omega⟩
  have hk := knots_of_pairwise hinc (m := m + 1) (by omega)
  have hM := secondDerivatives_spec (y := at' ys) hk (d0 := 0) (u0 := 0) (qn := 0) (un := 0)
    (by norm_num) (by norm_num)
  simp only at hM
  obtain ⟨s, h1, h3, h4, h5, -, -⟩ := applyC2_spec mode hm hk hM.2.2
  refine ⟨s, ?_, ?_, ?_, ?_, ?_⟩
  · unfold natural naturalData
    rw [if_neg (by omega), if_neg (by rintro ⟨-, h⟩; exact h hlen), if_neg (by omega), hm]
    exact h1
  · rw [head_at ha, last_at (m := m + 1) (by omega) hb] at h3; exact h3
  · intro i hx hy
    have := h4 i (by omega)
    rwa [at_getElem hx, at_getElem hy] at this
  · have := h5 0 (by omega)
    rw [head_at ha, hM.1] at this
    simpa using this
  · have := h5 (m + 1) (by omega)
    have e := hM.2.1
    simp only [zero_mul, zero_add] at e
    rw [last_at (m := m + 1) (by omega) hb, e] at this
    exact this

/-- **C56.** The clamped cubic spline likewise, with the requested slopes at its ends. -/
theorem C56_clamped (mode : Mode) (xs ys : List ℝ) (yd0 ydf : ℝ) (hlen : xs.length = ys.length)
    (h2 : 2 ≤ xs.length) (hinc : xs.Pairwise (· < ·)) (a b : ℝ) (ha : xs.head? = some a)
    (hb : xs.getLast? = some b) :
    ∃ s, clamped mode xs ys yd0 ydf = .ok s ∧
      TwiceSmooth (value mode s) (slope mode s) (curvature mode s) a b ∧
      (∀ (i : ℕ) (hx : i < xs.length) (hy : i < ys.length), value mode s xs[i] = .ok ys[i]) ∧
      slope mode s a = .ok yd0 ∧ slope mode s b = .ok ydf := by
  obtain ⟨m, hm⟩ : ∃ m, xs.length = m + 2 := ⟨xs.length - 2, by omega⟩
  have hk := knots_of_pairwise hinc (m := m + 1) (by omega)
  have hM := secondDerivatives_spec (y := at' ys) hk (d0 := -0.5)
    (u0 := (3 / (at' xs 1 - at' xs 0)) * ((at' ys 1 - at' ys 0) / (at' xs 1 - at' xs 0) - yd0)) (qn := 0.5)
    (un := (3 / (at' xs (m + 1) - at' xs m)) *
      (ydf - (at' ys (m + 1) - at' ys m) / (at' xs (m + 1) - at' xs m)))
    (by norm_num) (by norm_num)
  simp only at hM
  obtain ⟨s, h1, h3, h4, -, h5, h6⟩ := applyC2_spec mode hm hk hM.2.2
  refine ⟨s, ?_, ?_, ?_, ?_, ?_⟩
  · unfold clamped clampedData
    rw [if_neg (by omega), if_neg (by rintro ⟨-, h⟩; exact h hlen), if_neg (by omega), hm]
    exact h1
  · rw [head_at ha, last_at (m := m + 1) (by omega) hb] at h3; exact h3
  · intro i hx hy
    have := h4 i (by omega)
    rwa [at_getElem hx, at_getElem hy] at this
  · rw [← head_at ha, h5]
    congr 1
    have e := hM.1
    have hd : at' xs 1 - at' xs 0 ≠ 0 := (sub_pos.2 (hk 0 (by omega))).ne'
    rw [e]
    norm_num
    field_simp
    ring
  · rw [← last_at (m := m + 1) (by omega) hb, h6]
    congr 1
    have e := hM.2.1
    have hd : at' xs (m + 1) - at' xs m ≠ 0 := (sub_pos.2 (hk m (by omega))).ne'
    generalize secondDerivatives (at' xs) (at' ys) (m + 2) (-0.5) _ 0.5 _ = M at e
    have e' : M m + 2 * M (m + 1) = 2 * ((3 / (at' xs (m + 1) - at' xs m)) *
      (ydf - (at' ys (m + 1) - at' ys m) / (at' xs (m + 1) - at' xs m))) := by
      rw [← e]; norm_num; ring
    rw [e']
    field_simp
    ring

/-- **C56.** Fewer than two points are refused, and so are, in a debug build, arrays of different
lengths. -/
theorem C56_refused (mode : Mode) (xs ys : List ℝ) (yd0 ydf : ℝ) :
    (xs.length < 2 ∨ ys.length < 2 →
      natural mode xs ys = .throw .outOfRange ∧ clamped mode xs ys yd0 ydf = .throw .outOfRange) ∧
    (xs.length ≠ ys.length →
      natural .debug xs ys = .throw .outOfRange ∧ clamped .debug xs ys yd0 ydf = .throw .outOfRange) := by
  constructor
  · intro h
    unfold natural clamped naturalData clampedData
    rw [if_pos h, if_pos h]
    exact ⟨rfl, rfl⟩
  · intro h
    unfold natural clamped naturalData clampedData
    by_cases h' : xs.length < 2 ∨ ys.length < 2
    · rw [if_pos h', if_pos h']; exact ⟨rfl, rfl⟩
    · rw [if_neg h', if_neg h', if_pos ⟨rfl, h⟩, if_pos ⟨rfl, h⟩]; exact ⟨rfl, rfl⟩

/-- **C56.** Outside the domain a debug build throws; a release build has no defined result beyond the
last knot. -/
theorem C56_outside (xs ys : List ℝ) (hlen : xs.length = ys.length) (h2 : 2 ≤ xs.length)
    (hinc : xs.Pairwise (· < ·)) (a b : ℝ) (ha : xs.head? = some a) (hb : xs.getLast? = some b) (x : ℝ) :
    (x < a ∨ b < x → ∃ s, natural .debug xs ys = .ok s ∧ value .debug s x = .throw .outOfRange) ∧
    (b < x → ∃ s, natural .release xs ys = .ok s ∧ value .release s x = .ub) := by
  obtain ⟨m, hm⟩ : ∃ m, xs.length = m + 2 := ⟨xs.length - 2, by omega⟩
  have hdom : ∀ mode s, natural mode xs ys = .ok s → s.domain = xs := by
    intro mode s h
    unfold natural at h
    generalize naturalData mode xs ys = o at h
    cases o with
    | ok M =>
      simp only [Outcome.bind, applyC2] at h
      split at h
      · cases h; rfl
      · cases h
      · cases h
    | throw e => cases h
    | ub => cases h
  constructor
  · intro hx
    obtain ⟨s, h1, -⟩ := C56_natural .debug xs ys hlen h2 hinc a b ha hb
    refine ⟨s, h1, ?_⟩
    unfold value CubicSpline.segment
    rw [hdom _ _ h1, ha, hb]
    simp only
    rw [if_neg (by rintro ⟨h3, h4⟩; rcases hx with h | h <;> linarith)]
    rfl
  · intro hx
    obtain ⟨s, h1, -⟩ := C56_natural .release xs ys hlen h2 hinc a b ha hb
    refine ⟨s, h1, ?_⟩
    unfold value CubicSpline.segment
    rw [hdom _ _ h1]
    have hall : ∀ y ∈ xs, y < x := by
      intro y hy
      obtain ⟨i, hi, rfl⟩ := List.getElem_of_mem hy
      have hk := knots_of_pairwise hinc (m := m + 1) (by omega)
      have := hk.le (i := i) (j := m + 1) (by omega) (by omega)
      rw [last_at (m := m + 1) (by omega) hb, at_getElem hi] at this
      linarith
    have hub : ∀ (l : List ℝ) (j : ℕ), (∀ y ∈ l, y < x) → findFrom .release x l j = .ub := by
      intro l
      induction l with
      | nil => intro j _; rfl
      | cons d l ih =>
        intro j h
        rw [findFrom, if_pos (h d (by simp))]
        exact ih _ (fun y hy => h y (by simp [hy]))
    rw [hub _ _ (fun y hy => hall y (List.mem_of_mem_drop hy))]
    rfl

/-- Three points: the hypotheses are met. -/
example : ∃ s, natural .release [0, 1, 3] [2, 5, 1] = .ok s ∧ value .release s 1 = .ok 5 := by
  obtain ⟨s, h1, -, h3, -⟩ := C56_natural .release [0, 1, 3] [2, 5, 1] rfl (by simp)
    (by norm_num) 0 3 rfl rfl
  exact ⟨s, h1, by simpa using h3 1 (by simp) (by simp)⟩

/-- **C57.** The heuristic cubic spline passes through every point, is continuously differentiable on
the whole domain with `derivative` as its derivative, and has the requested slopes at its ends. -/
theorem C57_heuristic (mode : Mode) (xs ys : List ℝ) (yd0 ydf : ℝ) (hlen : xs.length = ys.length)
    (h2 : 2 ≤ xs.length) (hinc : xs.Pairwise (· < ·)) (a b : ℝ) (ha : xs.head? = some a)
    (hb : xs.getLast? = some b) :
    ∃ s, heuristic mode xs ys yd0 ydf = .ok s ∧
      OnceSmooth (value mode s) (slope mode s) a b ∧
      (∀ (i : ℕ) (hx : i < xs.length) (hy : i < ys.length), value mode s xs[i] = .ok ys[i]) ∧
      slope mode s a = .ok yd0 ∧ slope mode s b = .ok ydf := by
  obtain ⟨m, hm⟩ : ∃ m, xs.length = m + 2 := ⟨xs.length - 2, by omega⟩
  have hk := knots_of_pairwise hinc (m := m + 1) (by omega)
  have e2 : m + 2 - 1 = m + 1 := by omega
  obtain ⟨s, h1, h3, h4, h5⟩ := applyHeuristic_spec mode (ys := ys) hm hk
    (Function.update (heuristicLoop (at' xs) (at' ys) (m + 2 - 2) 1 (Function.update (fun _ => 0) 0 yd0)) (m + 2 - 1) ydf)
  refine ⟨s, ?_, ?_, ?_, ?_, ?_⟩
  · unfold heuristic heuristicData
    rw [if_neg (by rintro ⟨-, h⟩; exact h hlen), if_neg (by omega), hm]
    exact h1
  · rw [head_at ha, last_at (m := m + 1) (by omega) hb] at h3; exact h3
  · intro i hx hy
    have := h4 i (by omega)
    rwa [at_getElem hx, at_getElem hy] at this
  · have := h5 0 (by omega)
    rw [head_at ha, e2, Function.update_of_ne (by omega), heuristicLoop_spec, if_neg (by omega)] at this
    simpa using this
  · have := h5 (m + 1) (by omega)
    rw [last_at (m := m + 1) (by omega) hb, e2, Function.update_self] at this
    exact this

/-- **C57.** The slope at an inner point is the mean of the slopes of the two chords that meet there. -/
theorem C57_inner_slopes (mode : Mode) (xs ys : List ℝ) (yd0 ydf : ℝ) (hlen : xs.length = ys.length)
    (hinc : xs.Pairwise (· < ·)) (i : ℕ) (hi : i + 2 < xs.length) (hy : i + 2 < ys.length) :
    ∃ s, heuristic mode xs ys yd0 ydf = .ok s ∧
      slope mode s xs[i + 1] = .ok (((ys[i + 1] - ys[i]) / (xs[i + 1] - xs[i]) +
        (ys[i + 2] - ys[i + 1]) / (xs[i + 2] - xs[i + 1])) / 2) := by
  obtain ⟨m, hm⟩ : ∃ m, xs.length = m + 2 := ⟨xs.length - 2, by omega⟩
  have hk := knots_of_pairwise hinc (m := m + 1) (by omega)
  have e2 : m + 2 - 1 = m + 1 := by omega
  have e1 : m + 2 - 2 = m := by omega
  obtain ⟨s, h1, h3, h4, h5⟩ := applyHeuristic_spec mode (ys := ys) hm hk
    (Function.update (heuristicLoop (at' xs) (at' ys) (m + 2 - 2) 1 (Function.update (fun _ => 0) 0 yd0)) (m + 2 - 1) ydf)
  refine ⟨s, ?_, ?_⟩
  · unfold heuristic heuristicData
    rw [if_neg (by rintro ⟨-, h⟩; exact h hlen), if_neg (by omega), hm]
    exact h1
  · have := h5 (i + 1) (by omega)
    rw [e2, e1, Function.update_of_ne (by omega), heuristicLoop_spec, if_pos (by omega), Nat.add_sub_cancel] at this
    rw [at_getElem (by omega), at_getElem (by omega), at_getElem (by omega), at_getElem (by omega),
      at_getElem (by omega), at_getElem (by omega)] at this
    exact this

example : ∃ s, heuristic .debug [0, 1, 3] [2, 5, 1] 4 (-2) = .ok s ∧ slope .debug s 3 = .ok (-2) := by
  obtain ⟨s, h1, -, -, -, h5⟩ := C57_heuristic .debug [0, 1, 3] [2, 5, 1] 4 (-2) rfl (by simp)
    (by norm_num) 0 3 rfl rfl
  exact ⟨s, h1, h5⟩

end Ecl.Props
