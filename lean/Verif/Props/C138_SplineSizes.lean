import Verif.Lemmas.SplineSizes
import Verif.Model.CubicSpline
import Verif.Model.TensionSpline

/-!
# C138: splines from arrays of any sizes
-/
set_option autoImplicit false

namespace Ecl.Props
open SplineSizes

open C138

theorem C138.verdict_eq (b : SplineSizes.Build) (room : Nat) (l : List Acc) :
    verdict b room l = endOf (exec b room SplineSizes.none l) := by
  unfold verdict endOf; cases exec b room SplineSizes.none l <;> rfl

/-- **C138** (the twice continuously differentiable cubic splines, with and without end slopes): decided for all sizes
and builds.  Two or more points in both arrays are demanded except in builds without exceptions, where fewer are
undefined; beyond that, the assertion on the sizes is the only check, and a second array that is too short is undefined
in release builds. -/
theorem C138_cubic (b : SplineSizes.Build) (room nx ny : Nat) (hx : nx ≤ room) (hy : ny ≤ room) (hx32 : nx < 2 ^ 32)
    (hy32 : ny < 2 ^ 32) :
    (let expected := if nx < 2 ∨ ny < 2 then (if b = .silent then .ub else .throw .outOfRange) else sizesChecked b nx ny
     verdict b room (clampedData nx ny ++ SplineSizes.apply nx) = expected ∧
     verdict b room (naturalData nx ny ++ SplineSizes.apply nx) = expected) := by
  have key : endOf (if nx < 2 ∨ ny < 2 then (if b = .silent then .ub else .throw .outOfRange)
      else if b = .debug ∧ nx ≠ ny then .throw .outOfRange
      else if ny < nx then .ub
      else exec b room (resized (resized (c2Sizes nx ny) .domain nx) .polys (nx - 1)) []) =
      if nx < 2 ∨ ny < 2 then (if b = .silent then .ub else .throw .outOfRange) else sizesChecked b nx ny := by
    unfold sizesChecked
    by_cases h1 : nx < 2 ∨ ny < 2
    · rw [if_pos h1, if_pos h1]; split <;> rfl
    · rw [if_neg h1, if_neg h1]
      by_cases h2 : nx = ny
      · rw [if_neg (by simp [h2]), if_neg (by omega), if_pos h2]; rfl
      · by_cases h3 : b = .debug
        · rw [if_pos ⟨h3, h2⟩, if_neg h2, if_pos h3]; rfl
        · rw [if_neg (by simp [h3]), if_neg h2, if_neg h3]
          by_cases h4 : nx < ny
          · rw [if_neg (by omega), if_pos h4]; rfl
          · rw [if_pos (by omega), if_neg h4]; rfl
  refine ⟨?_, ?_⟩
  · rw [← key, verdict_eq, ← c2_verdict b room nx ny hx hy hx32 hy32 _ _ (by simp)
      (fun h2 hle => clamped_access nx ny hx32 hy32 h2 hle) [], List.append_nil]
    rfl
  · rw [← key, verdict_eq, ← c2_verdict b room nx ny hx hy hx32 hy32 _ _ (by simp)
      (fun h2 _ => natural_access nx ny hx32 h2) [], List.append_nil]
    rfl

example : sizesChecked .release 5 4 = .ub ∧ sizesChecked .debug 5 4 = .throw .outOfRange ∧
    sizesChecked .release 4 5 = .ok () := by decide

/-- **C138, refuted** (builds without exceptions): the check for two points is lost. -/
theorem C138_fails_silent (room : Nat) (h : 1 ≤ room) :
    verdict .silent room (naturalData 1 1 ++ SplineSizes.apply 1) = .ub ∧
    verdict .silent room (clampedData 1 1 ++ SplineSizes.apply 1) = .ub := by
  have := C138_cubic .silent room 1 1 h h (by decide) (by decide)
  exact ⟨this.2, this.1⟩

/-- **C138, refuted** (release builds): with four values for five points, the values behind the end are read. -/
theorem C138_fails_release (room : Nat) (h : 5 ≤ room) :
    verdict .release room (naturalData 5 4 ++ SplineSizes.apply 5) = .ub := by
  have := (C138_cubic .release room 5 4 h (by omega) (by decide) (by decide)).2
  rw [this]; decide

/-- **C138** (the heuristic): decided.  No number of points is demanded. -/
theorem C138_heuristic (b : SplineSizes.Build) (room nx ny : Nat) (hx : nx ≤ room) (hy : ny ≤ room)
    (hx32 : nx < 2 ^ 32) (hy32 : ny < 2 ^ 32) :
    verdict b room (heuristicData nx ny ++ SplineSizes.apply nx) =
      if nx = 0 then (if b = .debug then .throw .outOfRange else .ub)
      else if nx = 1 ∧ b ≠ .debug then .ok ()
      else sizesChecked b nx ny := by
  rw [verdict_eq, ← List.append_nil (SplineSizes.apply nx), h_verdict b room nx ny hx hy hx32 hy32]
  unfold sizesChecked
  by_cases h0 : nx = 0
  · rw [if_pos h0, if_pos h0]
    cases b <;> simp [beyond, endOf]
  · rw [if_neg h0, if_neg h0]
    by_cases h2 : nx = ny
    · rw [if_neg (by simp [h2]), if_neg (by omega), if_pos h2]
      simp only [exec, endOf]; split <;> rfl
    · by_cases h3 : b = .debug
      · rw [if_pos ⟨h3, h2⟩, if_neg (by simp [h3]), if_neg h2, if_pos h3]; rfl
      · rw [if_neg (by simp [h3]), if_neg h2, if_neg h3]
        by_cases h1 : nx = 1
        · rw [if_neg (by omega), if_pos ⟨h1, h3⟩]; rfl
        · rw [if_neg (show ¬ (nx = 1 ∧ b ≠ .debug) by simp [h1])]
          by_cases h4 : nx < ny
          · rw [if_neg (by omega), if_pos h4]; rfl
          · rw [if_pos (by omega), if_neg h4, beyond_ub b h3]; rfl

/-- **C138, refuted** (one point): the heuristic accepts a single point, and the spline it makes cannot be evaluated
anywhere: debug builds throw at the only point of the domain, others read behind the end. -/
theorem C138_fails_single (b : SplineSizes.Build) (room : Nat) (h : 1 ≤ room) :
    verdict b room (heuristicData 1 1 ++ SplineSizes.apply 1) = .ok () ∧
    verdict b room (heuristicData 1 1 ++ SplineSizes.apply 1 ++ evaluate) =
      if b = .debug then .throw .outOfRange else .ub := by
  refine ⟨by rw [C138_heuristic b room 1 1 h h (by decide) (by decide)]; cases b <;> rfl, ?_⟩
  rw [List.append_assoc, verdict_eq, h_verdict b room 1 1 h h (by decide) (by decide), if_neg (by simp),
    if_neg (by decide), if_neg (by decide)]
  simp only [evaluate, exec, resized, reduceCtorEq, if_false, if_true]
  cases b <;> rfl

/-- **C138** (tension splines): decided. -/
theorem C138_tension (b : SplineSizes.Build) (room nx ny : Nat) (hx : nx ≤ room) (hy : ny ≤ room)
    (hx32 : nx < 2 ^ 32) (hy32 : ny < 2 ^ 32) :
    verdict b room (tensionData nx ny ++ SplineSizes.apply nx) =
      if nx < 3 then (if b = .debug then .throw .outOfRange else .ub)
      else sizesChecked b nx ny := by
  rw [verdict_eq, ← List.append_nil (SplineSizes.apply nx), t_verdict b room nx ny hx hy hx32 hy32]
  unfold sizesChecked
  by_cases h0 : nx < 3
  · rw [if_pos h0, if_pos (c := nx < 3 ∨ ny < nx) (.inl h0)]
    cases b <;> simp [beyond, endOf]
  · rw [if_neg h0]
    by_cases h2 : nx = ny
    · rw [if_neg (by simp [h2]), if_neg (by omega), if_pos h2]; rfl
    · by_cases h3 : b = .debug
      · rw [if_pos ⟨h3, h2⟩, if_neg h2, if_pos h3]; rfl
      · rw [if_neg (by simp [h3]), if_neg h2, if_neg h3]
        by_cases h4 : nx < ny
        · rw [if_neg (by omega), if_pos h4]; rfl
        · rw [if_pos (by omega), if_neg h4, beyond_ub b h3]; rfl

/-- **C138** (smooth linear splines): for 2 to 2^31 points in the first array, every build accepts exactly those data
whose sizes agree and whose corners can be smoothed, and refuses all others with an exception. -/
theorem C138_smooth (b : SplineSizes.Build) (room nx ny : Nat) (fits : Nat → Bool) (hx : 2 * nx ≤ room) (hy : ny ≤ room)
    (h2 : 2 ≤ nx) (h31 : nx ≤ 2 ^ 31) :
    (nx ≠ ny → verdict b room (smooth nx ny fits) = .throw .outOfRange) ∧
    (nx = ny → (∀ i, 0 < i → i + 1 < nx → fits i = true) → verdict b room (smooth nx ny fits) = .ok ()) ∧
    (nx = ny → (∃ i, 0 < i ∧ i + 1 < nx ∧ fits i = false) →
      verdict b room (smooth nx ny fits) = .throw .constructorError) := by
  rw [verdict_eq, ← List.append_nil (smooth nx ny fits), s_verdict b room nx ny fits hx hy h2 h31]
  refine ⟨fun h => by rw [if_neg h]; rfl, fun h hf => ?_, fun h hf => ?_⟩
  · rw [if_pos h, if_pos]
    · rfl
    · rw [List.all_eq_true]
      intro i hi
      simp only [List.mem_range'_1] at hi
      exact hf i (by omega) (by omega)
  · rw [if_pos h, if_neg]
    · rfl
    · obtain ⟨i, h1, h3, h4⟩ := hf
      rw [List.all_eq_true]
      intro hc
      have := hc i (by simp only [List.mem_range'_1]; omega)
      rw [h4] at this; simp at this

example : (∀ i, 0 < i → i + 1 < 4 → (fun i => decide (i < 3)) i = true) := by
  intro i _ h; simp; omega

/-- **C138, refuted** (few points): fewer than two points are not refused by a smooth linear spline: it asks for
arrays of 2^32 - 1 elements and fails for lack of memory, or if there is enough, accesses elements that do not exist. -/
theorem C138_fails_few (b : SplineSizes.Build) (room nx : Nat) (fits : Nat → Bool) (hn : nx < 2) :
    (1 ≤ room → room < 2 ^ 32 - 1 → verdict b room (smooth nx nx fits) = .throw .memoryError) ∧
    (2 ^ 32 ≤ room → verdict b room (smooth nx nx fits) = if b = .debug then .throw .outOfRange else .ub) := by
  rw [verdict_eq, ← List.append_nil (smooth nx nx fits)]
  refine ⟨fun h1 h2 => by rw [s_memory b room nx fits [] hn h1 h2]; rfl, fun h => ?_⟩
  rw [s_beyond b room nx fits [] (.inl hn) h]
  cases b <;> rfl

/-- **C138, refuted** (many points): with 2^31 + 1 points the size of the domain, twice the number of segments, does not
fit an `unsigned int`: the array made is empty, and its first element is written. -/
theorem C138_fails_many (b : SplineSizes.Build) (room : Nat) (fits : Nat → Bool) (h : 2 ^ 32 ≤ room) :
    verdict b room (smooth (2 ^ 31 + 1) (2 ^ 31 + 1) fits) = if b = .debug then .throw .outOfRange else .ub := by
  rw [verdict_eq, ← List.append_nil (smooth (2 ^ 31 + 1) (2 ^ 31 + 1) fits), s_beyond b room _ fits [] (.inr rfl) h]
  cases b <;> rfl

/-- **C138, refuted** (many points): the back substitution of the cubic splines counts down with an `int`: it visits all
second derivatives for up to 2^31 + 1 points, and none for more. -/
theorem C138_fails_substitution (nx : Nat) (h2 : 2 ≤ nx) (h32 : nx < 2 ^ 32) :
    (nx ≤ 2 ^ 31 + 1 → ∀ k, k + 1 < nx → (Arr.ydd, k) ∈ backSubstitution nx) ∧
    (2 ^ 31 + 1 < nx → backSubstitution nx = []) := by
  unfold backSubstitution
  rw [usub_eq nx 2 h32 h2]
  refine ⟨fun h k hk => ?_, fun h => if_neg (by omega)⟩
  rw [if_pos (by omega)]
  simp only [List.mem_flatMap, List.mem_reverse, List.mem_range]
  exact ⟨k, by omega, by simp⟩

/-- **C138** (evaluation): what was accepted from two or more points can be evaluated, as far as the first step goes. -/
theorem C138_evaluate (b : SplineSizes.Build) (room nx : Nat) (hx : nx ≤ room) (h2 : 2 ≤ nx) (hx32 : nx < 2 ^ 32) :
    verdict b room (heuristicData nx nx ++ SplineSizes.apply nx ++ evaluate) = .ok () ∧
    verdict b room (naturalData nx nx ++ SplineSizes.apply nx ++ evaluate) = .ok () ∧
    verdict b room (clampedData nx nx ++ SplineSizes.apply nx ++ evaluate) = .ok () := by
  have he : ∀ s : Arr → Nat, exec b room (resized (resized s .domain nx) .polys (nx - 1)) evaluate =
      .ok (resized (resized s .domain nx) .polys (nx - 1)) := by
    intro s
    simp only [evaluate, exec]
    rw [if_pos]
    simp only [resized, reduceCtorEq, if_false, if_true]; omega
  refine ⟨?_, ?_, ?_⟩
  · rw [List.append_assoc, verdict_eq, h_verdict b room nx nx hx hx hx32 hx32, if_neg (by simp), if_neg (by omega),
      if_neg (by omega), he]; rfl
  · have := c2_verdict b room nx nx hx hx hx32 hx32 _ _ (by simp) (fun h2 _ => natural_access nx nx hx32 h2) evaluate
    rw [List.append_assoc, verdict_eq]
    unfold naturalData
    rw [this, if_neg (by omega), if_neg (by simp), if_neg (by omega), he]; rfl
  · have := c2_verdict b room nx nx hx hx hx32 hx32 _ _ (by simp)
      (fun h2 hle => clamped_access nx nx hx32 hx32 h2 hle) evaluate
    rw [List.append_assoc, verdict_eq]
    unfold clampedData
    rw [this, if_neg (by omega), if_neg (by simp), if_neg (by omega), he]; rfl

/-- **C138** (agreement): the models of the values computed (C56, C57, C58) end in the same way as the accesses. -/
theorem C138_agrees (mode : Mode) (room : Nat) (xs ys : List ℝ) (hx : xs.length ≤ room) (hy : ys.length ≤ room)
    (hx32 : xs.length < 2 ^ 32) (hy32 : ys.length < 2 ^ 32) (yd0 ydf tau : ℝ) :
    endOf (CubicSpline.clampedData mode xs ys yd0 ydf) =
      verdict (buildOf mode) room (clampedData xs.length ys.length) ∧
    endOf (CubicSpline.naturalData mode xs ys) = verdict (buildOf mode) room (naturalData xs.length ys.length) ∧
    endOf (CubicSpline.heuristicData mode xs ys yd0 ydf) =
      verdict (buildOf mode) room (heuristicData xs.length ys.length ++ SplineSizes.apply xs.length) ∧
    endOf (TensionSpline.data mode xs ys tau) =
      verdict (buildOf mode) room (tensionData xs.length ys.length ++ SplineSizes.apply xs.length) := by
  have hb : buildOf mode ≠ .silent := by cases mode <;> simp [buildOf]
  have hd : (buildOf mode = .debug) ↔ mode = .debug := by cases mode <;> simp [buildOf]
  have hbey : ∀ {α β : Type}, endOf (CubicSpline.beyond mode : Outcome α) = endOf (beyond (buildOf mode) : Outcome β) := by
    intro α β; cases mode <;> rfl
  refine ⟨?_, ?_, ?_, ?_⟩
  · rw [verdict_eq]
    unfold clampedData
    rw [c2_data_verdict (buildOf mode) room _ _ hx hy hx32 hy32 hb _ _
      (fun h2 hle => clamped_access _ _ hx32 hy32 h2 hle)]
    simp only [CubicSpline.clampedData, hd]
    repeat' split
    all_goals rfl
  · rw [verdict_eq]
    unfold naturalData
    rw [c2_data_verdict (buildOf mode) room _ _ hx hy hx32 hy32 hb _ _
      (fun h2 _ => natural_access _ _ hx32 h2)]
    simp only [CubicSpline.naturalData, hd]
    repeat' split
    all_goals rfl
  · rw [verdict_eq, ← List.append_nil (SplineSizes.apply xs.length), h_verdict _ room _ _ hx hy hx32 hy32]
    simp only [CubicSpline.heuristicData, hd]
    by_cases h1 : mode = .debug ∧ xs.length ≠ ys.length
    · rw [if_pos h1, if_pos h1]; rfl
    · rw [if_neg h1, if_neg h1]
      by_cases h2 : xs.length = 0
      · rw [if_pos (.inl h2), if_pos h2]; exact hbey
      · rw [if_neg h2]
        by_cases h3 : 1 < xs.length ∧ ys.length < xs.length
        · rw [if_pos (.inr h3), if_pos h3]; exact hbey
        · rw [if_neg (by tauto), if_neg h3]; rfl
  · rw [verdict_eq, ← List.append_nil (SplineSizes.apply xs.length), t_verdict _ room _ _ hx hy hx32 hy32]
    simp only [TensionSpline.data, hd]
    by_cases h1 : mode = .debug ∧ xs.length ≠ ys.length
    · rw [if_pos h1, if_pos h1]; rfl
    · rw [if_neg h1, if_neg h1]
      by_cases h2 : xs.length < 3 ∨ ys.length < xs.length
      · rw [if_pos h2, if_pos h2]; exact hbey
      · rw [if_neg h2, if_neg h2]; rfl

end Ecl.Props
