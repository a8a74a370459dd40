import Verif.Spec.SplineSizes
import Mathlib.Tactic.ByContra

set_option autoImplicit false

namespace Ecl.Props.C138
open SplineSizes

theorem exec_append (b : SplineSizes.Build) (room : Nat) (l1 l2 : List Acc) :
    ∀ s, exec b room s (l1 ++ l2) =
      match exec b room s l1 with | .ok s' => exec b room s' l2 | .throw e => .throw e | .ub => .ub := by
  induction l1 with
  | nil => intro s; rfl
  | cons x l ih =>
    intro s
    cases x <;> simp only [List.cons_append, exec] <;> split <;> first | exact ih _ | rfl | (cases b <;> rfl)

theorem exec_copy (b : SplineSizes.Build) (room : Nat) (s : Arr → Nat) (r : Arr) (n : Nat) (l : List Acc)
    (hs : s r = 0) (hn : n ≤ room) : exec b room s (copy r n ++ l) = exec b room (resized s r n) l := by
  unfold copy
  split
  · rename_i h
    subst h
    have : resized s r 0 = s := by
      funext q
      simp only [resized]
      split
      · rename_i hq; rw [hq, hs]
      · rfl
    simp [this]
  · simp only [List.cons_append, List.nil_append, exec, hn, if_true]

theorem exec_ats_ok (b : SplineSizes.Build) (room : Nat) (s : Arr → Nat) (L : List (Arr × Nat)) (l : List Acc)
    (h : ∀ p ∈ L, p.2 < s p.1) : exec b room s (ats L ++ l) = exec b room s l := by
  induction L with
  | nil => rfl
  | cons p L ih =>
    simp only [ats, List.map_cons, List.cons_append, exec]
    rw [if_pos (h p (by simp))]
    exact ih fun q hq => h q (by simp [hq])

theorem exec_ats_beyond (b : SplineSizes.Build) (room : Nat) (s : Arr → Nat) (L : List (Arr × Nat)) (l : List Acc)
    (h : ∃ p ∈ L, s p.1 ≤ p.2) : exec b room s (ats L ++ l) = beyond b := by
  induction L with
  | nil => simp at h
  | cons p L ih =>
    simp only [ats, List.map_cons, List.cons_append, exec]
    by_cases hp : p.2 < s p.1
    · rw [if_pos hp]
      obtain ⟨q, hq, hs⟩ := h
      simp only [List.mem_cons] at hq
      rcases hq with rfl | hq
      · omega
      · exact ih ⟨q, hq, hs⟩
    · rw [if_neg hp]

/-- Either the accesses succeed, or the first that does not ends everything. -/
theorem exec_ats_or (b : SplineSizes.Build) (room : Nat) (s : Arr → Nat) (L : List (Arr × Nat)) (l : List Acc)
    (h : exec b room s l = beyond b) : exec b room s (ats L ++ l) = beyond b := by
  by_cases hL : ∀ p ∈ L, p.2 < s p.1
  · rw [exec_ats_ok b room s L l hL, h]
  · apply exec_ats_beyond
    by_contra hc
    apply hL
    intro p hp
    by_contra hh
    exact hc ⟨p, hp, by omega⟩

theorem usub_eq (n k : Nat) (hn : n < 2 ^ 32) (hk : k ≤ n) : usub n k = n - k := by
  unfold usub; omega

/-- After the data have been copied: the sizes. -/
def given (nx ny : Nat) : Arr → Nat := resized (resized SplineSizes.none .x nx) .y ny

theorem exec_given (b : SplineSizes.Build) (room nx ny : Nat) (l : List Acc) (hx : nx ≤ room) (hy : ny ≤ room) :
    exec b room SplineSizes.none (copy .x nx ++ (copy .y ny ++ l)) = exec b room (given nx ny) l := by
  rw [exec_copy _ _ _ _ _ _ rfl hx, exec_copy _ _ _ _ _ _ (by simp [resized, SplineSizes.none]) hy]; rfl

theorem given_x (nx ny : Nat) (h : nx < 2 ^ 32) : given nx ny .x = nx := by
  simp only [given, resized, reduceCtorEq, if_false, if_true]; omega

theorem given_y (nx ny : Nat) (h : ny < 2 ^ 32) : given nx ny .y = ny := by
  simp only [given, resized, if_true]; omega

theorem given_other (nx ny : Nat) (r : Arr) (h1 : r ≠ .x) (h2 : r ≠ .y) : given nx ny r = 0 := by
  simp only [given, resized, SplineSizes.none, if_neg h1, if_neg h2]

/-- Between the points, after sizes `s` with `nx` points. -/
theorem apply_ok (b : SplineSizes.Build) (room nx : Nat) (s : Arr → Nat) (l : List Acc) (h1 : 1 ≤ nx) (h32 : nx < 2 ^ 32)
    (hr : nx ≤ room) (hd : s .domain = 0) (hx : s .x = nx) (hy : nx ≤ s .y ∨ nx = 1) (hz : s .ydd = nx) :
    exec b room s (SplineSizes.apply nx ++ l) =
      exec b room (resized (resized s .domain nx) .polys (nx - 1)) l := by
  have hm : (nx + 2 ^ 64 - 1) % 2 ^ 64 = nx - 1 := by omega
  unfold SplineSizes.apply
  rw [List.append_assoc, List.append_assoc, exec_copy _ _ _ _ _ _ hd hr, hm]
  simp only [List.cons_append, List.nil_append, exec]
  rw [if_pos (by omega), exec_ats_ok]
  intro p hp
  simp only [List.mem_flatMap, List.mem_range, List.mem_cons, List.not_mem_nil, or_false] at hp
  obtain ⟨i, hi, hp⟩ := hp
  rcases hp with rfl | rfl | rfl | rfl | rfl | rfl | rfl <;>
    simp only [resized, reduceCtorEq, if_false, if_true, hx, hz] <;> omega

theorem apply_beyond (b : SplineSizes.Build) (room nx : Nat) (s : Arr → Nat) (l : List Acc) (h1 : 2 ≤ nx) (h32 : nx < 2 ^ 32)
    (hr : nx ≤ room) (hd : s .domain = 0) (hy : s .y < nx) :
    exec b room s (SplineSizes.apply nx ++ l) = beyond b := by
  have hm : (nx + 2 ^ 64 - 1) % 2 ^ 64 = nx - 1 := by omega
  unfold SplineSizes.apply
  rw [List.append_assoc, List.append_assoc, exec_copy _ _ _ _ _ _ hd hr, hm]
  simp only [List.cons_append, List.nil_append, exec]
  rw [if_pos (by omega), exec_ats_beyond]
  refine ⟨(.y, nx - 2 + 1), ?_, ?_⟩
  · simp only [List.mem_flatMap, List.mem_range]
    exact ⟨nx - 2, by omega, by simp⟩
  · simp only [resized, reduceCtorEq, if_false]; omega

/-! ## Cubic splines -/

/-- Sizes after the checks of `C2CubicSpline`. -/
def c2Sizes (nx ny : Nat) : Arr → Nat := resized (resized (given nx ny) .ydd nx) .u nx

theorem c2_prefix (b : SplineSizes.Build) (room nx ny : Nat) (l : List Acc) (hx : nx ≤ room) (hy : ny ≤ room) :
    exec b room SplineSizes.none (copy .x nx ++ copy .y ny ++
      [.ecl (!(nx < 2 || ny < 2)), .assert (nx = ny), .size .ydd nx, .size .u nx] ++ l) =
    if (nx < 2 ∨ ny < 2) ∧ b ≠ .silent then .throw .outOfRange
    else if b = .debug ∧ nx ≠ ny then .throw .outOfRange
    else exec b room (c2Sizes nx ny) l := by
  rw [List.append_assoc, List.append_assoc, exec_given _ _ _ _ _ hx hy]
  simp only [List.cons_append, List.nil_append, exec, hx, if_true]
  by_cases h1 : nx < 2 <;> by_cases h2 : ny < 2 <;> by_cases h3 : nx = ny <;> cases b <;>
    simp [h1, h2, h3, c2Sizes]

theorem c2_x (nx ny : Nat) (h : nx < 2 ^ 32) : c2Sizes nx ny .x = nx := by
  simp only [c2Sizes, resized, reduceCtorEq, if_false]; exact given_x nx ny h
theorem c2_y (nx ny : Nat) (h : ny < 2 ^ 32) : c2Sizes nx ny .y = ny := by
  simp only [c2Sizes, resized, reduceCtorEq, if_false]; exact given_y nx ny h
theorem c2_ydd (nx ny : Nat) (h : nx < 2 ^ 32) : c2Sizes nx ny .ydd = nx := by
  simp only [c2Sizes, resized, reduceCtorEq, if_false, if_true]; omega
theorem c2_u (nx ny : Nat) (h : nx < 2 ^ 32) : c2Sizes nx ny .u = nx := by
  simp only [c2Sizes, resized, if_true]; omega
theorem c2_domain (nx ny : Nat) : c2Sizes nx ny .domain = 0 := by
  simp only [c2Sizes, resized, reduceCtorEq, if_false]; exact given_other nx ny _ (by decide) (by decide)

theorem elimination_ok (nx ny : Nat) (h : 2 ≤ nx) (h32 : nx < 2 ^ 32) (hy32 : ny < 2 ^ 32) (hy : nx ≤ ny) :
    ∀ p ∈ elimination nx, p.2 < c2Sizes nx ny p.1 := by
  intro p hp
  simp only [elimination, upTo, List.mem_flatMap, List.mem_range'_1, List.mem_cons, List.not_mem_nil, or_false,
    usub_eq nx 2 h32 h] at hp
  obtain ⟨i, hi, hp⟩ := hp
  rcases hp with rfl | rfl | rfl | rfl | rfl | rfl | rfl | rfl | rfl | rfl <;>
    simp only [c2_x nx ny h32, c2_y nx ny hy32, c2_ydd nx ny h32, c2_u nx ny h32] <;> omega

theorem back_ok (nx ny : Nat) (h : 2 ≤ nx) (h32 : nx < 2 ^ 32) :
    ∀ p ∈ backSubstitution nx, p.2 < c2Sizes nx ny p.1 := by
  intro p hp
  simp only [backSubstitution, usub_eq nx 2 h32 h] at hp
  split at hp
  · simp only [List.mem_flatMap, List.mem_reverse, List.mem_range, List.mem_cons, List.not_mem_nil, or_false] at hp
    obtain ⟨i, hi, hp⟩ := hp
    rcases hp with rfl | rfl | rfl <;> simp only [c2_ydd nx ny h32, c2_u nx ny h32] <;> omega
  · simp at hp

theorem c2_ok (nx ny : Nat) (h : 2 ≤ nx) (h32 : nx < 2 ^ 32) (hy32 : ny < 2 ^ 32) (hy : nx ≤ ny) (L1 L2 : List (Arr × Nat))
    (h1 : ∀ p ∈ L1, p.2 < c2Sizes nx ny p.1) (h2 : ∀ p ∈ L2, p.2 < c2Sizes nx ny p.1) :
    ∀ p ∈ L1 ++ elimination nx ++ L2 ++ backSubstitution nx, p.2 < c2Sizes nx ny p.1 := by
  intro p hp
  simp only [List.mem_append] at hp
  rcases hp with ((hp | hp) | hp) | hp
  · exact h1 p hp
  · exact elimination_ok nx ny h h32 hy32 hy p hp
  · exact h2 p hp
  · exact back_ok nx ny h h32 p hp

theorem usub_small_2 (nx : Nat) (h : nx < 2) : 2 ^ 32 - 2 ≤ usub nx 2 := by
  unfold usub; omega

theorem beyond_ub {α : Type} (b : SplineSizes.Build) (h : b ≠ .debug) : (beyond b : Outcome α) = .ub := by
  cases b <;> simp [beyond] at *

/-- Both constructors of `C2CubicSpline`: with fewer than two points some access is out of range. -/
theorem c2_few (nx ny : Nat) (h : nx < 2) (L1 L2 : List (Arr × Nat)) (hz : (Arr.ydd, 0) ∈ L1) :
    ∃ p ∈ L1 ++ elimination nx ++ L2 ++ backSubstitution nx, c2Sizes nx ny p.1 ≤ p.2 := by
  rcases Nat.eq_zero_or_pos nx with h0 | h0
  · refine ⟨(.ydd, 0), by simp [hz], ?_⟩
    subst h0; rw [c2_ydd 0 ny (by omega)]; exact Nat.le_refl 0
  · have h1 : nx = 1 := by omega
    refine ⟨(.x, 1), ?_, ?_⟩
    · simp only [List.mem_append]
      refine .inl (.inl (.inr ?_))
      simp only [elimination, upTo, List.mem_flatMap, List.mem_range'_1]
      have := usub_small_2 nx h
      exact ⟨1, ⟨by omega, by omega⟩, by simp⟩
    · subst h1; rw [c2_x 1 ny (by omega)]; exact Nat.le_refl 1

/-- Whatever `C2CubicSpline` accesses, as long as it accesses what both of them do. -/
theorem c2_verdict (b : SplineSizes.Build) (room nx ny : Nat) (hx : nx ≤ room) (hy : ny ≤ room) (hx32 : nx < 2 ^ 32)
    (hy32 : ny < 2 ^ 32) (L1 L2 : List (Arr × Nat)) (hz : (Arr.ydd, 0) ∈ L1)
    (h1 : 2 ≤ nx → nx ≤ ny → ∀ p ∈ L1 ++ L2, p.2 < c2Sizes nx ny p.1) (l : List Acc) :
    exec b room SplineSizes.none ((copy .x nx ++ copy .y ny ++
      [.ecl (!(nx < 2 || ny < 2)), .assert (nx = ny), .size .ydd nx, .size .u nx] ++
      ats (L1 ++ elimination nx ++ L2 ++ backSubstitution nx)) ++ (SplineSizes.apply nx ++ l)) =
    if nx < 2 ∨ ny < 2 then (if b = .silent then .ub else .throw .outOfRange)
    else if b = .debug ∧ nx ≠ ny then .throw .outOfRange
    else if ny < nx then .ub
    else exec b room (resized (resized (c2Sizes nx ny) .domain nx) .polys (nx - 1)) l := by
  rw [List.append_assoc, c2_prefix b room nx ny _ hx hy]
  by_cases hs : nx < 2 ∨ ny < 2
  · rw [if_pos hs]
    by_cases hb : b = .silent
    · rw [if_neg (by simp [hb]), if_neg (by simp [hb]), if_pos hb]
      subst hb
      by_cases hn : nx < 2
      · rw [exec_ats_beyond _ _ _ _ _ (c2_few nx ny hn L1 L2 hz)]; rfl
      · rw [exec_ats_or]
        · rfl
        · apply apply_beyond _ _ _ _ _ (by omega) hx32 hx (c2_domain nx ny)
          rw [c2_y nx ny hy32]; omega
    · rw [if_pos ⟨hs, hb⟩, if_neg hb]
  · rw [if_neg hs, if_neg (by simp [hs])]
    by_cases hd : b = .debug ∧ nx ≠ ny
    · rw [if_pos hd, if_pos hd]
    · rw [if_neg hd, if_neg hd]
      by_cases hl : ny < nx
      · rw [if_pos hl, exec_ats_or]
        · exact beyond_ub b (fun hb => hd ⟨hb, by omega⟩)
        · apply apply_beyond _ _ _ _ _ (by omega) hx32 hx (c2_domain nx ny)
          rw [c2_y nx ny hy32]; omega
      · rw [if_neg hl, exec_ats_ok, apply_ok _ _ _ _ _ (by omega) hx32 hx (c2_domain nx ny) (c2_x nx ny hx32)
          (.inl (by rw [c2_y nx ny hy32]; omega)) (c2_ydd nx ny hx32)]
        have h1' := h1 (by omega) (by omega)
        exact c2_ok nx ny (by omega) hx32 hy32 (by omega) L1 L2 (fun p hp => h1' p (by simp [hp]))
          (fun p hp => h1' p (by simp [hp]))

theorem clamped_access (nx ny : Nat) (hx32 : nx < 2 ^ 32) (hy32 : ny < 2 ^ 32) (h : 2 ≤ nx) (hy : nx ≤ ny) :
    ∀ p ∈ [(Arr.ydd, 0), (.u, 0), (.x, 1), (.x, 0), (.y, 1), (.y, 0)] ++ [(Arr.u, usub nx 1), (.x, usub nx 1),
      (.x, usub nx 2), (.y, usub nx 1), (.y, usub nx 2), (.ydd, usub nx 1), (.u, usub nx 2), (.ydd, usub nx 2)],
      p.2 < c2Sizes nx ny p.1 := by
  intro p hp
  simp only [List.cons_append, List.nil_append, List.mem_cons, List.not_mem_nil, or_false, usub_eq nx 2 hx32 h,
    usub_eq nx 1 hx32 (by omega : 1 ≤ nx)] at hp
  rcases hp with rfl | rfl | rfl | rfl | rfl | rfl | rfl | rfl | rfl | rfl | rfl | rfl | rfl | rfl <;>
    simp only [c2_x nx ny hx32, c2_y nx ny hy32, c2_ydd nx ny hx32, c2_u nx ny hx32] <;> omega

theorem natural_access (nx ny : Nat) (hx32 : nx < 2 ^ 32) (h : 2 ≤ nx) :
    ∀ p ∈ [(Arr.ydd, 0), (.u, 0)] ++ [(Arr.u, usub nx 1), (.ydd, usub nx 1), (.u, usub nx 2), (.ydd, usub nx 2)],
      p.2 < c2Sizes nx ny p.1 := by
  intro p hp
  simp only [List.cons_append, List.nil_append, List.mem_cons, List.not_mem_nil, or_false, usub_eq nx 2 hx32 h,
    usub_eq nx 1 hx32 (by omega : 1 ≤ nx)] at hp
  rcases hp with rfl | rfl | rfl | rfl | rfl | rfl <;>
    simp only [c2_ydd nx ny hx32, c2_u nx ny hx32] <;> omega

/-! ## The heuristic -/

def hSizes (nx ny : Nat) : Arr → Nat := resized (given nx ny) .ydd nx

theorem h_x (nx ny : Nat) (h : nx < 2 ^ 32) : hSizes nx ny .x = nx := by
  simp only [hSizes, resized, reduceCtorEq, if_false]; exact given_x nx ny h
theorem h_y (nx ny : Nat) (h : ny < 2 ^ 32) : hSizes nx ny .y = ny := by
  simp only [hSizes, resized, reduceCtorEq, if_false]; exact given_y nx ny h
theorem h_ydd (nx ny : Nat) (h : nx < 2 ^ 32) : hSizes nx ny .ydd = nx := by
  simp only [hSizes, resized, if_true]; omega
theorem h_domain (nx ny : Nat) : hSizes nx ny .domain = 0 := by
  simp only [hSizes, resized, reduceCtorEq, if_false]; exact given_other nx ny _ (by decide) (by decide)

/-- The accesses of the heuristic, with `m` for `x_data.size()-1`. -/
def hAcc (m : Nat) : List (Arr × Nat) :=
  [(.ydd, 0)] ++
    (List.range' 1 (m - 1)).flatMap (fun i =>
      [(.y, i), (.y, i - 1), (.x, i), (.x, i - 1), (.y, i + 1), (.x, i + 1), (.ydd, i)]) ++ [(.ydd, m)]

theorem hAcc_ok (nx ny : Nat) (hx32 : nx < 2 ^ 32) (hy32 : ny < 2 ^ 32) (h0 : nx ≠ 0) (hl : ¬ (1 < nx ∧ ny < nx)) :
    ∀ p ∈ hAcc (nx - 1), p.2 < hSizes nx ny p.1 := by
  intro p hp
  simp only [hAcc, List.mem_cons, List.mem_append, List.mem_flatMap, List.mem_range'_1, List.not_mem_nil, or_false] at hp
  rcases hp with (rfl | ⟨i, hi, hp⟩) | rfl
  · simp only [h_ydd nx ny hx32]; omega
  · rcases hp with rfl | rfl | rfl | rfl | rfl | rfl | rfl <;>
      simp only [h_x nx ny hx32, h_y nx ny hy32, h_ydd nx ny hx32] <;> omega
  · simp only [h_ydd nx ny hx32]; omega

theorem h_prefix (b : SplineSizes.Build) (room nx ny : Nat) (hx : nx ≤ room) (hy : ny ≤ room) (l : List Acc) :
    exec b room SplineSizes.none (copy .x nx ++ (copy .y ny ++ ([.assert (nx = ny), .size .ydd nx] ++ l))) =
    if b = .debug ∧ nx ≠ ny then .throw .outOfRange else exec b room (hSizes nx ny) l := by
  rw [exec_given _ _ _ _ _ hx hy]
  simp only [List.cons_append, List.nil_append, exec, hx, if_true]
  by_cases h3 : nx = ny <;> cases b <;> simp [h3, hSizes]

theorem h_verdict (b : SplineSizes.Build) (room nx ny : Nat) (hx : nx ≤ room) (hy : ny ≤ room) (hx32 : nx < 2 ^ 32)
    (hy32 : ny < 2 ^ 32) (l : List Acc) :
    exec b room SplineSizes.none (heuristicData nx ny ++ (SplineSizes.apply nx ++ l)) =
    if b = .debug ∧ nx ≠ ny then .throw .outOfRange
    else if nx = 0 then beyond b
    else if 1 < nx ∧ ny < nx then beyond b
    else exec b room (resized (resized (hSizes nx ny) .domain nx) .polys (nx - 1)) l := by
  have hd : heuristicData nx ny ++ (SplineSizes.apply nx ++ l) = copy .x nx ++ (copy .y ny ++
      ([.assert (nx = ny), .size .ydd nx] ++ (ats (hAcc ((nx + 2 ^ 64 - 1) % 2 ^ 64)) ++ (SplineSizes.apply nx ++ l)))) := by
    simp only [heuristicData, hAcc, List.append_assoc]
  rw [hd, h_prefix b room nx ny hx hy]
  split
  · rfl
  · by_cases h0 : nx = 0
    · rw [if_pos h0]
      apply exec_ats_beyond
      refine ⟨(.ydd, 0), List.mem_append_left _ (List.mem_append_left _ (List.mem_singleton.2 rfl)), ?_⟩
      show hSizes nx ny .ydd ≤ 0
      rw [h_ydd nx ny hx32]; omega
    · rw [if_neg h0]
      have hm : (nx + 2 ^ 64 - 1) % 2 ^ 64 = nx - 1 := by omega
      rw [hm]
      by_cases hl : 1 < nx ∧ ny < nx
      · rw [if_pos hl]
        apply exec_ats_or
        apply apply_beyond _ _ _ _ _ (by omega) hx32 hx (h_domain nx ny)
        rw [h_y nx ny hy32]; exact hl.2
      · rw [if_neg hl, exec_ats_ok _ _ _ _ _ (hAcc_ok nx ny hx32 hy32 h0 hl),
          apply_ok _ _ _ _ _ (by omega) hx32 hx (h_domain nx ny) (h_x nx ny hx32)
          (by rw [h_y nx ny hy32]; omega) (h_ydd nx ny hx32)]

/-! ## Tension splines -/

def tSizes (nx ny : Nat) : Arr → Nat :=
  resized (resized (resized (resized (resized (resized (resized (given nx ny) .ydd ((usub nx 1 + 1) % 2 ^ 32)) .h (usub nx 1))
    .a (usub nx 1)) .beta (usub nx 1)) .gamma (usub nx 1)) .u (usub nx 1)) .v (usub nx 1)

theorem t_x (nx ny : Nat) (h : nx < 2 ^ 32) : tSizes nx ny .x = nx := by
  simp only [tSizes, resized, reduceCtorEq, if_false]; exact given_x nx ny h
theorem t_y (nx ny : Nat) (h : ny < 2 ^ 32) : tSizes nx ny .y = ny := by
  simp only [tSizes, resized, reduceCtorEq, if_false]; exact given_y nx ny h
theorem t_domain (nx ny : Nat) : tSizes nx ny .domain = 0 := by
  simp only [tSizes, resized, reduceCtorEq, if_false]; exact given_other nx ny _ (by decide) (by decide)
theorem t_ydd (nx ny : Nat) (h : nx < 2 ^ 32) (h1 : 1 ≤ nx) : tSizes nx ny .ydd = nx := by
  simp only [tSizes, resized, reduceCtorEq, if_false, if_true, usub_eq nx 1 h h1]; omega
theorem t_work (nx ny : Nat) (h : nx < 2 ^ 32) (h1 : 1 ≤ nx) (r : Arr)
    (hr : r = .h ∨ r = .a ∨ r = .beta ∨ r = .gamma ∨ r = .u ∨ r = .v) : tSizes nx ny r = nx - 1 := by
  rcases hr with rfl | rfl | rfl | rfl | rfl | rfl <;>
    simp only [tSizes, resized, reduceCtorEq, if_false, if_true, usub_eq nx 1 h h1] <;> omega

theorem t_verdict (b : SplineSizes.Build) (room nx ny : Nat) (hx : nx ≤ room) (hy : ny ≤ room) (hx32 : nx < 2 ^ 32)
    (hy32 : ny < 2 ^ 32) (l : List Acc) :
    exec b room SplineSizes.none (tensionData nx ny ++ (SplineSizes.apply nx ++ l)) =
    if b = .debug ∧ nx ≠ ny then .throw .outOfRange
    else if nx < 3 ∨ ny < nx then beyond b
    else exec b room (resized (resized (tSizes nx ny) .domain nx) .polys (nx - 1)) l := by
  unfold tensionData
  simp only [List.append_assoc]
  rw [exec_given _ _ _ _ _ hx hy]
  simp only [List.cons_append, List.nil_append, exec]
  by_cases hd : b = .debug ∧ nx ≠ ny
  · rw [if_pos hd, if_neg (by simp [hd.1, hd.2])]
  · rw [if_neg hd, if_pos (by
      simp only [Bool.or_eq_true, decide_eq_true_eq]
      by_cases h : nx = ny
      · exact .inl h
      · exact .inr (fun hb => hd ⟨hb, h⟩))]
    rcases Nat.eq_zero_or_pos nx with h0 | h0
    · have hz : (usub nx 1 + 1) % 2 ^ 32 = 0 := by rw [h0]; decide
      rw [hz, if_pos (Nat.zero_le room), if_neg (by simp [resized]), if_pos (by omega)]
    · have hu := usub_eq nx 1 hx32 h0
      have hfit : usub nx 1 ≤ room := by rw [hu]; omega
      rw [if_pos (by rw [hu]; omega), if_pos (by simp only [hu, resized, if_true]; omega)]
      simp only [hfit, if_true]
      show exec b room (tSizes nx ny) _ = _
      by_cases h3 : nx < 3
      · rw [if_pos (.inl h3)]
        apply exec_ats_beyond
        refine ⟨(.u, 1), by simp, ?_⟩
        simp only [t_work nx ny hx32 h0 .u (by simp)]; omega
      · by_cases hl : ny < nx
        · rw [if_pos (.inr hl)]
          apply exec_ats_beyond
          refine ⟨(.y, nx - 2 + 1), ?_, ?_⟩
          · simp only [List.mem_cons, List.mem_append, List.mem_flatMap, List.mem_range]
            refine .inr (.inr (.inr (.inl ⟨nx - 2, by rw [hu]; omega, by simp⟩)))
          · simp only [t_y nx ny hy32]; omega
        · rw [if_neg (by omega)]
          rw [exec_ats_ok, apply_ok _ _ _ _ _ (by omega) hx32 hx (t_domain nx ny) (t_x nx ny hx32)
            (by rw [t_y nx ny hy32]; omega) (t_ydd nx ny hx32 h0)]
          intro p hp
          have hu2 : usub (usub nx 1) 1 = nx - 2 := by rw [hu, usub_eq _ _ (by omega) (by omega)]; omega
          rw [hu2, hu] at hp
          simp only [List.mem_cons, List.mem_append, List.mem_flatMap, List.mem_reverse, List.mem_range'_1, List.mem_range,
            List.not_mem_nil, or_false] at hp
          have hw := t_work nx ny hx32 h0
          have e1 := hw .h (by simp)
          have e2 := hw .a (by simp)
          have e3 := hw .beta (by simp)
          have e4 := hw .gamma (by simp)
          have e5 := hw .u (by simp)
          have e6 := hw .v (by simp)
          have e7 := t_x nx ny hx32
          have e8 := t_y nx ny hy32
          have e9 := t_ydd nx ny hx32 h0
          rcases hp with rfl | rfl | rfl | ⟨i, hi, hp⟩ | rfl | rfl | rfl | rfl | rfl | rfl | ⟨i, hi, hp⟩ | rfl |
            ⟨i, hi, hp⟩ | rfl
          · simp only [e1]; omega
          · simp only [e7]; omega
          · simp only [e7]; omega
          · rcases hp with rfl | rfl | rfl | rfl | rfl | rfl | rfl | rfl <;>
              simp only [e1, e2, e3, e4, e7, e8] <;> omega
          · simp only [e5]; omega
          · simp only [e3]; omega
          · simp only [e3]; omega
          · simp only [e6]; omega
          · simp only [e4]; omega
          · simp only [e4]; omega
          · rcases hp with rfl | rfl | rfl | rfl | rfl | rfl | rfl | rfl | rfl <;>
              simp only [e2, e3, e4, e5, e6] <;> omega
          · simp only [e9]; omega
          · rcases hp with rfl | rfl | rfl | rfl | rfl <;> simp only [e2, e5, e6, e9] <;> omega
          · simp only [e9]; omega

/-! ## Smooth linear splines -/

def sSizes (nx ny : Nat) : Arr → Nat :=
  resized (resized (resized (resized (resized SplineSizes.none .x nx) .y ny) .segments (usub nx 1)) .corners
    (usub (usub nx 1) 1)) .domain (2 * usub nx 1 % 2 ^ 32)

theorem corners_ok (b : SplineSizes.Build) (room : Nat) (s : Arr → Nat) (n : Nat) (fits : Nat → Bool) (l : List Acc)
    (L : List Nat) (h : ∀ i ∈ L, i < s .segments ∧ i + 1 < s .x ∧ i - 1 < s .corners ∧
      (1 + 2 * (i - 1)) % 2 ^ 32 < s .domain ∧ (2 + 2 * (i - 1)) % 2 ^ 32 < s .domain) :
    exec b room s (L.flatMap (corner n fits) ++ l) =
      if L.all fits then exec b room s l else .throw .constructorError := by
  induction L with
  | nil => simp
  | cons i L ih =>
    obtain ⟨h1, h2, h3, h4, h5⟩ := h i (by simp)
    simp only [List.flatMap_cons, corner, List.append_assoc]
    rw [exec_ats_ok]
    · simp only [List.cons_append, List.nil_append, exec]
      cases hf : fits i with
      | false => simp [hf]
      | true =>
        rw [if_pos rfl, exec_ats_ok, ih fun j hj => h j (by simp [hj])]
        · simp [hf]
        · intro p hp
          simp only [List.mem_cons, List.not_mem_nil, or_false] at hp
          rcases hp with rfl | rfl
          · exact h4
          · exact h5
    · intro p hp
      simp only [List.mem_cons, List.not_mem_nil, or_false] at hp
      rcases hp with rfl | rfl | rfl | rfl | rfl | rfl <;> simp only <;> omega

theorem s_prefix (b : SplineSizes.Build) (room nx ny : Nat) (hx : nx ≤ room) (hy : ny ≤ room)
    (h1 : usub nx 1 ≤ room) (h2 : usub (usub nx 1) 1 ≤ room) (h3 : 2 * usub nx 1 % 2 ^ 32 ≤ room) (l : List Acc) :
    exec b room SplineSizes.none ([.size .x nx, .size .y ny, .hard (nx = ny) .outOfRange,
      .size .segments (usub nx 1), .size .corners (usub (usub nx 1) 1), .size .domain (2 * usub nx 1 % 2 ^ 32)] ++ l) =
    if nx = ny then exec b room (sSizes nx ny) l else .throw .outOfRange := by
  simp only [List.cons_append, List.nil_append, exec, hx, hy, h1, h2, h3, if_true, decide_eq_true_eq, sSizes]

theorem s_sizes (nx ny : Nat) (h : nx < 2 ^ 32) (h2 : 2 ≤ nx) (hy : ny < 2 ^ 32) :
    sSizes nx ny .x = nx ∧ sSizes nx ny .y = ny ∧ sSizes nx ny .segments = nx - 1 ∧ sSizes nx ny .corners = nx - 2 ∧
      sSizes nx ny .domain = 2 * (nx - 1) % 2 ^ 32 := by
  have hu := usub_eq nx 1 h (by omega)
  have hu2 : usub (usub nx 1) 1 = nx - 2 := by rw [hu, usub_eq _ _ (by omega) (by omega)]; omega
  simp only [sSizes, resized, reduceCtorEq, if_false, if_true, hu2]
  simp only [hu]
  omega

def sAcc (n : Nat) : List (Arr × Nat) :=
  (List.range n).flatMap (fun i => [(.segments, i), (.x, i), (.y, i), (.x, i + 1), (.y, i + 1)]) ++
    [(.domain, 0), (.x, 0), (.domain, usub (2 * n) 1), (.x, n)]

theorem smooth_eq (nx ny : Nat) (fits : Nat → Bool) (l : List Acc) : smooth nx ny fits ++ l =
    [.size .x nx, .size .y ny, .hard (nx = ny) .outOfRange,
      .size .segments (usub nx 1), .size .corners (usub (usub nx 1) 1), .size .domain (2 * usub nx 1 % 2 ^ 32)] ++
    (ats (sAcc (usub nx 1)) ++ ((List.range' 1 (usub nx 1 - 1)).flatMap (corner (usub nx 1) fits) ++ l)) := by
  simp only [smooth, sAcc, List.append_assoc]

theorem s_verdict (b : SplineSizes.Build) (room nx ny : Nat) (fits : Nat → Bool) (hx : 2 * nx ≤ room) (hy : ny ≤ room)
    (h2 : 2 ≤ nx) (h31 : nx ≤ 2 ^ 31) (l : List Acc) :
    exec b room SplineSizes.none (smooth nx ny fits ++ l) =
      if nx = ny then
        if (List.range' 1 (nx - 2)).all fits then exec b room (sSizes nx ny) l else .throw .constructorError
      else .throw .outOfRange := by
  have h32 : nx < 2 ^ 32 := by omega
  have hu := usub_eq nx 1 h32 (by omega)
  have hu2 : usub (usub nx 1) 1 = nx - 2 := by rw [hu, usub_eq _ _ (by omega) (by omega)]; omega
  rw [smooth_eq, s_prefix b room nx ny (by omega) hy (by rw [hu]; omega) (by rw [hu2]; omega) (by rw [hu]; omega)]
  split
  · rename_i he
    obtain ⟨e1, e2, e3, e4, e5⟩ := s_sizes nx ny h32 h2 (by omega)
    have hacc : ∀ p ∈ sAcc (usub nx 1), p.2 < sSizes nx ny p.1 := by
      intro p hp
      have hu3 : usub (2 * usub nx 1) 1 = 2 * (nx - 1) - 1 := by rw [hu]; exact usub_eq _ _ (by omega) (by omega)
      simp only [sAcc, hu3] at hp
      rw [hu] at hp
      simp only [List.mem_cons, List.mem_append, List.mem_flatMap, List.mem_range, List.not_mem_nil, or_false] at hp
      rcases hp with ⟨i, hi, hp⟩ | rfl | rfl | rfl | rfl
      · rcases hp with rfl | rfl | rfl | rfl | rfl <;> simp only [e1, e2, e3] <;> omega
      · simp only [e5]; omega
      · simp only [e1]; omega
      · simp only [e5]; omega
      · simp only [e1]; omega
    rw [exec_ats_ok _ _ _ _ _ hacc, corners_ok]
    · rw [hu]; rfl
    · intro i hi
      simp only [List.mem_range'_1, hu] at hi
      rw [e1, e3, e4, e5]; omega
  · rfl

theorem sAcc_mem (n : Nat) : (Arr.x, 0) ∈ sAcc n ∧ (Arr.domain, 0) ∈ sAcc n := by
  unfold sAcc
  generalize usub (2 * n) 1 = k
  exact ⟨List.mem_append_right _ (by simp), List.mem_append_right _ (by simp)⟩

theorem s_x (nx ny : Nat) : sSizes nx ny .x = nx % 2 ^ 32 := by
  simp only [sSizes, resized, reduceCtorEq, if_false, if_true]

theorem s_domain (nx ny : Nat) : sSizes nx ny .domain = 2 * usub nx 1 % 2 ^ 32 % 2 ^ 32 := by
  simp only [sSizes, resized, if_true]

theorem s_short (nx : Nat) (hx : nx < 2 ∨ nx = 2 ^ 31 + 1) :
    ∃ p ∈ sAcc (usub nx 1), sSizes nx nx p.1 ≤ p.2 := by
  rcases hx with h | h
  · rcases Nat.eq_zero_or_pos nx with h0 | h0
    · refine ⟨(.x, 0), (sAcc_mem _).1, ?_⟩
      show sSizes nx nx .x ≤ 0
      rw [s_x]; omega
    · refine ⟨(.domain, 0), (sAcc_mem _).2, ?_⟩
      show sSizes nx nx .domain ≤ 0
      rw [s_domain, usub_eq nx 1 (by omega) h0]; omega
  · refine ⟨(.domain, 0), (sAcc_mem _).2, ?_⟩
    show sSizes nx nx .domain ≤ 0
    rw [s_domain, usub_eq nx 1 (by omega) (by omega)]; omega

theorem usub_lt (n k : Nat) : usub n k < 2 ^ 32 := Nat.mod_lt _ (by decide)

/-- Fewer than two points, or so many that their number doubled does not fit: an access is out of range if the huge
arrays can be had. -/
theorem s_beyond (b : SplineSizes.Build) (room nx : Nat) (fits : Nat → Bool) (l : List Acc)
    (hx : nx < 2 ∨ nx = 2 ^ 31 + 1) (hr : 2 ^ 32 ≤ room) :
    exec b room SplineSizes.none (smooth nx nx fits ++ l) = beyond b := by
  have hle : ∀ n k, usub n k ≤ room := fun n k => by have := usub_lt n k; omega
  have hm : 2 * usub nx 1 % 2 ^ 32 ≤ room := by have := Nat.mod_lt (2 * usub nx 1) (by decide : 0 < 2 ^ 32); omega
  rw [smooth_eq, s_prefix b room nx nx (by omega) (by omega) (hle _ _) (hle _ _) hm, if_pos rfl]
  exact exec_ats_beyond _ _ _ _ _ (s_short nx hx)

theorem exec_size_ok (b : SplineSizes.Build) (room : Nat) (s : Arr → Nat) (r : Arr) (n : Nat) (l : List Acc)
    (h : n ≤ room) : exec b room s (.size r n :: l) = exec b room (resized s r n) l := by
  simp only [exec, h, if_true]

theorem exec_size_fail (b : SplineSizes.Build) (room : Nat) (s : Arr → Nat) (r : Arr) (n : Nat) (l : List Acc)
    (h : room < n) : exec b room s (.size r n :: l) = .throw .memoryError := by
  have : ¬ n ≤ room := by omega
  simp only [exec, this, if_false]

theorem s_memory_aux (b : SplineSizes.Build) (room nx u1 u2 u3 : Nat) (l : List Acc) (hn : nx ≤ room)
    (h : room < u1 ∨ (u1 ≤ room ∧ room < u2)) :
    exec b room SplineSizes.none ([.size .x nx, .size .y nx, .hard (nx = nx) .outOfRange,
      .size .segments u1, .size .corners u2, .size .domain u3] ++ l) = .throw .memoryError := by
  simp only [List.cons_append, List.nil_append]
  rw [exec_size_ok _ _ _ _ _ _ hn, exec_size_ok _ _ _ _ _ _ hn]
  simp only [exec, decide_true, if_true]
  rcases h with h | ⟨h1, h2⟩
  · rw [if_neg (by omega)]
  · rw [if_pos h1, if_neg (by omega)]

theorem usub_zero : usub 0 1 = 2 ^ 32 - 1 := by decide

theorem s_memory (b : SplineSizes.Build) (room nx : Nat) (fits : Nat → Bool) (l : List Acc)
    (hx : nx < 2) (h1 : 1 ≤ room) (hr : room < 2 ^ 32 - 1) :
    exec b room SplineSizes.none (smooth nx nx fits ++ l) = .throw .memoryError := by
  rw [smooth_eq]
  apply s_memory_aux b room nx _ _ _ _ (by omega)
  have hz := usub_zero
  generalize hu : usub nx 1 = u1
  have h01 : nx = 0 ∨ nx = 1 := by omega
  rcases h01 with h | h
  · rw [h, hz] at hu
    left; rw [← hu]; exact hr
  · rw [h] at hu
    have h1 : u1 = 0 := by rw [← hu]; decide
    rw [h1, hz]
    exact .inr ⟨Nat.zero_le _, hr⟩

/-! ## The values' models -/

theorem c2_data_verdict (b : SplineSizes.Build) (room nx ny : Nat) (hx : nx ≤ room) (hy : ny ≤ room) (hx32 : nx < 2 ^ 32)
    (hy32 : ny < 2 ^ 32) (hb : b ≠ .silent) (L1 L2 : List (Arr × Nat))
    (h1 : 2 ≤ nx → nx ≤ ny → ∀ p ∈ L1 ++ L2, p.2 < c2Sizes nx ny p.1) :
    endOf (exec b room SplineSizes.none (copy .x nx ++ copy .y ny ++
      [.ecl (!(nx < 2 || ny < 2)), .assert (nx = ny), .size .ydd nx, .size .u nx] ++
      ats (L1 ++ elimination nx ++ L2 ++ backSubstitution nx))) =
    if nx < 2 ∨ ny < 2 then .throw .outOfRange
    else if b = .debug ∧ nx ≠ ny then .throw .outOfRange
    else if ny < nx then .ub
    else .ok () := by
  rw [c2_prefix b room nx ny _ hx hy]
  by_cases hs : nx < 2 ∨ ny < 2
  · rw [if_pos hs, if_pos ⟨hs, hb⟩]; rfl
  · rw [if_neg hs, if_neg (by simp [hs])]
    by_cases hd : b = .debug ∧ nx ≠ ny
    · rw [if_pos hd, if_pos hd]; rfl
    · rw [if_neg hd, if_neg hd, ← List.append_nil (ats _)]
      by_cases hl : ny < nx
      · rw [if_pos hl, exec_ats_beyond, beyond_ub b (fun hb => hd ⟨hb, by omega⟩)]
        · rfl
        · refine ⟨(.y, (nx - 2 + 1) % 2 ^ 32), ?_, ?_⟩
          · simp only [List.mem_append]
            refine .inl (.inl (.inr ?_))
            simp only [elimination, upTo, List.mem_flatMap, List.mem_range'_1]
            rw [usub_eq nx 2 hx32 (by omega)]
            exact ⟨nx - 2, ⟨by omega, by omega⟩, by simp⟩
          · simp only [c2_y nx ny hy32]; omega
      · rw [if_neg hl, exec_ats_ok]
        · rfl
        · have h1' := h1 (by omega) (by omega)
          exact c2_ok nx ny (by omega) hx32 hy32 (by omega) L1 L2 (fun p hp => h1' p (by simp [hp]))
            (fun p hp => h1' p (by simp [hp]))

end Ecl.Props.C138
