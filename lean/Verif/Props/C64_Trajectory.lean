import Verif.Model.Odometry
import Mathlib.Tactic.Common

/-! # C64: appending trajectories -/
set_option autoImplicit false
set_option linter.unusedSimpArgs false

namespace Ecl.Props
open Ecl Ecl.Odometry

variable {α : Type}

/-- **C64** (appending to an empty trajectory; see `C64_fails_append` for the rest).  The target becomes
the addition. -/
theorem C64_append_partial (mode : Mode) (addition : List α) :
    addAtEnd mode [] addition = .ok ([] ++ addition) := rfl

/-- The property fails: a one column trajectory is replaced by the one that should be appended to
it. -/
theorem C64_fails_append :
    ¬ (∀ (mode : Mode) (target addition : List ℕ), addAtEnd mode target addition = .ok (target ++ addition)) := by
  intro h
  have := h .release [1] [2]
  simp [addAtEnd, insertInto] at this

/-- **C64.** What happens to a target that is not empty: it never grows.  An addition of the same
length replaces it; a shorter one overwrites its first columns in a release build and stops the program
otherwise; a longer one stops the program or, in a release build, writes behind its storage. -/
theorem C64_overwrites (target addition : List α) (h : target ≠ []) :
    (addition.length = target.length → ∀ mode, addAtEnd mode target addition = .ok addition) ∧
    (addition.length < target.length →
      addAtEnd .debug target addition = .abort ∧
      ∃ t, addAtEnd .release target addition = .ok t ∧ t.length = target.length ∧
        t.take addition.length = addition ∧ t.drop addition.length = target.drop addition.length) ∧
    (target.length < addition.length →
      addAtEnd .debug target addition = .abort ∧ addAtEnd .release target addition = .ub) := by
  have h0 : target.length ≠ 0 := by simpa using h
  unfold addAtEnd insertInto
  simp only [if_neg h0]
  refine ⟨?_, ?_, ?_⟩
  · intro e mode
    rw [if_neg (by omega), if_neg (by omega)]
  · intro e
    rw [if_neg (by omega), if_pos e, if_neg (by omega), if_pos e]
    exact ⟨rfl, _, rfl, by simp; omega, by simp, by simp⟩
  · intro e
    rw [if_pos e, if_pos e]
    exact ⟨rfl, rfl⟩

/-- **C64.** So appending works exactly when the target is empty, or, in a release build, nothing is
appended. -/
theorem C64_append_iff (mode : Mode) (target addition : List α) :
    addAtEnd mode target addition = .ok (target ++ addition) ↔
      target = [] ∨ (addition = [] ∧ mode = .release) := by
  constructor
  · intro h
    by_cases ht : target = []
    · exact Or.inl ht
    · right
      obtain ⟨h1, h2, h3⟩ := C64_overwrites target addition ht
      have hlen : 0 < target.length := List.length_pos_iff.2 ht
      rcases Nat.lt_trichotomy addition.length target.length with e | e | e
      · obtain ⟨ha, t, hr, hl, -⟩ := h2 e
        cases mode with
        | debug => rw [ha] at h; cases h
        | release =>
          rw [hr] at h
          simp only [Eig.ok.injEq] at h
          rw [h, List.length_append] at hl
          exact ⟨List.length_eq_zero_iff.1 (by omega), rfl⟩
      · rw [h1 e mode] at h
        simp only [Eig.ok.injEq] at h
        have := congrArg List.length h
        rw [List.length_append] at this
        omega
      · obtain ⟨ha, hr⟩ := h3 e
        cases mode with
        | debug => rw [ha] at h; cases h
        | release => rw [hr] at h; cases h
  · rintro (rfl | ⟨rfl, rfl⟩)
    · rfl
    · by_cases ht : target = []
      · subst ht; rfl
      · have hlen : 0 < target.length := List.length_pos_iff.2 ht
        unfold addAtEnd insertInto
        rw [if_neg (by omega), if_neg (by simp), if_pos (by simpa using hlen)]
        simp

theorem fill_spec (mode : Mode) : ∀ (vec pre storage : List α), vec.length = storage.length →
    fill mode vec pre.length (pre ++ storage) = .ok (pre ++ vec) := by
  intro vec
  induction vec with
  | nil =>
    intro pre storage h
    have : storage = [] := List.length_eq_zero_iff.1 h.symm
    rw [this]; rfl
  | cons v vs ih =>
    intro pre storage h
    match storage, h with
    | s :: ss, h =>
      unfold fill setAt
      rw [if_pos (by simp)]
      have e : (pre ++ s :: ss).set pre.length v = (pre ++ [v]) ++ ss := by simp
      have := ih (pre ++ [v]) ss (by simpa using h)
      simp only [List.length_append, List.length_singleton] at this
      simp only [e, this]
      simp

/-- **C64.** `vectorToTrajectory` yields exactly the entries of the vector, in order, whatever the
storage contained before. -/
theorem C64_vector (mode : Mode) (vec storage : List α) (h : storage.length = vec.length) :
    vectorToTrajectory mode vec storage = .ok vec :=
  fill_spec mode vec [] storage h.symm

/-- **C64.** Reading back: entry `i` of the trajectory is entry `i` of the vector; the first and the last
likewise. -/
theorem C64_read_back (mode : Mode) (vec storage : List α) (h : storage.length = vec.length) :
    ∃ t, vectorToTrajectory mode vec storage = .ok t ∧
      (∀ (i : ℕ) (hi : i < vec.length), getAt mode t i = .ok vec[i]) ∧
      (∀ (hne : vec ≠ []), getFront mode t = .ok (vec.head hne) ∧ getBack mode t = .ok (vec.getLast hne)) := by
  refine ⟨vec, C64_vector mode vec storage h, ?_, ?_⟩
  · intro i hi
    unfold getAt
    rw [List.getElem?_eq_getElem hi]
  · intro hne
    unfold getFront getBack
    rw [List.head?_eq_some_head hne, List.getLast?_eq_some_getLast hne]
    exact ⟨rfl, rfl⟩

/-- **C64.** `resize` gives the trajectory the new number of columns; those that fit stay what they were. -/
theorem C64_resize (mode : Mode) (t fresh : List α) (n : ℕ) (h : n - t.length ≤ fresh.length) :
    (resize t n fresh).length = n ∧
    (∀ i, i < n → i < t.length → getAt mode (resize t n fresh) i = getAt mode t i) ∧
    ∀ vec : List α, vec.length = n → vectorToTrajectory mode vec (resize t n fresh) = .ok vec := by
  have hl : (resize t n fresh).length = n := by
    unfold resize
    rw [List.length_append, List.length_take, List.length_take]
    omega
  refine ⟨hl, fun i hi ht => ?_, fun vec hv => C64_vector mode vec _ (by rw [hl, hv])⟩
  unfold getAt resize
  rw [List.getElem?_append_left (by rw [List.length_take]; omega), List.getElem?_take_of_lt hi]

example : resize [3, 1, 2] 5 [7, 8, 9] = [3, 1, 2, 7, 8] := rfl

/-- **C64.** A column that is set is read back, the others keep their content. -/
theorem C64_setAt (mode : Mode) (t : List α) (i : ℕ) (v : α) (hi : i < t.length) :
    ∃ t', setAt mode t i v = .ok t' ∧ getAt mode t' i = .ok v ∧ t'.length = t.length ∧
      ∀ j, j ≠ i → getAt mode t' j = getAt mode t j := by
  refine ⟨t.set i v, by unfold setAt; rw [if_pos hi], ?_, by simp, ?_⟩
  · unfold getAt; rw [List.getElem?_set_self hi]
  · intro j hj
    unfold getAt; rw [List.getElem?_set_ne (by omega)]

example : vectorToTrajectory .debug [3, 1, 2] [0, 0, 7] = .ok [3, 1, 2] := C64_vector _ _ _ rfl
example : addAtEnd .release [1, 2, 3] [9] = .ok [9, 2, 3] := rfl

/-- **C64.** The poses of a trajectory of odometries: as many, each the pose of the odometry at the same place. -/
theorem C64_poses (mode : Mode) (t : List Odom) :
    (getPoses t).length = t.length ∧
    ∀ (i : ℕ) (hi : i < t.length), getAt mode (getPoses t) i = .ok t[i].pose := by
  refine ⟨by simp [getPoses], fun i hi => ?_⟩
  simp [getAt, getPoses, List.getElem?_map, List.getElem?_eq_getElem hi]

end Ecl.Props
