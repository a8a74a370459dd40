import Verif.Lemmas.TensionReturns2
import Verif.Lemmas.TensionTrajectoryJump
import Verif.Lemmas.LinearTrajectoryZero

/-! # C132: the interpolation with tension splines returns if and only if all limits are positive -/
set_option autoImplicit false

namespace Ecl.Props
open Ecl Ecl.Poly Ecl.Manip Ecl.Spec Ecl.TensionTrajectory
open Ecl.LinearTrajectory (at_of_getElem?)
open Ecl.CubicSpline (at')

/-- **C132.** With positive limits, however small, the call returns: its loops end after finitely many passes, and
what it returns does not depend on how many passes it is granted. -/
theorem C132_returns (mode : Mode) (d : ℕ) (amax : List ℝ) (tau : ℝ) (ws : List WayPoint) (hd : 0 < d) (ht : 0 < tau)
    (hf : ∀ w ∈ ws, Fits d w) (hu : Usable 5 ws ∨ mode = .release ∧ Usable 3 ws)
    (ha : ∀ j < d, ∃ limit, amax[j]? = some limit ∧ 0 < limit) :
    ∃ (needed : ℕ) (tr : Trajectory), ∀ passes, needed ≤ passes → tensionSplineInterpolation mode d amax tau passes ws = some (.ok tr) := by
  have hu3 : Usable 3 ws := by
    rcases hu with hu | hu
    · exact ⟨by have := hu.1; omega, hu.2⟩
    · exact hu.2
  obtain ⟨ws', hr, hk, e⟩ := entered_all mode amax tau hf hu3 (by
    rcases hu with hu | hu
    · exact Or.inr hu.1
    · exact Or.inl hu.1)
  obtain ⟨A, hA, hle⟩ := exists_least amax hd fun j hj => by
    obtain ⟨a, h1, h2⟩ := ha j hj
    rw [at_of_getElem? h1]; exact h2
  obtain ⟨n, tr, h⟩ := build_ends mode hd amax ht hA hle hr (by rw [← hk.length_eq]; exact hu3.1)
  exact ⟨n, tr, fun passes hp => by rw [e]; exact build_more mode d amax tau hp h⟩

/-- **C132.** With a limit that is zero or negative it never returns: nothing checks the limits, a negative one is
broken at every knot and a zero one by every quintic. -/
theorem C132_fails_limit (mode : Mode) (d : ℕ) (amax : List ℝ) (tau : ℝ) (ws : List WayPoint) (hd : 0 < d) (ht : 0 < tau)
    (hf : ∀ w ∈ ws, Fits d w) (hu : Usable 5 ws ∨ mode = .release ∧ Usable 3 ws)
    (j : ℕ) (hj : j < d) (limit : ℝ) (hl : amax[j]? = some limit) (hle : limit ≤ 0) :
    ∀ passes, tensionSplineInterpolation mode d amax tau passes ws = none := by
  intro passes
  have hu3 : Usable 3 ws := by
    rcases hu with hu | hu
    · exact ⟨by have := hu.1; omega, hu.2⟩
    · exact hu.2
  obtain ⟨ws', hr, hk, e⟩ := entered_all mode amax tau hf hu3 (by
    rcases hu with hu | hu
    · exact Or.inr hu.1
    · exact Or.inl hu.1)
  have h3 : 3 ≤ ws'.length := by rw [← hk.length_eq]; exact hu3.1
  rw [e]
  rcases build_spec mode hd amax ht passes hr h3 with h | ⟨tr, ws1, start, t, h, -⟩
  · exact h
  · have := build_positive mode hd amax ht hr h3 h j hj
    rw [at_of_getElem? hl] at this
    linarith

/-- **C132.** So for usable waypoints, a positive tension and a limit for every joint, the call returns if and only
if all these limits are positive. -/
theorem C132_decision (mode : Mode) (d : ℕ) (amax : List ℝ) (tau : ℝ) (ws : List WayPoint) (hd : 0 < d) (ht : 0 < tau)
    (hf : ∀ w ∈ ws, Fits d w) (hu : Usable 5 ws ∨ mode = .release ∧ Usable 3 ws) (hl : d ≤ amax.length) :
    (∃ passes r, tensionSplineInterpolation mode d amax tau passes ws = some r) ↔ ∀ j < d, ∀ limit, amax[j]? = some limit → 0 < limit := by
  constructor
  · rintro ⟨passes, r, h⟩ j hj limit hlim
    by_contra hle
    rw [C132_fails_limit mode d amax tau ws hd ht hf hu j hj limit hlim (not_lt.1 hle)] at h
    cases h
  · intro h
    obtain ⟨n, tr, e⟩ := C132_returns mode d amax tau ws hd ht hf hu fun j hj =>
      ⟨amax[j]'(by omega), List.getElem?_eq_getElem (by omega), h j hj _ (List.getElem?_eq_getElem (by omega))⟩
    exact ⟨n, _, e n (le_refl n)⟩

/-- **C132.** A trajectory starts with a limit of zero for every joint.  Unless limits are set neither of the
interpolations ever returns, whatever the waypoints are. -/
theorem C132_fails_default (mode : Mode) (d : ℕ) (ws : List WayPoint) (hd : 0 < d) (hf : ∀ w ∈ ws, Fits d w) :
    (Usable 2 ws → ∀ passes, LinearTrajectory.linearSplineInterpolation mode d (LinearTrajectory.defaultLimits d) passes ws = none) ∧
    (Usable 5 ws → ∀ tau, 0 < tau → ∀ passes,
      tensionSplineInterpolation mode d (LinearTrajectory.defaultLimits d) tau passes ws = none) := by
  constructor
  · intro hu passes
    obtain ⟨n, rfl⟩ : ∃ n, d = n + 1 := ⟨d - 1, by omega⟩
    rcases LinearTrajectory.entered mode (n + 1) (LinearTrajectory.defaultLimits (n + 1)) ws hf with
      ⟨hv, -⟩ | ⟨-, ⟨i, w, next, hs, hw, hm⟩, -⟩ | ⟨-, -, ws', hr, -, e⟩
    · rw [(validate_iff (by norm_num)).2 ⟨hu.1, hu.2.1⟩] at hv
      cases hv
    · exfalso
      rcases hu.2.2 i w next hs with h | ⟨j, a, b, r, h, hne⟩
      · linarith
      · exact hne (hm j a b r h)
    · rw [e]
      exact LinearTrajectory.constrainLoop_zero mode (at_replicate (n + 1) n) passes ws' hr
  · intro hu tau ht
    exact C132_fails_limit mode d _ tau ws hd ht hf (Or.inl hu) 0 hd 0
      (by simp [LinearTrajectory.defaultLimits, List.getElem?_replicate, hd]) (le_refl 0)

/-- **C132.** The linear interpolation does not return either if the last joint's limit is zero. -/
theorem C132_fails_last_limit (mode : Mode) (d : ℕ) (amax : List ℝ) (ws : List WayPoint) (hf : ∀ w ∈ ws, Fits (d + 1) w)
    (hu : Usable 2 ws) (hl : amax[d]? = some 0) : ∀ passes, LinearTrajectory.linearSplineInterpolation mode (d + 1) amax passes ws = none := by
  intro passes
  rcases LinearTrajectory.entered mode (d + 1) amax ws hf with ⟨hv, -⟩ | ⟨-, ⟨i, w, next, hs, hw, hm⟩, -⟩ | ⟨-, -, ws', hr, -, e⟩
  · rw [(validate_iff (by norm_num)).2 ⟨hu.1, hu.2.1⟩] at hv
    cases hv
  · exfalso
    rcases hu.2.2 i w next hs with h | ⟨j, a, b, r, h, hne⟩
    · linarith
    · exact hne (hm j a b r h)
  · rw [e]
    exact LinearTrajectory.constrainLoop_zero mode (at_of_getElem? hl) passes ws' hr

/-- Five waypoints of one joint that changes its direction: a thousandth is enough as a limit, zero and minus one are
not. -/
example : (∃ passes r, tensionSplineInterpolation .debug 1 [1 / 1000] 2 passes bent = some r) ∧
    ¬ (∃ passes r, tensionSplineInterpolation .debug 1 [0] 2 passes bent = some r) ∧
    ¬ (∃ passes r, tensionSplineInterpolation .debug 1 [-1] 2 passes bent = some r) := by
  refine ⟨?_, ?_, ?_⟩
  · rw [C132_decision .debug 1 _ 2 bent one_pos two_pos bent_fits (Or.inl bent_usable) (by simp)]
    intro j hj limit h
    obtain rfl : j = 0 := by omega
    simp at h
    rw [← h]; norm_num
  · rw [C132_decision .debug 1 _ 2 bent one_pos two_pos bent_fits (Or.inl bent_usable) (by simp)]
    intro h
    exact absurd (h 0 one_pos 0 rfl) (lt_irrefl _)
  · rw [C132_decision .debug 1 _ 2 bent one_pos two_pos bent_fits (Or.inl bent_usable) (by simp)]
    intro h
    have := h 0 one_pos (-1) rfl
    norm_num at this

end Ecl.Props
