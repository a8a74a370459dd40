import Verif.Lemmas.NanExact
import Mathlib.Tactic.NormNum

/-!
# C131: NaN in splines and trajectories

The theorems hold for every arithmetic in which NaN spreads, so for `double` with any rounding.
-/
set_option autoImplicit false

namespace Ecl.Props
open Ecl Ecl.Nan Ecl.Nan.Spec Ecl.Poly Ecl.Poly.Ext

variable {F : Type} {A : Arith F} {isNan isZero : F → Prop}

/-- There is such an arithmetic: exact numbers with the infinities and NaN. -/
example : Spreads exact (· = nan) ∧ Zeros exact (· = nan) (· = num 0) := ⟨exact_spreads, exact_zeros⟩

/-- **C131.** A smooth linear spline through three or more points of which one coordinate is NaN is refused: the
constructor throws `ConstructorError` with the index of one of the corners. -/
theorem C131_spline (H : Spreads A isNan) (xs ys : List F) (amax : F) (hl : ys.length = xs.length) (h3 : 3 ≤ xs.length)
    (h : (∃ x ∈ xs, isNan x) ∨ (∃ y ∈ ys, isNan y)) :
    ∃ k, 0 < k ∧ k + 1 < xs.length ∧ smooth A xs ys amax = .data .constructorError k :=
  smooth_nan H xs ys amax hl h3 h

/-- Three points, the last one with an unknown height. -/
example : ∃ k, 0 < k ∧ k + 1 < 3 ∧
    smooth exact [num 0, num 1, num 2] [num 0, num 1, nan] (num 5) = .data .constructorError k :=
  C131_spline exact_spreads [num 0, num 1, num 2] [num 0, num 1, nan] _ rfl (by simp) (Or.inr ⟨nan, by simp, rfl⟩)

/-- **C131.** (The limit of `C131_spline`.)  Two points are accepted whatever they are, as there is no corner at
which anything is checked. -/
theorem C131_fails_two_points (x₀ x₁ y₀ y₁ amax : F) (isNan : F → Prop) (H : Spreads A isNan) (hy : isNan y₀) :
    ∃ s, smooth A [x₀, x₁] [y₀, y₁] amax = .ok s ∧ s.domain = [x₀, x₁] ∧ ∃ f, s.segments = [f] ∧ ∀ x, isNan (eval A 1 f x) := by
  refine ⟨_, rfl, rfl, _, rfl, fun x => ?_⟩
  exact eval_nan H _ x 1 1 le_rfl (line_nan H _ _ 0 (Or.inr (Or.inl hy)))

/-- Such an arithmetic and such a point exist. -/
example : ∃ s, smooth exact [num 0, num 1] [nan, num 1] (num 5) = .ok s :=
  let ⟨s, h, _⟩ := C131_fails_two_points (num 0) (num 1) nan (num 1) (num 5) (· = nan) exact_spreads rfl
  ⟨s, h⟩

/-- **C131.** A tension spline made with a single NaN among its points, or with a tension that is NaN or zero, is
not refused; whatever is asked of it anywhere, each value, slope and acceleration it returns is NaN. -/
theorem C131_tension_spline (H : Spreads A isNan) (Z : Zeros A isNan isZero) (mode : Mode) (xs ys : List F) (tau : F)
    (hl : ys.length = xs.length) (h3 : 3 ≤ xs.length)
    (hn : isNan tau ∨ isZero tau ∨ (∃ x ∈ xs, isNan x) ∨ (∃ y ∈ ys, isNan y)) :
    ∃ s, natural A mode xs ys tau = .ok s ∧
      ∀ x v, s.value A mode x = .ok v ∨ s.slope A mode x = .ok v ∨ s.curvature A mode x = .ok v → isNan v := by
  obtain ⟨s, h⟩ : ∃ s, natural A mode xs ys tau = .ok s := by
    unfold natural
    rw [if_neg (by simp [hl]), if_neg (by omega)]
    exact ⟨_, rfl⟩
  refine ⟨s, h, fun x v hv => ?_⟩
  have hf := natural_nan H mode xs ys tau s h (by
    rcases hn with hn | hn | hn | ⟨y, hy, hn⟩
    · exact Or.inl (bad_nan H tau hn)
    · exact Or.inl (bad_zero H Z tau hn)
    · exact Or.inr (Or.inl hn)
    · obtain ⟨k, hk, e⟩ := List.mem_iff_getElem.1 hy
      exact Or.inr (Or.inr ⟨k, by omega, by simp [Nan.get, List.getD, hk, e, hn]⟩))
  rcases hv with hv | hv | hv
  · exact call_nan _ mode s x v hv fun g hg => value_nan H g _ _ (hf g hg)
  · exact call_nan _ mode s x v hv fun g hg => slope_nan H g _ _ (hf g hg)
  · exact call_nan _ mode s x v hv fun g hg => curvature_nan H g _ _ (hf g hg)

/-- Ordinary points with tension zero: in the middle of the first segment there is a value, and it is NaN. -/
example : ∃ s, natural exact .debug [num 0, num 1, num 2] [num 0, num 1, num 0] (num 0) = .ok s ∧
    s.value exact .debug (num (1 / 2)) = .ok nan := by
  obtain ⟨s, h, hv⟩ := C131_tension_spline exact_spreads exact_zeros .debug [num 0, num 1, num 2] [num 0, num 1, num 0] (num 0) rfl
    (by simp) (Or.inr (Or.inl rfl))
  refine ⟨s, h, ?_⟩
  have hk : [num 0, num 1, num 2] = (knots 0 [1, 1]).map num := by norm_num [knots]
  obtain ⟨y, hy⟩ := call_num (Func.value exact) .debug 0 (1 / 2) [1, 1] s (by simp) (by simp) (by norm_num)
    ⟨1, by norm_num [knots], by norm_num⟩ (by rw [← hk]; cases h; rfl) (by cases h; rfl)
  have := hv _ y (Or.inl hy)
  rw [this] at hy
  exact hy

/-- **C131.** A trajectory of smooth linear splines that is returned was made from waypoints without a NaN. -/
theorem C131_linear (H : Spreads A isNan) (mode : Mode) (joints : ℕ) (hj : 0 < joints) (amax : List F) (passes : ℕ)
    (ws : List (WayPoint F)) (t : LinearTrajectory F)
    (h : linearSplineInterpolation A mode joints amax passes ws = some (.ok t)) : ¬ HasNan isNan joints ws := by
  intro hn
  rcases linear_nan H mode joints hj amax passes ws (Nan.HasNan.taint hn) with e | e | e <;> rw [e] at h <;> cases h

/-- **C131.** With a NaN in the waypoints the interpolation does not return, however many passes its loops make,
unless its first checks (number of points, nominal rates, durations) refuse the waypoints: there is no other error. -/
theorem C131_linear_never (H : Spreads A isNan) (mode : Mode) (joints : ℕ) (hj : 0 < joints) (amax : List F) (passes : ℕ)
    (ws : List (WayPoint F)) (hn : HasNan isNan joints ws) (ha : Apart A joints ws) :
    linearSplineInterpolation A mode joints amax passes ws = none ∨
    linearSplineInterpolation A mode joints amax passes ws = some (.throw .configurationError) ∧
      (ws.length < 2 ∨ (∃ w ∈ ws.dropLast, ∃ r ∈ w.nominal, A.le r (A.lit 0) = true) ∨ (initialise A joints ws).2 = false) := by
  rcases linear_hang H mode joints hj amax passes ws (Nan.HasNan.taint hn) (Nan.Apart.told ha) with e | ⟨e, h⟩
  · exact Or.inl e
  · refine Or.inr ⟨e, ?_⟩
    rcases h with h | h
    · unfold validate at h
      split at h
      · exact Or.inl (by assumption)
      · split at h
        · cases h
        · right; left
          injection h with h
          rw [List.all_eq_false] at h
          obtain ⟨w, hw, h⟩ := h
          rw [Bool.not_eq_true, List.all_eq_false] at h
          obtain ⟨r, hr, h⟩ := h
          refine ⟨w, hw, r, hr, ?_⟩
          simpa using h
    · exact Or.inr (Or.inr h)

/-- Two waypoints, the first angle unknown. -/
noncomputable def C131.unknown : List (WayPoint Ext) :=
  [⟨[nan], [], [num 1], num 1, false⟩, ⟨[num 1], [], [num 1], num 1, false⟩]

/-- **C131.** (Negation.)  It is not so that bad data are refused: for these waypoints the interpolation never
comes to an end, in either build. -/
theorem C131_fails_hang (mode : Mode) (amax : List Ext) (passes : ℕ) :
    linearSplineInterpolation exact mode 1 amax passes C131.unknown = none := by
  have hap : isApprox exact (num 0) (opposite exact (num 0) (num 1)) = false := by
    norm_num [isApprox, opposite, psign, exact, Special.le, Special.lt, Special.abs, ge, gt, eq, mul, sub, add, neg]
  have hlit : exact.lit 0 = num 0 := by simp [exact]
  have hn : HasNan (· = nan) 1 C131.unknown := Or.inl ⟨_, List.mem_cons_self, 0, one_pos, nan, rfl, rfl⟩
  have ha : Apart exact 1 C131.unknown := by
    constructor
    · intro w hw j hj
      obtain rfl : j = 0 := by omega
      cases hw
      simpa [endRate, hlit] using hap
    · intro v w hv hw j hj
      obtain rfl : j = 0 := by omega
      cases hv; cases hw
      simpa [endRate, hlit] using hap
  rcases C131_linear_never exact_spreads mode 1 one_pos amax passes _ hn ha with h | ⟨_, h⟩
  · exact h
  · exfalso
    rcases h with h | ⟨w, hw, r, hr, h⟩ | h
    · simp [C131.unknown] at h
    · simp [C131.unknown] at hw
      subst hw
      simp at hr
      subst hr
      norm_num [exact, Special.le, ge, gt, eq] at h
    · norm_num [C131.unknown, initialise, longest, Nan.get, exact, sub, add, neg, Special.abs, div, Special.lt, gt, eq] at h

/-- **C131.** A trajectory of tension splines that is returned was made from waypoints without a NaN, and with a
tension that is neither NaN nor zero. -/
theorem C131_tension (H : Spreads A isNan) (Z : Zeros A isNan isZero) (mode : Mode) (joints : ℕ) (hj : 0 < joints) (amax : List F)
    (tau : F) (passes : ℕ) (ws : List (WayPoint F)) (t : TensionTrajectory F)
    (h : tensionSplineInterpolation A mode joints amax tau passes ws = some (.ok t)) :
    ¬ HasNan isNan joints ws ∧ ¬ isNan tau ∧ ¬ isZero tau :=
  ⟨fun n => tension_nan H mode joints hj amax tau passes ws (Or.inr (Nan.HasNan.taint n)) t h,
   fun n => tension_nan H mode joints hj amax tau passes ws (Or.inl (bad_nan H tau n)) t h,
   fun n => tension_nan H mode joints hj amax tau passes ws (Or.inl (bad_zero H Z tau n)) t h⟩

/-- **C131.** (Negation.)  A tension of zero is not refused: with waypoints of numbers that pass all checks the
interpolation never comes to an end, in either build. -/
theorem C131_fails_zero_tension (mode : Mode) (joints : ℕ) (hj : 0 < joints) (amax : List Ext) (passes : ℕ)
    (ws : List (WayPoint Ext)) (h5 : 5 ≤ ws.length) (h : ∀ w ∈ ws, Ordinary w) :
    tensionSplineInterpolation exact mode joints amax (num 0) passes ws = none :=
  zero_hang mode joints hj amax passes ws h5 h

/-- Five ordinary waypoints. -/
example : 5 ≤ (List.replicate 5 (⟨[num 1], [], [num 1], num 1, false⟩ : WayPoint Ext)).length ∧
    ∀ w ∈ List.replicate 5 (⟨[num 1], [], [num 1], num 1, false⟩ : WayPoint Ext), Ordinary w := by
  refine ⟨by simp, ?_⟩
  intro w hw
  rw [List.eq_of_mem_replicate hw]
  exact ⟨by simp, by simp, 1, one_pos, rfl⟩

end Ecl.Props
