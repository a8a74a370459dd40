import Verif.Lemmas.NanReal
import Verif.Model.NanTrajectory
import Verif.Model.TensionTrajectory
import Verif.Spec.Waypoints

/-! # Tension splines and their trajectories over an arbitrary arithmetic, run with the real numbers -/
set_option autoImplicit false
set_option linter.unusedSimpArgs false

namespace Ecl.NanReal
open Ecl
open Ecl.CubicSpline (at')

theorem into_bind {α β γ : Type} (f : α → β) (o : Outcome α) (g : β → Outcome γ) :
    (into f o).bind g = o.bind fun a => g (f a) := by cases o <;> rfl
theorem bind_into {α β γ : Type} (f : β → γ) (o : Outcome α) (g : α → Outcome β) :
    into f (o.bind g) = o.bind fun a => into f (g a) := by cases o <;> rfl
theorem bind_congr {α β : Type} {o : Outcome α} {g h : α → Outcome β} (e : ∀ a, g a = h a) : o.bind g = o.bind h := by
  cases o <;> simp [Outcome.bind, e]

theorem value_eq (f : TensionSpline.Func) (tau x : ℝ) : Nan.Func.value reals (func f) tau x = f.value tau x := rfl
theorem slopeT_eq (f : TensionSpline.Func) (tau x : ℝ) : Nan.Func.slope reals (func f) tau x = f.slope tau x := by
  simp [Nan.Func.slope, TensionSpline.Func.slope, reals, func]
theorem curvature_eq (f : TensionSpline.Func) (tau x : ℝ) : Nan.Func.curvature reals (func f) tau x = f.curvature tau x := rfl

theorem beyond_eq {α : Type} (mode : Mode) : (Nan.beyond mode : Outcome α) = CubicSpline.beyond mode := by cases mode <;> rfl

theorem find_eq (mode : Mode) (x : ℝ) : ∀ (l : List ℝ) (i : ℕ), Nan.findFrom reals mode x l i = CubicSpline.findFrom mode x l i := by
  intro l
  induction l with
  | nil => intro i; exact beyond_eq _
  | cons d ds ih =>
    intro i
    unfold Nan.findFrom CubicSpline.findFrom
    rw [ih]
    simp [reals]

theorem segment_eq (mode : Mode) (l : List ℝ) (x : ℝ) : Nan.segment reals mode l x = CubicSpline.segment mode l x := by
  unfold Nan.segment CubicSpline.segment
  simp only [find_eq]
  cases mode
  · cases l.head? <;> cases l.getLast? <;> simp [reals]
  · rfl

theorem call_eq (g : Nan.Func ℝ → ℝ → ℝ → ℝ) (h : TensionSpline.Func → ℝ → ℝ → ℝ) (e : ∀ f tau x, g (func f) tau x = h f tau x)
    (mode : Mode) (s : TensionSpline.Spline) (x : ℝ) :
    Nan.Tension.call reals g mode (tension s) x =
      (CubicSpline.segment mode s.domain x).bind (TensionSpline.withFunc mode s fun f => h f s.tension x) := by
  unfold Nan.Tension.call
  rw [segment_eq]
  apply bind_congr
  intro i
  unfold TensionSpline.withFunc
  simp only [tension, List.getElem?_map]
  cases s.functions[i]? with
  | none => exact beyond_eq _
  | some c => simp [e]

theorem tvalue_eq (mode : Mode) (s : TensionSpline.Spline) (x : ℝ) :
    Nan.Tension.value reals mode (tension s) x = TensionSpline.value mode s x := call_eq _ _ value_eq _ _ _
theorem tslope_eq (mode : Mode) (s : TensionSpline.Spline) (x : ℝ) :
    Nan.Tension.slope reals mode (tension s) x = TensionSpline.slope mode s x := call_eq _ _ slopeT_eq _ _ _
theorem tcurvature_eq (mode : Mode) (s : TensionSpline.Spline) (x : ℝ) :
    Nan.Tension.curvature reals mode (tension s) x = TensionSpline.curvature mode s x := call_eq _ _ curvature_eq _ _ _

/-! ## The system for the second derivatives -/

theorem aAt_eq (tau : ℝ) (x : ℕ → ℝ) : Nan.aAt reals tau x = TensionSpline.aAt tau x := by
  funext i; simp [Nan.aAt, TensionSpline.aAt, Nan.hAt, TensionSpline.hAt, reals]
theorem betaAt_eq (tau : ℝ) (x : ℕ → ℝ) : Nan.betaAt reals tau x = TensionSpline.betaAt tau x := by
  funext i; simp [Nan.betaAt, TensionSpline.betaAt, Nan.hAt, TensionSpline.hAt, reals]
theorem gammaAt_eq (tau : ℝ) (x y : ℕ → ℝ) : Nan.gammaAt reals tau x y = TensionSpline.gammaAt tau x y := by
  funext i; simp [Nan.gammaAt, TensionSpline.gammaAt, Nan.hAt, TensionSpline.hAt, reals]

theorem forward_eq (a b c : ℕ → ℝ) : ∀ (left i : ℕ) (w : TensionSpline.Work), 2 ≤ i →
    (∀ k, 1 ≤ k → k < i → w.u k = Nan.uAt reals a b k ∧ w.v k = Nan.vAt reals a b c k) →
    ∀ k, 1 ≤ k → k < i + left → (TensionSpline.forward a b c left i w).u k = Nan.uAt reals a b k ∧
      (TensionSpline.forward a b c left i w).v k = Nan.vAt reals a b c k := by
  intro left
  induction left with
  | zero => intro i w _ h k h1 h2; exact h k h1 h2
  | succ left ih =>
    intro i w hi h k h1 h2
    unfold TensionSpline.forward
    refine ih (i + 1) _ (by omega) ?_ k h1 (by omega)
    intro k h1 h2
    by_cases hk : k = i
    · subst hk
      obtain ⟨m, rfl⟩ : ∃ m, k = m + 2 := ⟨k - 2, by omega⟩
      obtain ⟨e1, e2⟩ := h (m + 1) (by omega) (by omega)
      simp only [Function.update_self, show m + 2 - 1 = m + 1 from rfl, e1, e2]
      exact ⟨rfl, rfl⟩
    · simp only [Function.update_of_ne hk]
      exact h k h1 (by omega)

theorem backward_eq (a u v : ℕ → ℝ) (w : TensionSpline.Work) (n : ℕ) (hw : ∀ k, 1 ≤ k → k < n → w.u k = u k ∧ w.v k = v k) :
    ∀ (i : ℕ) (z : ℕ → ℝ), i < n → (∀ k, i < k → k ≤ n → z k = Nan.zBack reals a u v n (n - k)) →
    ∀ k, 1 ≤ k → k ≤ n → TensionSpline.backward a w i z k = Nan.zBack reals a u v n (n - k) := by
  intro i
  induction i with
  | zero => intro z _ h k h1 h2; exact h k (by omega) h2
  | succ i ih =>
    intro z hi h k h1 h2
    unfold TensionSpline.backward
    refine ih _ (by omega) ?_ k h1 h2
    intro k h1 h2
    by_cases hk : k = i + 1
    · subst hk
      obtain ⟨e1, e2⟩ := hw (i + 1) (by omega) hi
      rw [Function.update_self, e1, e2, h (i + 2) (by omega) (by omega), show n - (i + 1) = n - (i + 2) + 1 by omega]
      unfold Nan.zBack
      rw [show n - (n - (i + 2) + 1) = i + 1 by omega]
      conv_rhs => unfold Nan.zBack
      rfl
    · rw [Function.update_of_ne hk]
      exact h k (by omega) h2

theorem natural_eq (mode : Mode) (xs ys : List ℝ) (tau : ℝ) :
    Nan.natural reals mode xs ys tau = into tension (TensionSpline.natural mode xs ys tau) := by
  unfold Nan.natural TensionSpline.natural TensionSpline.data
  by_cases h1 : mode = .debug ∧ xs.length ≠ ys.length
  · rw [if_pos h1, if_pos h1]; rfl
  rw [if_neg h1, if_neg h1]
  by_cases h2 : xs.length < 3 ∨ ys.length < xs.length
  · rw [if_pos h2, if_pos h2]
    cases mode <;> rfl
  rw [if_neg h2, if_neg h2]
  rw [not_or] at h2
  simp only [Outcome.bind, into, get_eq, tension, List.map_map, Outcome.ok.injEq, Nan.Tension.mk.injEq, true_and, and_true]
  apply List.map_congr_left
  intro i hi
  rw [List.mem_range] at hi
  have key : ∀ k, k ≤ xs.length - 1 → Nan.zAt reals tau (at' xs) (at' ys) (xs.length - 1) k =
      Function.update (TensionSpline.backward (TensionSpline.aAt tau (at' xs))
        (TensionSpline.forward (TensionSpline.aAt tau (at' xs)) (TensionSpline.betaAt tau (at' xs))
          (TensionSpline.gammaAt tau (at' xs) (at' ys)) (xs.length - 1 - 2) 2
          ⟨Function.update (fun _ => 0) 1 (TensionSpline.betaAt tau (at' xs) 1 + TensionSpline.betaAt tau (at' xs) 0),
           Function.update (fun _ => 0) 1
            (TensionSpline.gammaAt tau (at' xs) (at' ys) 1 - TensionSpline.gammaAt tau (at' xs) (at' ys) 0)⟩)
        (xs.length - 1 - 1) (Function.update (Function.update (fun _ => 0) 0 0) (xs.length - 1) 0)) 0 0 k := by
    intro k hk
    unfold Nan.zAt
    rw [aAt_eq, betaAt_eq, gammaAt_eq]
    by_cases hk0 : k = 0
    · subst hk0
      simp [reals]
    · rw [if_neg hk0, Function.update_of_ne hk0]
      symm
      apply backward_eq
      · intro k h1 h2
        apply forward_eq _ _ _ _ _ _ (le_refl 2) _ k h1 (by omega)
        intro k h1 h2
        obtain rfl : k = 1 := by omega
        simp only [Function.update_self]
        exact ⟨rfl, rfl⟩
      · omega
      · intro k h1 h2
        obtain rfl : k = xs.length - 1 := by omega
        rw [Function.update_self, Nat.sub_self]
        simp [Nan.zBack, reals]
      · omega
      · exact hk
  simp only [Function.comp, func, TensionSpline.interpolation, key i (by omega), key (i + 1) (by omega)]

/-! ## Waypoints -/

theorem validate_eq (ws : List Manip.WayPoint) (minimum : ℕ) : Nan.validate reals (ws.map way) minimum = Manip.validate ws minimum := by
  unfold Nan.validate Manip.validate
  rw [List.length_map]
  by_cases h : ws = []
  · simp [h]
  · simp only [List.length_eq_zero_iff, if_neg h]
    split
    · rfl
    · by_cases hr : Manip.ratesPositive ws
      · rw [if_pos hr]
        simp only [Outcome.ok.injEq, List.all_eq_true]
        intro w hw r hr2
        rw [← List.map_dropLast, List.mem_map] at hw
        obtain ⟨v, hv, rfl⟩ := hw
        have := hr v hv r hr2
        simp [reals]
        exact not_le.1 this
      · rw [if_neg hr]
        simp only [Outcome.ok.injEq]
        rw [Bool.eq_false_iff]
        intro hall
        apply hr
        intro w hw r hr2
        simp only [List.all_eq_true] at hall
        have := hall (way w) (by rw [← List.map_dropLast]; exact List.mem_map_of_mem hw) r hr2
        simpa [reals] using this

theorem get_fit (mode : Mode) {l : List ℝ} {j : ℕ} (h : j < l.length) : Arr.get mode l j = .ok (at' l j) := by
  cases mode <;> simp [Arr.get, assertThrow, h, Arr.rawGet, at', bind, Outcome.bind]

theorem longest_eq (mode : Mode) (d : ℕ) (w next : Manip.WayPoint) (hw : Spec.Fits d w) (hn : Spec.Fits d next) :
    ∀ (js : List ℕ) (m : ℝ), (∀ j ∈ js, j < d) →
      Manip.jointLoop mode w next js m = .ok (Nan.longest reals (way w) (way next) js m) := by
  intro js
  induction js with
  | nil => intro m _; rfl
  | cons j js ih =>
    intro m hj
    have hd := hj j (by simp)
    unfold Manip.jointLoop Nan.longest
    rw [get_fit mode (by rw [hn.1]; exact hd), get_fit mode (by rw [hw.1]; exact hd), get_fit mode (by rw [hw.2.1]; exact hd)]
    simp only [Outcome.bind_ok, get_eq]
    have hj' : ∀ k ∈ js, k < d := fun k hk => hj k (by simp [hk])
    by_cases h0 : at' w.nominal j = 0
    · rw [if_neg (not_not.2 h0), if_pos (by simp [reals, way, h0])]
      exact ih _ hj'
    · have hb : ¬ (reals.eq (at' (way w).nominal j) (reals.lit 0) = true) := by
        rw [eq_r, lit_r]
        simpa [way] using h0
      rw [if_pos h0, ih _ hj', if_neg hb]
      simp only [lt_r]
      rfl

theorem initialise_eq (mode : Mode) (d : ℕ) : ∀ ws : List Manip.WayPoint, (∀ w ∈ ws, Spec.Fits d w) →
    ∃ ws' b, Manip.segmentLoop mode d ws = .ok ws' b ∧ Nan.initialise reals d (ws.map way) = (ws'.map way, b) := by
  intro ws
  induction ws with
  | nil => intro _; exact ⟨[], true, rfl, rfl⟩
  | cons w rest ih =>
    intro hf
    cases rest with
    | nil => exact ⟨[w], true, rfl, rfl⟩
    | cons next rest =>
      obtain ⟨ws', b, h1, h2⟩ := ih fun v hv => hf v (by simp [hv])
      have hl := longest_eq mode d w next (hf w (by simp)) (hf next (by simp)) (List.range d) 0 (by simp)
      unfold Manip.segmentLoop
      rw [hl]
      simp only [List.map_cons]
      unfold Nan.initialise
      simp only [List.map_cons] at h2
      have h0 : reals.lit 0 = (0 : ℝ) := by simp [reals]
      simp only [h0, h2]
      set m := Nan.longest reals (way w) (way next) (List.range d) 0 with hm
      have hw' : (if reals.lt (way w).duration m = true then { way w with duration := m } else way w) = way (Manip.raiseDuration w m) := by
        unfold Manip.raiseDuration
        by_cases h : w.duration < m
        · rw [if_pos (by simp [reals, way, h]), if_pos h]; rfl
        · rw [if_neg (by simpa [reals, way] using h), if_neg h]
      rw [hw']
      by_cases hz : (Manip.raiseDuration w m).duration = 0
      · rw [if_pos hz, if_pos (by simp [reals, way, hz])]
        exact ⟨_, _, rfl, by simp⟩
      · rw [if_neg hz, if_neg (by simp [reals, way, hz]), h1]
        exact ⟨_, _, rfl, by simp⟩

theorem configure_eq (w : Manip.WayPoint) : Nan.configure reals (way w) = way (LinearTrajectory.configure w) := by
  unfold Nan.configure LinearTrajectory.configure
  cases h : w.ratesConfigured <;> simp [way, h, reals]

theorem configure_twice (w : Manip.WayPoint) : LinearTrajectory.configure (LinearTrajectory.configure w) = LinearTrajectory.configure w := by
  unfold LinearTrajectory.configure
  cases h : w.ratesConfigured <;> simp [h]

theorem map_modify' {α β : Type} (f : α → β) (g : α → α) (h : β → β) (e : ∀ a, h (f a) = f (g a)) :
    ∀ (l : List α) (i : ℕ), (l.map f).modify i h = (l.modify i g).map f := by
  intro l
  induction l with
  | nil => intro i; simp
  | cons a l ih =>
    intro i
    cases i with
    | zero => simp [e]
    | succ i => simp [ih]

theorem modify_last {α : Type} (f : α → α) (b : α) : ∀ l : List α, (l ++ [b]).modify l.length f = l ++ [f b] := by
  intro l
  induction l with
  | nil => simp
  | cons a l ih => simp [ih]

theorem configureEnds_eq (ws : List Manip.WayPoint) :
    Nan.configureEnds reals (ws.map way) = (LinearTrajectory.configureEnds ws).map way := by
  unfold Nan.configureEnds
  rw [List.length_map, map_modify' way _ _ configure_eq, map_modify' way _ _ configure_eq]
  congr 1
  rcases ws with _ | ⟨w, rest⟩
  · rfl
  rcases List.eq_nil_or_concat rest with rfl | ⟨l, b, rfl⟩
  · simp [LinearTrajectory.configureEnds, configure_twice]
  · rw [List.concat_eq_append]
    have hne : l ++ [b] ≠ [] := by simp
    have h1 : LinearTrajectory.configureEnds (w :: (l ++ [b])) =
        LinearTrajectory.configure w :: (l ++ [b]).dropLast ++ ((l ++ [b]).getLast?.map LinearTrajectory.configure).toList := by
      cases l <;> rfl
    rw [h1]
    have h2 : (w :: (l ++ [b])).length - 1 = l.length + 1 := by simp
    rw [h2, List.modify_zero_cons, List.modify_succ_cons, modify_last]
    simp

end Ecl.NanReal
