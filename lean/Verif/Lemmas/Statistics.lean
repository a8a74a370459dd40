import Verif.Spec.Statistics
import Mathlib.Tactic.FieldSimp
import Mathlib.Tactic.Ring
import Mathlib.Tactic.Linarith

/-! # Welford's recurrence -/
set_option autoImplicit false
set_option linter.unusedSimpArgs false

namespace Ecl.CumStat
open Ecl.Spec

theorem sum_dev (l : List ℝ) (m : ℝ) :
    (l.map fun x => (x - m) ^ 2).sum = (l.map fun x => x ^ 2).sum - 2 * m * l.sum + l.length * m ^ 2 := by
  induction l with
  | nil => simp
  | cons a t ih => simp only [List.map_cons, List.sum_cons, List.length_cons, ih]; push_cast; ring

theorem deviation_eq (l : List ℝ) (h : l ≠ []) :
    deviation l = (l.map fun x => x ^ 2).sum - l.length * average l ^ 2 := by
  have hn : (l.length : ℝ) ≠ 0 := by
    have := List.length_pos_iff.2 h
    exact_mod_cast this.ne'
  have hs : l.sum = l.length * average l := by unfold average; field_simp
  rw [deviation, sum_dev, hs]; ring

theorem average_append (l : List ℝ) (x : ℝ) (h : l ≠ []) :
    average (l ++ [x]) = average l + (x - average l) / (l.length + 1) := by
  have hn : (0 : ℝ) < l.length := by exact_mod_cast List.length_pos_iff.2 h
  unfold average
  simp only [List.sum_append, List.sum_singleton, List.length_append, List.length_singleton]
  push_cast
  have h1 : (l.length : ℝ) + 1 ≠ 0 := by linarith
  have h2 := hn.ne'
  field_simp
  ring

theorem deviation_append (l : List ℝ) (x : ℝ) (h : l ≠ []) :
    deviation (l ++ [x]) = deviation l + (x - average l) * (x - average (l ++ [x])) := by
  rw [deviation_eq _ h, deviation_eq _ (by simp), average_append l x h]
  have hn : (0 : ℝ) < l.length := by exact_mod_cast List.length_pos_iff.2 h
  have h1 : (l.length : ℝ) + 1 ≠ 0 := by linarith
  simp only [List.map_append, List.map_cons, List.map_nil, List.sum_append, List.sum_singleton,
    List.length_append, List.length_singleton]
  push_cast
  field_simp
  ring

/-- The state describes the data. -/
structure Describes (s : State) (l : List ℝ) : Prop where
  count : s.n = l.length
  some : l ≠ [] → s.newMean = average l ∧ s.oldMean = average l ∧ s.oldVariance = deviation l
  more : 1 < l.length → s.newVariance = deviation l

theorem Describes.push {s : State} {l : List ℝ} (h : Describes s l) (x : ℝ) :
    Describes (pushBack s x) (l ++ [x]) := by
  by_cases hl : l = []
  · subst hl
    have hn : s.n = 0 := h.count
    constructor
    · simp [pushBack, hn]
    · intro _; simp [pushBack, hn, average, deviation]
    · intro h1; simp at h1
  · have hpos := List.length_pos_iff.2 hl
    have hne : s.n + 1 ≠ 1 := by rw [h.count]; omega
    obtain ⟨_, h2, h3⟩ := h.some hl
    have hc : ((s.n + 1 : ℕ) : ℝ) = l.length + 1 := by rw [h.count]; push_cast; rfl
    have e1 := average_append l x hl
    have e2 := deviation_append l x hl
    constructor
    · simp [pushBack, hne, h.count, hpos.ne']
    · intro _
      simp only [pushBack, hne, if_false, h2, h3, hc, ← e1, ← e2]
      trivial
    · intro _
      simp only [pushBack, hne, if_false, h2, h3, hc, ← e1, ← e2]

theorem Describes.clear {s : State} {l : List ℝ} (_h : Describes s l) : Describes (clear s) [] :=
  ⟨rfl, fun h => absurd rfl h, fun h => by simp at h⟩

theorem run_describes (g : State) (ops : List Op) : Describes (run g ops) (sinceClear ops) := by
  unfold run sinceClear
  have : ∀ (ops : List Op) (s : State) (l : List ℝ), Describes s l →
      Describes (ops.foldl apply s)
        (ops.foldl (fun acc op => match op with | .push x => acc ++ [x] | .clear => []) l) := by
    intro ops
    induction ops with
    | nil => intro s l h; exact h
    | cons op t ih =>
      intro s l h
      rw [List.foldl_cons, List.foldl_cons]
      cases op with
      | push x => exact ih _ _ (h.push x)
      | clear => exact ih _ _ h.clear
  exact this ops (make g) [] ⟨rfl, fun h => absurd rfl h, fun h => by simp at h⟩

end Ecl.CumStat
