import Verif.Model.ThreadableRace
import Mathlib.Data.List.Basic
import Mathlib.Order.Basic
import Mathlib.Order.Defs.LinearOrder
import Mathlib.Data.Nat.Basic
import Mathlib.Tactic.Common

/-! # Places in executions -/
set_option autoImplicit false

namespace Ecl.ThreadableRace

open Ecl.Spec.Hb

theorem before_lt {tr : Trace} {i j : Nat} (h : Before tr i j) : i < j := by
  induction h with
  | thread h => exact h
  | spawn h => exact h
  | mutex h => exact h
  | memory h => exact h
  | trans _ _ h1 h2 => exact Nat.lt_trans h1 h2

/-- Where a thread does the first action of the rest of its list. -/
theorem runs_split {tr : Trace} {t : Nat} {A B : List Act} {a : Act} (h : Runs tr t (A ++ a :: B)) :
    ∃ p q, tr = p ++ (t, a) :: q ∧ Runs p t A ∧ Runs q t B := by
  induction tr generalizing A with
  | nil => simp [Runs] at h
  | cons e tr ih =>
    by_cases he : e.1 = t
    · cases A with
      | nil =>
        simp only [Runs, List.filter_cons, he, decide_true, if_true, List.map_cons, List.nil_append, List.cons.injEq] at h
        exact ⟨[], tr, by rw [← h.1, ← he]; rfl, rfl, h.2⟩
      | cons b A =>
        simp only [Runs, List.filter_cons, he, decide_true, if_true, List.map_cons, List.cons_append,
          List.cons.injEq] at h
        obtain ⟨p, q, h1, h2, h3⟩ := ih h.2
        refine ⟨e :: p, q, by rw [h1]; rfl, ?_, h3⟩
        simp only [Runs, List.filter_cons, he, decide_true, if_true, List.map_cons, List.cons.injEq]
        exact ⟨h.1, h2⟩
    · have h' : Runs tr t (A ++ a :: B) := by simpa [Runs, List.filter_cons, he] using h
      obtain ⟨p, q, h1, h2, h3⟩ := ih h'
      refine ⟨e :: p, q, by rw [h1]; rfl, ?_, h3⟩
      simpa [Runs, List.filter_cons, he] using h2

theorem runs_mem {tr : Trace} {t i : Nat} {A : List Act} {a : Act} (h : Runs tr t A) (ha : tr[i]? = some (t, a)) :
    a ∈ A := by
  rw [← h]
  exact List.mem_map.2 ⟨(t, a), List.mem_filter.2 ⟨List.mem_of_getElem? ha, by simp⟩, rfl⟩

/-- What comes after a place. -/
theorem after {p q : Trace} {e : Nat × Act} {j : Nat} (h : p.length < j) : (p ++ e :: q)[j]? = q[j - p.length - 1]? := by
  rw [List.getElem?_append_right (Nat.le_of_lt h)]
  obtain ⟨k, hk⟩ : ∃ k, j - p.length = k + 1 := ⟨j - p.length - 1, by omega⟩
  rw [hk]; simp

theorem runs_at {tr : Trace} {t : Nat} {A : List Act} {a : Act} (h : Runs tr t A) (ha : a ∈ A) :
    ∃ i : Nat, tr[i]? = some (t, a) := by
  obtain ⟨B, C, rfl⟩ := List.append_of_mem ha
  obtain ⟨p, q, rfl, -, -⟩ := runs_split h
  exact ⟨p.length, by simp⟩

end Ecl.ThreadableRace
