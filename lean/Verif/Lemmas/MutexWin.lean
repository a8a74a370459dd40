import Verif.Model.MutexWin
import Mathlib.Algebra.BigOperators.Group.Finset.Basic
import Mathlib.Algebra.BigOperators.Fin
import Mathlib.Tactic.Common

/-!
# Invariant of the mutex on Windows
-/
set_option autoImplicit false
set_option linter.unusedSimpArgs false

namespace Ecl.MutexWin
open Ecl
variable {n : Nat}

/-- What a thread in a call adds to the counter. -/
def extra : Pc → Nat
  | .entering | .leaving => 1
  | _ => 0

/-- The section and who holds the mutex. -/
def Owned (s : State n) : Prop :=
  match s.cs with
  | none => ∀ i, s.held i = 0
  | some (i, k) => 0 < k ∧ s.held i = k ∧ ∀ j, j ≠ i → s.held j = 0

structure Inv (s : State n) : Prop where
  owned : Owned s
  count : s.locks = ∑ i, (s.held i + extra (s.pc i))

theorem Inv.init : Inv (init : State n) := ⟨fun _ => rfl, by simp [MutexWin.init, extra]⟩

/-- A change of one thread changes the sum by the same amount. -/
theorem sum_change {f g : Fin n → Nat} (i : Fin n) (h : ∀ j, j ≠ i → g j = f j) :
    ∑ j, g j + f i = ∑ j, f j + g i := by
  rw [← Finset.add_sum_erase _ g (Finset.mem_univ i), ← Finset.add_sum_erase _ f (Finset.mem_univ i)]
  have : ∑ x ∈ Finset.univ.erase i, g x = ∑ x ∈ Finset.univ.erase i, f x :=
    Finset.sum_congr rfl (fun x hx => h x (Finset.ne_of_mem_erase hx))
  omega

theorem le_sum (f : Fin n → Nat) (i : Fin n) : f i ≤ ∑ j, f j := by
  rw [← Finset.add_sum_erase _ f (Finset.mem_univ i)]
  omega

private theorem count_change {s s' : State n} (h : Inv s) (i : Fin n)
    (ho : ∀ j, j ≠ i → s'.held j = s.held j ∧ s'.pc j = s.pc j)
    (hc : s'.locks + (s.held i + extra (s.pc i)) = s.locks + (s'.held i + extra (s'.pc i))) :
    s'.locks = ∑ i, (s'.held i + extra (s'.pc i)) := by
  have := sum_change (f := fun j => s.held j + extra (s.pc j)) (g := fun j => s'.held j + extra (s'.pc j)) i
    (fun j hj => by simp only [(ho j hj).1, (ho j hj).2])
  have := h.count
  omega

theorem Inv.step {s : State n} (h : Inv s) (e : Event n) {r : State n × Option Bool} (hs : step s e = .ok r) : Inv r.1 := by
  cases e with
  | lock i =>
    simp only [MutexWin.step] at hs
    split at hs
    · rename_i hp
      cases hs
      refine ⟨h.owned, count_change h i (fun j hj => ⟨rfl, by simp [hj]⟩) ?_⟩
      simp [hp, extra]
      omega
    · cases hs
      exact h
  | trylock i =>
    simp only [MutexWin.step] at hs
    split at hs
    · rename_i hp
      split at hs
      · cases hs
        exact h
      · cases hs
        refine ⟨h.owned, count_change h i (fun j hj => ⟨rfl, by simp [hj]⟩) ?_⟩
        simp [hp, extra]
    · cases hs
      exact h
  | unlock i =>
    simp only [MutexWin.step] at hs
    split at hs
    · rename_i hp
      have ho := h.owned
      unfold Owned at ho
      unfold leave at hs
      cases hcs : s.cs with
      | none => rw [hcs] at hs; cases hs
      | some q =>
        obtain ⟨j, k⟩ := q
        rw [hcs] at hs ho
        simp only at hs ho
        split at hs
        · rename_i hj
          subst hj
          cases hs
          obtain ⟨h1, h2, h3⟩ := ho
          refine ⟨?_, count_change h j (fun i hi => ⟨by simp [hi], by simp [hi]⟩) ?_⟩
          · unfold Owned
            simp only
            split
            · rename_i hh
              split at hh
              · intro i
                by_cases hi : i = j
                · subst hi
                  simp
                  omega
                · simp [hi, h3 i hi]
              · cases hh
            · rename_i a b hh
              split at hh
              · cases hh
              · cases hh
                refine ⟨by omega, by simp; omega, fun i hi => by simp [hi, h3 i hi]⟩
          · simp [hp, extra]
            omega
        · cases hs
    · cases hs
      exact h
  | go i =>
    simp only [MutexWin.step] at hs
    split at hs
    · cases hs
      exact h
    · rename_i hp
      cases hs
      refine ⟨h.owned, count_change h i (fun j hj => ⟨rfl, by simp [hj]⟩) ?_⟩
      simp [hp, extra]
      omega
    · rename_i hp
      have ho := h.owned
      unfold Owned at ho
      unfold enter at hs
      cases hcs : s.cs with
      | none =>
        rw [hcs] at hs ho
        simp only at hs ho
        cases hs
        refine ⟨?_, count_change h i (fun i hi => ⟨by simp [hi], by simp [hi]⟩) ?_⟩
        · refine ⟨by decide, by simp [ho i], fun j hj => by simp [hj, ho j]⟩
        · simp [hp, extra]
      | some q =>
        obtain ⟨j, k⟩ := q
        rw [hcs] at hs ho
        simp only at hs ho
        split at hs
        · cases hs
          exact h
        · rename_i cs hcs'
          split at hcs'
          · rename_i hj
            subst hj
            cases hcs'
            cases hs
            obtain ⟨h1, h2, h3⟩ := ho
            refine ⟨⟨by omega, by simp [h2], fun i hi => by simp [hi, h3 i hi]⟩,
              count_change h j (fun i hi => ⟨by simp [hi], by simp [hi]⟩) ?_⟩
            simp [hp, extra]
          · cases hcs'
    · rename_i hp
      cases hs
      refine ⟨h.owned, count_change h i (fun j hj => ⟨rfl, by simp [hj]⟩) ?_⟩
      have h1 := le_sum (fun j => s.held j + extra (s.pc j)) i
      have h2 := h.count
      have h3 : extra (s.pc i) = 1 := by rw [hp]; rfl
      simp only [Function.update_self]
      have h4 : extra .idle = 0 := rfl
      omega

theorem Inv.run : ∀ (es : List (Event n)) {s : State n} {r : State n × List Bool}, Inv s → run s es = .ok r → Inv r.1
  | [], s, r, h, hr => by cases hr; exact h
  | e :: es, s, r, h, hr => by
    rw [MutexWin.run] at hr
    cases hs : MutexWin.step s e with
    | ok q =>
      rw [hs, Outcome.bind_ok] at hr
      have hq := h.step e hs
      cases hr' : MutexWin.run q.1 es with
      | ok p =>
        rw [hr', Outcome.bind_ok] at hr
        have hp : Inv p.1 := Inv.run es hq hr'
        cases hr
        exact hp
      | throw f => rw [hr'] at hr; cases hr
      | ub => rw [hr'] at hr; cases hr
    | throw f => rw [hs] at hr; cases hr
    | ub => rw [hs] at hr; cases hr

end Ecl.MutexWin
