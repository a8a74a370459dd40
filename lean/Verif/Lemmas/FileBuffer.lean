import Verif.Spec.FileBytes
import Mathlib.Tactic.Common

/-!
# Lemmas for C136
-/
set_option autoImplicit false

namespace Ecl.Props
open FileBuffer

variable {α : Type _}

namespace C136

theorem passOn_stored (old : List α) (mode : WMode) (a bs : List α) :
    passOn (storedBytes old mode a) mode a.length bs = storedBytes old mode (a ++ bs) := by
  cases mode
  · simp only [passOn, storedBytes, OFile.overwrite]
    rw [List.take_append_of_le_length (Nat.le_refl _), List.take_length, List.drop_append, List.drop_drop,
      List.drop_eq_nil_of_le (by omega), List.length_append]
    simp only [List.nil_append, List.append_assoc]
    congr 3
    omega
  · simp [passOn, storedBytes]

/-- Success of outputs on an open file. -/
theorem output_ok (b : Build) (old : List α) (mode : WMode) (a pending : List α) (err : Flag) (lk : List (List α))
    (op : FileBuffer.Op α) (ho : isOutput op)
    (s : St α) (hr : step b ⟨storedBytes old mode a, .live mode a.length pending, err, lk⟩ op = .ok s (fileSuccess op)) :
    ∃ a' pending', s = ⟨storedBytes old mode a', .live mode a'.length pending', .noError, lk⟩ ∧
      a' ++ pending' = a ++ pending ++ fileBytes op ∧ (∀ x, op = .flush x → pending' = []) := by
  cases op with
  | openFile => exact ho.elim
  | close => exact ho.elim
  | destroy => exact ho.elim
  | write bs x =>
    simp only [step, write, fileSuccess] at hr
    by_cases hbs : bs = []
    · subst hbs
      rw [if_pos rfl] at hr
      cases b <;> simp at hr
    · rw [if_neg hbs] at hr
      cases x with
      | done k =>
        simp only [Res.ok.injEq, and_true] at hr
        subst hr
        refine ⟨a ++ (pending ++ bs).take k, (pending ++ bs).drop k, ?_, ?_, by simp⟩
        · rw [passOn_stored, List.length_append]
        · rw [List.append_assoc, List.take_append_drop, fileBytes, List.append_assoc]
      | fails k keep e =>
        cases b <;> simp at hr <;> omega
  | flush x =>
    simp only [step, flush, fileSuccess] at hr
    cases x with
    | done k =>
      simp only [Res.ok.injEq, and_true] at hr
      subst hr
      refine ⟨a ++ pending, [], ?_, by simp [fileBytes], by simp⟩
      rw [passOn_stored, List.length_append]
    | fails k keep e => cases b <;> simp at hr

/-- A history of outputs that all report success. -/
theorem outputs_ok (b : Build) (old : List α) (mode : WMode) (lk : List (List α)) :
    ∀ (ops : List (FileBuffer.Op α)) (a pending : List α) (err : Flag) (s : St α) (rs : List (Obs Int)),
    (∀ op ∈ ops, isOutput op) →
    runOps (step b) ⟨storedBytes old mode a, .live mode a.length pending, err, lk⟩ ops = some (s, rs) →
    rs = ops.map (fun op => .ok (fileSuccess op)) →
    ∃ a' pending' err', s = ⟨storedBytes old mode a', .live mode a'.length pending', err', lk⟩ ∧
      a' ++ pending' = a ++ pending ++ (ops.map fileBytes).flatten ∧
      ((ops = [] → pending = []) → (∀ op, ops.getLast? = some op → ∃ x, op = .flush x) → pending' = []) := by
  intro ops
  induction ops with
  | nil =>
    intro a pending err s rs _ h _
    simp only [runOps, Option.some.injEq, Prod.mk.injEq] at h
    exact ⟨a, pending, err, h.1.symm, by simp, fun h _ => h rfl⟩
  | cons op ops ih =>
    intro a pending err s rs ho h hrs
    simp only [runOps] at h
    rcases hs : step b ⟨storedBytes old mode a, .live mode a.length pending, err, lk⟩ op with ⟨s1, r⟩ | ⟨s1, e⟩ | _
    · rw [hs] at h
      simp only [] at h
      rcases hrun : runOps (step b) s1 ops with _ | ⟨s2, rs2⟩
      · rw [hrun] at h; simp at h
      · rw [hrun] at h
        simp only [Option.map_some, Option.some.injEq, Prod.mk.injEq] at h
        obtain ⟨rfl, rfl⟩ := h
        simp only [List.map_cons, List.cons.injEq, Except.ok.injEq] at hrs
        obtain ⟨h1, h2⟩ := hrs
        subst h1
        obtain ⟨a', p', rfl, hb, hf⟩ := output_ok b old mode a pending err lk op (ho op (by simp)) s1 hs
        obtain ⟨a2, p2, err2, g1, g2, g3⟩ := ih a' p' _ s2 rs2 (fun o h => ho o (by simp [h])) hrun h2
        refine ⟨a2, p2, err2, g1, ?_, fun _ hlast => g3 (fun hnil => ?_) fun o hlo => hlast o ?_⟩
        · rw [g2, hb]; simp
        · subst hnil
          obtain ⟨x, hx⟩ := hlast op (by simp)
          exact hf x hx
        · rcases ops with _ | ⟨o', ops⟩
          · simp at hlo
          · rw [List.getLast?_cons_cons]; exact hlo
    · rw [hs] at h
      simp only [] at h
      rcases hrun : runOps (step b) s1 ops with _ | ⟨s2, rs2⟩
      · rw [hrun] at h; simp at h
      · rw [hrun] at h
        simp only [Option.map_some, Option.some.injEq, Prod.mk.injEq] at h
        obtain ⟨_, rfl⟩ := h
        simp at hrs
    · rw [hs] at h; simp at h

theorem stored_nil (old : List α) (mode : WMode) : storedBytes old mode [] = old := by
  cases mode <;> simp [storedBytes]

theorem runOps_append {σ O β : Type _} (f : σ → O → Res σ β) : ∀ (xs ys : List O) (s : σ),
    runOps f s (xs ++ ys) = (runOps f s xs).bind fun r => (runOps f r.1 ys).map fun q => (q.1, r.2 ++ q.2) := by
  intro xs
  induction xs with
  | nil => intro ys s; simp [runOps]
  | cons x xs ih =>
    intro ys s
    simp only [List.cons_append, runOps]
    cases f s x with
    | ub => rfl
    | ok s' a =>
      simp only [ih]
      cases runOps f s' xs with
      | none => rfl
      | some r => simp [Option.map_map, Function.comp_def]
    | throw s' e =>
      simp only [ih]
      cases runOps f s' xs with
      | none => rfl
      | some r => simp [Option.map_map, Function.comp_def]

end C136

end Ecl.Props
