import Verif.Model.FunctionObjects
import Mathlib.Logic.Function.Iterate

/-!
# C100: function objects
-/
set_option autoImplicit false
set_option linter.unusedSimpArgs false

namespace Ecl.Props
open Ecl Ecl.FunObj

/-- The step neither makes nor drops the function object `i`. -/
def FunObj.Keeps (i : Nat) : Op → Prop
  | .make j _ => j ≠ i
  | .drop j => j ≠ i
  | _ => True

/-- The state of a function object after `n` calls. -/
def FunObj.after (g : Int → Int × Int) (v : Int) (n : Nat) : Int := (fun x => (g x).1)^[n] v

/-- How often the function object `i` is called in a history. -/
def FunObj.calls (i : Nat) : List Op → Nat
  | [] => 0
  | .call j :: l => (if j = i then 1 else 0) + FunObj.calls i l
  | _ :: l => FunObj.calls i l

private theorem onCell_objs {w w' : World} {g : Int → Int × Int} {a : Nat} {r : Int} (h : onCell w g a = .ok (w', r)) :
    w'.objs = w.objs := by
  unfold onCell at h
  cases hr : FunObj.read w a with
  | ok v => rw [hr] at h; cases h; rfl
  | throw e => rw [hr] at h; cases h
  | ub => rw [hr] at h; cases h

/-- What a step does to the function object `i`: a copy that is called goes on to its next state. -/
private theorem step_obj {w w' : World} {op : Op} {r : Option Int} {i : Nat} (hk : FunObj.Keeps i op)
    (h : FunObj.step w op = .ok (w', r)) :
    (∀ g v, w.objs i = some (.copy g v) → w'.objs i = some (.copy g (if FunObj.calls i [op] = 1 then (g v).1 else v))) ∧
    (∀ o, w.objs i = some o → (∀ g v, o ≠ .copy g v) → w'.objs i = some o) := by
  cases op with
  | create a v =>
    simp only [FunObj.step] at h
    split at h
    · cases h
    · cases h; exact ⟨fun g v hi => by simpa [FunObj.calls] using hi, fun o hi _ => hi⟩
  | set a v =>
    simp only [FunObj.step] at h
    cases hr : FunObj.read w a with
    | ok v => rw [hr] at h; cases h; exact ⟨fun g v hi => by simpa [FunObj.calls] using hi, fun o hi _ => hi⟩
    | throw e => rw [hr] at h; cases h
    | ub => rw [hr] at h; cases h
  | destroy a =>
    simp only [FunObj.step] at h
    cases hr : FunObj.read w a with
    | ok v => rw [hr] at h; cases h; exact ⟨fun g v hi => by simpa [FunObj.calls] using hi, fun o hi _ => hi⟩
    | throw e => rw [hr] at h; cases h
    | ub => rw [hr] at h; cases h
  | make j k =>
    simp only [FunObj.step] at h
    have hj : i ≠ j := fun e => hk e.symm
    cases hr : FunObj.make w k with
    | ok v =>
      rw [hr] at h; cases h
      exact ⟨fun g v hi => by simpa [FunObj.calls, Function.update_of_ne hj] using hi,
        fun o hi _ => by simpa [Function.update_of_ne hj] using hi⟩
    | throw e => rw [hr] at h; cases h
    | ub => rw [hr] at h; cases h
  | drop j =>
    have hj : i ≠ j := fun e => hk e.symm
    cases h
    exact ⟨fun g v hi => by simpa [FunObj.calls, Function.update_of_ne hj] using hi,
        fun o hi _ => by simpa [Function.update_of_ne hj] using hi⟩
  | call j =>
    simp only [FunObj.step] at h
    cases ho : w.objs j with
    | none => simp [ho] at h
    | some o =>
      simp only [ho] at h
      cases hc : FunObj.call w j o with
      | ok q =>
        obtain ⟨w₁, x⟩ := q
        rw [hc] at h
        cases h
        by_cases hj : j = i
        · subst hj
          refine ⟨?_, ?_⟩
          · intro g v hi
            rw [ho] at hi
            cases hi
            simp only [FunObj.call] at hc
            cases hc
            simp [FunObj.calls]
          · intro o' hi hn
            rw [ho] at hi
            cases hi
            cases o with
            | copy g v => exact absurd rfl (hn g v)
            | value f v => simp only [FunObj.call] at hc; cases hc; exact ho
            | arg g a => rw [onCell_objs hc]; exact ho
            | member g a => rw [onCell_objs hc]; exact ho
            | memberValue g a v => rw [onCell_objs hc]; exact ho
            | reference g a => rw [onCell_objs hc]; exact ho
        · have hsame : w₁.objs i = w.objs i := by
            cases o with
            | copy g v =>
              simp only [FunObj.call] at hc
              cases hc
              exact Function.update_of_ne (fun e => hj e.symm) _ _
            | value f v => simp only [FunObj.call] at hc; cases hc; rfl
            | arg g a => rw [onCell_objs hc]
            | member g a => rw [onCell_objs hc]
            | memberValue g a v => rw [onCell_objs hc]
            | reference g a => rw [onCell_objs hc]
          exact ⟨fun g v hi => by simpa [FunObj.calls, hj, hsame] using hi, fun o hi _ => by simpa [hsame] using hi⟩
      | throw e => rw [hc] at h; cases h
      | ub => rw [hc] at h; cases h
  | direct g a =>
    simp only [FunObj.step] at h
    cases hr : onCell w g a with
    | ok q =>
      obtain ⟨w₁, x⟩ := q
      rw [hr] at h; cases h
      have := onCell_objs hr
      exact ⟨fun g v hi => by simpa [FunObj.calls, this] using hi, fun o hi _ => by simpa [this] using hi⟩
    | throw e => rw [hr] at h; cases h
    | ub => rw [hr] at h; cases h

private theorem run_cons {w w' : World} {op : Op} {ops : List Op} {rs : List (Option Int)}
    (h : FunObj.run w (op :: ops) = .ok (w', rs)) :
    ∃ w₁ r rs', FunObj.step w op = .ok (w₁, r) ∧ FunObj.run w₁ ops = .ok (w', rs') := by
  rw [FunObj.run] at h
  cases hs : FunObj.step w op with
  | ok q =>
    obtain ⟨w₁, r⟩ := q
    rw [hs, Outcome.bind_ok] at h
    cases hr : FunObj.run w₁ ops with
    | ok q' => exact ⟨w₁, r, q'.2, rfl, by rw [hr]; rw [hr] at h; cases h; rfl⟩
    | throw e => rw [hr] at h; cases h
    | ub => rw [hr] at h; cases h
  | throw e => rw [hs] at h; cases h
  | ub => rw [hs] at h; cases h

private theorem run_obj {i : Nat} {o : Obj} (hn : ∀ g v, o ≠ .copy g v) : ∀ (ops : List Op) (w w' : World)
    (rs : List (Option Int)), (∀ op ∈ ops, FunObj.Keeps i op) → w.objs i = some o → FunObj.run w ops = .ok (w', rs) →
    w'.objs i = some o
  | [], w, w', rs, _, ho, h => by cases h; exact ho
  | op :: ops, w, w', rs, hk, ho, h => by
    obtain ⟨w₁, r, rs', h1, h2⟩ := run_cons h
    exact run_obj hn ops w₁ w' rs' (fun o h => hk o (by simp [h])) ((step_obj (hk op (by simp)) h1).2 o ho hn) h2

private theorem run_copy {i : Nat} {g : Int → Int × Int} : ∀ (ops : List Op) (w w' : World)
    (rs : List (Option Int)) (v : Int), (∀ op ∈ ops, FunObj.Keeps i op) → w.objs i = some (.copy g v) →
    FunObj.run w ops = .ok (w', rs) → w'.objs i = some (.copy g (FunObj.after g v (FunObj.calls i ops)))
  | [], w, w', rs, v, _, ho, h => by cases h; exact ho
  | op :: ops, w, w', rs, v, hk, ho, h => by
    obtain ⟨w₁, r, rs', h1, h2⟩ := run_cons h
    have := run_copy ops w₁ w' rs' _ (fun o h => hk o (by simp [h])) ((step_obj (hk op (by simp)) h1).1 g v ho) h2
    rw [this]
    cases op with
    | call j =>
      by_cases hj : j = i
      · simp [FunObj.calls, hj, FunObj.after, Nat.add_comm 1, Function.iterate_succ]
      · simp [FunObj.calls, hj, FunObj.after]
    | create a v => simp [FunObj.calls]
    | set a v => simp [FunObj.calls]
    | destroy a => simp [FunObj.calls]
    | make j k => simp [FunObj.calls]
    | drop j => simp [FunObj.calls]
    | direct g' a => simp [FunObj.calls]

private theorem make_run {w w' : World} {i : Nat} {k : Make} {o : Obj} {ops : List Op} {rs : List (Option Int)}
    (hm : FunObj.make w k = .ok o) (h : FunObj.run w (.make i k :: ops) = .ok (w', rs)) :
    ∃ rs', FunObj.run { w with objs := Function.update w.objs i (some o) } ops = .ok (w', rs') := by
  obtain ⟨w₁, r, rs', h1, h2⟩ := run_cons h
  simp only [FunObj.step, hm, Outcome.bind_ok] at h1
  cases h1
  exact ⟨rs', h2⟩

/-- A function object with an argument that was bound by value uses the value at the time of binding, whatever
happened to the variable since: it may have changed, or be gone. -/
theorem C100_value (w w' : World) (i a : Nat) (f : Int → Int) (v : Int) (ha : w.cells a = some v) (ops : List Op)
    (rs : List (Option Int)) (hk : ∀ op ∈ ops, FunObj.Keeps i op) (h : FunObj.run w (.make i (.value f a) :: ops) = .ok (w', rs)) :
    FunObj.step w' (.call i) = .ok (w', some (f v)) := by
  obtain ⟨rs', h2⟩ := make_run (o := .value f v) (by simp [FunObj.make, FunObj.read, ha]) h
  have := run_obj (i := i) (o := .value f v) (by simp) ops _ w' rs' hk (by simp) h2
  simp [FunObj.step, this, FunObj.call]

/-- A copy of a functor goes its own way from the state that the original had: the call that follows on `n` calls
gives the result number `n` of that state, whatever else happened, and changes no variable. -/
theorem C100_copy (w w' : World) (i a : Nat) (g : Int → Int × Int) (v : Int) (ha : w.cells a = some v) (ops : List Op)
    (rs : List (Option Int)) (hk : ∀ op ∈ ops, FunObj.Keeps i op) (h : FunObj.run w (.make i (.copy g a) :: ops) = .ok (w', rs)) :
    ∃ w'', FunObj.step w' (.call i) = .ok (w'', some (g (FunObj.after g v (FunObj.calls i ops))).2) ∧ w''.cells = w'.cells := by
  obtain ⟨rs', h2⟩ := make_run (o := .copy g v) (by simp [FunObj.make, FunObj.read, ha]) h
  have := run_copy (i := i) (g := g) ops _ w' rs' v hk (by simp) h2
  refine ⟨{ w' with objs := Function.update w'.objs i (some (.copy g (g (FunObj.after g v (FunObj.calls i ops))).1)) }, ?_, rfl⟩
  simp only [FunObj.step, this, FunObj.call, Outcome.bind_ok]

/-- Function objects that hold a reference (to an argument, to the object of a member function, to a functor) act on
the variable as it is at the time of the call: as a direct call would.  With a bound value, this is the one of the
time of binding. -/
theorem C100_reference (w w' : World) (i a : Nat) (v : Int) (ha : w.cells a = some v) (k : Make) (g : Int → Int × Int)
    (hk' : k = .arg g a ∨ k = .member g a ∨ k = .reference g a ∨
      ∃ (h : Int → Int → Int × Int) (b : Nat) (u : Int), k = .memberValue h a b ∧ w.cells b = some u ∧ g = fun c => h c u)
    (ops : List Op) (rs : List (Option Int)) (hk : ∀ op ∈ ops, FunObj.Keeps i op)
    (h : FunObj.run w (.make i k :: ops) = .ok (w', rs)) :
    FunObj.step w' (.call i) = FunObj.step w' (.direct g a) := by
  rcases hk' with rfl | rfl | rfl | ⟨p, b, u, rfl, hb, rfl⟩
  · obtain ⟨rs', h2⟩ := make_run (o := .arg g a) (by simp [FunObj.make, FunObj.read, ha]) h
    have := run_obj (i := i) (o := .arg g a) (by simp) ops _ w' rs' hk (by simp) h2
    simp [FunObj.step, this, FunObj.call]
  · obtain ⟨rs', h2⟩ := make_run (o := .member g a) (by simp [FunObj.make, FunObj.read, ha]) h
    have := run_obj (i := i) (o := .member g a) (by simp) ops _ w' rs' hk (by simp) h2
    simp [FunObj.step, this, FunObj.call]
  · obtain ⟨rs', h2⟩ := make_run (o := .reference g a) (by simp [FunObj.make, FunObj.read, ha]) h
    have := run_obj (i := i) (o := .reference g a) (by simp) ops _ w' rs' hk (by simp) h2
    simp [FunObj.step, this, FunObj.call]
  · obtain ⟨rs', h2⟩ := make_run (o := .memberValue p a u) (by simp [FunObj.make, FunObj.read, ha, hb]) h
    have := run_obj (i := i) (o := .memberValue p a u) (by simp) ops _ w' rs' hk (by simp) h2
    simp [FunObj.step, this, FunObj.call]

/-- What a direct call does: it is defined exactly for variables that are there. -/
theorem C100_direct (w : World) (g : Int → Int × Int) (a : Nat) :
    (∀ v, w.cells a = some v → ∃ w', FunObj.step w (.direct g a) = .ok (w', some (g v).2) ∧ w'.cells a = some (g v).1 ∧
      ∀ b, b ≠ a → w'.cells b = w.cells b) ∧
    (w.cells a = none → FunObj.step w (.direct g a) = .ub) := by
  refine ⟨fun v hv => ⟨{ w with cells := Function.update w.cells a (some (g v).1) }, ?_, ?_, ?_⟩, ?_⟩
  · simp [FunObj.step, onCell, FunObj.read, hv]
  · simp
  · intro b hb
    simp [Function.update_of_ne hb]
  · intro hn
    simp [FunObj.step, onCell, FunObj.read, hn]

/-- A counter, copied and referred to; the counter changes, and goes. -/
example : (FunObj.run World.init [.create 1 5, .make 0 (.copy (fun x => (x + 1, x)) 1), .make 1 (.reference (fun x => (x + 1, x)) 1),
      .make 2 (.value (fun x => 2 * x) 1), .call 0, .call 1, .call 0, .set 1 9, .call 1, .destroy 1, .call 0, .call 2] >>=
      fun r => .ok r.2) =
    .ok [none, none, none, none, some 5, some 5, some 6, none, some 9, none, some 7, some 10] := rfl

private theorem run_zero : ∀ (ops : List Op) (w w' : World) (rs : List (Option Int)), w.cells 0 = none →
    FunObj.run w ops = .ok (w', rs) → w'.cells 0 = none
  | [], w, w', rs, hz, h => by cases h; exact hz
  | op :: ops, w, w', rs, hz, h => by
    obtain ⟨w₁, r, rs', h1, h2⟩ := run_cons h
    refine run_zero ops w₁ w' rs' ?_ h2
    have cell : ∀ {g : Int → Int × Int} {a : Nat} {q : World × Int}, onCell w g a = .ok q → q.1.cells 0 = none := by
      intro g a q hq
      unfold onCell at hq
      by_cases ha : a = 0
      · subst ha; simp [FunObj.read, hz] at hq
      · cases hr : FunObj.read w a with
        | ok v => rw [hr] at hq; cases hq; simpa [Function.update_of_ne (Ne.symm ha)] using hz
        | throw e => rw [hr] at hq; cases hq
        | ub => rw [hr] at hq; cases hq
    cases op with
    | create a v =>
      simp only [FunObj.step] at h1
      split at h1
      · cases h1
      · rename_i hn
        have ha : a ≠ 0 := fun e => hn (.inl e)
        cases h1
        simpa [Function.update_of_ne (Ne.symm ha)] using hz
    | set a v =>
      simp only [FunObj.step] at h1
      by_cases ha : a = 0
      · subst ha; simp [FunObj.read, hz] at h1
      · cases hr : FunObj.read w a with
        | ok v => rw [hr] at h1; cases h1; simpa [Function.update_of_ne (Ne.symm ha)] using hz
        | throw e => rw [hr] at h1; cases h1
        | ub => rw [hr] at h1; cases h1
    | destroy a =>
      simp only [FunObj.step] at h1
      by_cases ha : a = 0
      · subst ha; simp [FunObj.read, hz] at h1
      · cases hr : FunObj.read w a with
        | ok v => rw [hr] at h1; cases h1; simpa [Function.update_of_ne (Ne.symm ha)] using hz
        | throw e => rw [hr] at h1; cases h1
        | ub => rw [hr] at h1; cases h1
    | make j k =>
      simp only [FunObj.step] at h1
      cases hr : FunObj.make w k with
      | ok v => rw [hr] at h1; cases h1; exact hz
      | throw e => rw [hr] at h1; cases h1
      | ub => rw [hr] at h1; cases h1
    | drop j => cases h1; exact hz
    | call j =>
      simp only [FunObj.step] at h1
      cases ho : w.objs j with
      | none => simp [ho] at h1
      | some o =>
        simp only [ho] at h1
        cases hc : FunObj.call w j o with
        | ok q =>
          rw [hc] at h1
          cases h1
          cases o with
          | copy g v => simp only [FunObj.call] at hc; cases hc; exact hz
          | value f v => simp only [FunObj.call] at hc; cases hc; exact hz
          | arg g a => exact cell hc
          | member g a => exact cell hc
          | memberValue g a v => exact cell hc
          | reference g a => exact cell hc
        | throw e => rw [hc] at h1; cases h1
        | ub => rw [hc] at h1; cases h1
    | direct g a =>
      simp only [FunObj.step] at h1
      cases hr : onCell w g a with
      | ok q => rw [hr] at h1; cases h1; exact cell hr
      | throw e => rw [hr] at h1; cases h1
      | ub => rw [hr] at h1; cases h1

/-- A function with a parameter by constant reference, bound to a value that is not a variable of just that type:
the function object is made without complaint, and no call of it is ever defined. -/
theorem C100_fails_temporary (w w' : World) (hz : w.cells 0 = none) (i : Nat) (g : Int → Int × Int) (v : Int) (ops : List Op)
    (rs : List (Option Int)) (hk : ∀ op ∈ ops, FunObj.Keeps i op)
    (h : FunObj.run w (.make i (.temporary g v) :: ops) = .ok (w', rs)) : FunObj.step w' (.call i) = .ub := by
  obtain ⟨rs', h2⟩ := make_run (o := .arg g 0) rfl h
  have h3 := run_obj (i := i) (o := .arg g 0) (by simp) ops _ w' rs' hk (by simp) h2
  have h4 := run_zero ops { w with objs := Function.update w.objs i (some (.arg g 0)) } w' rs' hz h2
  simp [FunObj.step, h3, FunObj.call, onCell, FunObj.read, h4]

end Ecl.Props
