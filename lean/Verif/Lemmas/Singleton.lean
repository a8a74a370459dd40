import Verif.Model.Singleton
import Mathlib.Data.List.Count
import Mathlib.Tactic.Common

/-! # Invariants of singletons -/
set_option autoImplicit false

namespace Ecl.Singleton

theorem run_append (s : St) (a b : List Event) : run s (a ++ b) = (match run s a with
    | .ok s' => run s' b | .blocked => .blocked | .ub => .ub) := by
  induction a generalizing s with
  | nil => rfl
  | cons e es ih =>
    simp only [List.cons_append, run]
    cases step s e with
    | ok s' => exact ih s'
    | blocked => rfl
    | ub => rfl

/-- What holds in every reachable state. -/
structure Inv (s : St) : Prop where
  idle : s.guard = .idle → s.started = s.threw ∧ s.got = [] ∧ s.order.count .single = 0
  building : ∀ t, s.guard = .building t → s.started = s.threw + 1 ∧ s.got = [] ∧ s.order.count .single = 0
  done : ∀ k, s.guard = .done k → k = s.started ∧ s.started = s.threw + 1 ∧ s.got ≠ [] ∧
    s.order.count .single = 1 ∧ ∀ x ∈ s.got, x.2 = k

theorem inv_init : Inv init := ⟨by simp [init], by simp [init], by simp [init]⟩

theorem inv_step {s s' : St} {e : Event} (h : Inv s) (hs : step s e = .ok s') : Inv s' := by
  cases e with
  | call t =>
    simp only [step] at hs
    split at hs
    · next k hg =>
      cases hs
      obtain ⟨h1, h2, h3, h4, h5⟩ := h.done k hg
      refine ⟨by simp [hg], by simp [hg], fun j hj => ?_⟩
      have : k = j := by simpa [hg] using hj
      subst this
      refine ⟨h1, h2, by simp, h4, fun x hx => ?_⟩
      rcases List.mem_cons.1 hx with rfl | hx
      · rfl
      · exact h5 x hx
    · next hg =>
      cases hs
      obtain ⟨h1, h2, h3⟩ := h.idle hg
      exact ⟨by simp, fun _ _ => ⟨by simp [h1], h2, h3⟩, by simp⟩
    · split at hs <;> cases hs
  | finish t =>
    simp only [step] at hs
    split at hs
    · next hg =>
      cases hs
      obtain ⟨h1, h2, h3⟩ := h.building t hg
      refine ⟨by simp, by simp, fun j hj => ?_⟩
      have : s.started = j := by simpa using hj
      subst this
      refine ⟨rfl, h1, by simp, by simp [h3], fun x hx => ?_⟩
      rw [h2] at hx
      have : x = (t, s.started) := by simpa using hx
      rw [this]
    · cases hs
  | throws t =>
    simp only [step] at hs
    split at hs
    · next hg =>
      cases hs
      obtain ⟨h1, h2, h3⟩ := h.building t hg
      exact ⟨fun _ => ⟨h1, h2, h3⟩, by simp, by simp⟩
    · cases hs
  | other i =>
    simp only [step] at hs
    cases hs
    refine ⟨fun hg => ?_, fun t hg => ?_, fun k hg => ?_⟩
    · obtain ⟨h1, h2, h3⟩ := h.idle hg
      exact ⟨h1, h2, by simpa using h3⟩
    · obtain ⟨h1, h2, h3⟩ := h.building t hg
      exact ⟨h1, h2, by simpa using h3⟩
    · obtain ⟨h1, h2, h3, h4, h5⟩ := h.done k hg
      exact ⟨h1, h2, h3, by simpa using h4, h5⟩

theorem inv_run {s s' : St} {es : List Event} (h : Inv s) (hs : run s es = .ok s') : Inv s' := by
  induction es generalizing s with
  | nil => cases hs; exact h
  | cons e es ih =>
    simp only [run] at hs
    split at hs
    · next s1 h1 => exact ih (inv_step h h1) hs
    · cases hs
    · cases hs

/-- Once made, the object stays. -/
theorem done_step {s s' : St} {e : Event} {k : Nat} (hg : s.guard = .done k) (hs : step s e = .ok s') :
    s'.guard = .done k ∧ s'.started = s.started := by
  cases e with
  | call t => simp only [step, hg] at hs; cases hs; exact ⟨rfl, rfl⟩
  | finish t => simp [step, hg] at hs
  | throws t => simp [step, hg] at hs
  | other i => simp only [step] at hs; cases hs; exact ⟨hg, rfl⟩

theorem done_run {s s' : St} {es : List Event} {k : Nat} (hg : s.guard = .done k) (hs : run s es = .ok s') :
    s'.guard = .done k ∧ s'.started = s.started := by
  induction es generalizing s with
  | nil => cases hs; exact ⟨hg, rfl⟩
  | cons e es ih =>
    simp only [run] at hs
    split at hs
    · next s1 h1 =>
      obtain ⟨a, b⟩ := done_step hg h1
      obtain ⟨c, d⟩ := ih a hs
      exact ⟨c, d.trans b⟩
    · cases hs
    · cases hs

/-- The completed constructors, in the order of the events. -/
def completed : List Event → List Obj
  | [] => []
  | .finish _ :: es => .single :: completed es
  | .other i :: es => .other i :: completed es
  | _ :: es => completed es

theorem order_run {s s' : St} {es : List Event} (hs : run s es = .ok s') :
    s'.order = (completed es).reverse ++ s.order := by
  induction es generalizing s with
  | nil => cases hs; simp [completed]
  | cons e es ih =>
    simp only [run] at hs
    split at hs
    · next s1 h1 =>
      rw [ih hs]
      cases e with
      | call t =>
        simp only [step] at h1
        split at h1
        · cases h1; simp [completed]
        · cases h1; simp [completed]
        · split at h1 <;> cases h1
      | finish t =>
        simp only [step] at h1
        split at h1
        · cases h1; simp [completed]
        · cases h1
      | throws t =>
        simp only [step] at h1
        split at h1
        · cases h1; simp [completed]
        · cases h1
      | other i => simp only [step] at h1; cases h1; simp [completed]
    · cases hs
    · cases hs

theorem completed_append (a b : List Event) : completed (a ++ b) = completed a ++ completed b := by
  induction a with
  | nil => rfl
  | cons e es ih => cases e <;> simp [completed, ih]

/-- Where an object stands among the events. -/
theorem completed_split {es : List Event} {o : Obj} {A B : List Obj} (h : completed es = A ++ o :: B) :
    ∃ a e b, es = a ++ e :: b ∧ completed a = A ∧ completed b = B ∧ completed [e] = [o] := by
  induction es generalizing A with
  | nil => simp [completed] at h
  | cons e es ih =>
    have key (h1 : completed [e] = []) : ∃ a e' b, e :: es = a ++ e' :: b ∧ completed a = A ∧ completed b = B ∧
        completed [e'] = [o] := by
      have h2 : completed (e :: es) = completed es := by
        rw [show e :: es = [e] ++ es from rfl, completed_append, h1, List.nil_append]
      rw [h2] at h
      obtain ⟨a, e', b, h3, h4, h5, h6⟩ := ih h
      exact ⟨e :: a, e', b, by rw [h3]; rfl, by
        rw [show e :: a = [e] ++ a from rfl, completed_append, h1, List.nil_append, h4], h5, h6⟩
    have key' {o' : Obj} (h1 : completed [e] = [o']) : ∃ a e' b, e :: es = a ++ e' :: b ∧ completed a = A ∧
        completed b = B ∧ completed [e'] = [o] := by
      have h2 : completed (e :: es) = o' :: completed es := by
        rw [show e :: es = [e] ++ es from rfl, completed_append, h1]; rfl
      rw [h2] at h
      cases A with
      | nil =>
        simp only [List.nil_append, List.cons.injEq] at h
        exact ⟨[], e, es, rfl, rfl, h.2, by rw [h1, h.1]⟩
      | cons a A =>
        simp only [List.cons_append, List.cons.injEq] at h
        obtain ⟨x, e', b, h3, h4, h5, h6⟩ := ih h.2
        exact ⟨e :: x, e', b, by rw [h3]; rfl, by
          rw [show e :: x = [e] ++ x from rfl, completed_append, h1, h4, ← h.1]; rfl, h5, h6⟩
    cases e with
    | call t => exact key rfl
    | finish t => exact key' rfl
    | throws t => exact key rfl
    | other i => exact key' rfl

variable (uses : Nat → Bool)

theorem destroy_dead (l : List Obj) : destroy uses .dead l = true ↔ ∀ i, .other i ∈ l → uses i = false := by
  induction l with
  | nil => simp [destroy]
  | cons o l ih =>
    cases o with
    | single => simp [destroy, ih]
    | other j =>
      simp only [destroy]
      cases hj : uses j with
      | false => simp [ih, hj]
      | true => simp only [if_true, Bool.false_eq_true, List.mem_cons, Obj.other.injEq, false_iff, not_forall]
                exact ⟨j, Or.inl rfl, by simp [hj]⟩

theorem destroy_alive (a b : List Obj) (h : .single ∉ a) :
    destroy uses .alive (a ++ .single :: b) = destroy uses .dead b := by
  induction a with
  | nil => simp [destroy]
  | cons o a ih =>
    cases o with
    | single => simp at h
    | other j =>
      have h' : .single ∉ a := fun hc => h (List.mem_cons_of_mem _ hc)
      simp only [List.cons_append, destroy]
      split
      · exact ih h'
      · exact ih h'

theorem destroy_never (l : List Obj) (h : .single ∉ l) : destroy uses .never l = false ↔
    ∃ a b c i j, l = a ++ .other i :: b ++ .other j :: c ∧ uses i = true ∧ uses j = true := by
  induction l with
  | nil => simp [destroy]
  | cons o l ih =>
    have h' : .single ∉ l := fun hc => h (List.mem_cons_of_mem _ hc)
    cases o with
    | single => simp at h
    | other k =>
      simp only [destroy]
      cases hk : uses k with
      | false =>
        simp only [Bool.false_eq_true, if_false]
        rw [ih h']
        constructor
        · rintro ⟨a, b, c, i, j, rfl, hi, hj⟩
          exact ⟨.other k :: a, b, c, i, j, rfl, hi, hj⟩
        · rintro ⟨a, b, c, i, j, he, hi, hj⟩
          cases a with
          | nil =>
            simp only [List.nil_append, List.cons_append, List.cons.injEq, Obj.other.injEq] at he
            rw [he.1, hi] at hk
            cases hk
          | cons x a =>
            simp only [List.cons_append, List.cons.injEq] at he
            exact ⟨a, b, c, i, j, by rw [he.2], hi, hj⟩
      | true =>
        simp only [if_true]
        rw [← Bool.not_eq_true, destroy_dead]
        simp only [not_forall, Bool.not_eq_false]
        constructor
        · rintro ⟨j, hm, hj⟩
          obtain ⟨b, c, rfl⟩ := List.append_of_mem hm
          exact ⟨[], b, c, k, j, rfl, hk, hj⟩
        · rintro ⟨a, b, c, i, j, he, hi, hj⟩
          refine ⟨j, ?_, hj⟩
          cases a with
          | nil =>
            simp only [List.nil_append, List.cons_append, List.cons.injEq] at he
            rw [he.2]; simp
          | cons x a =>
            simp only [List.cons_append, List.cons.injEq] at he
            rw [he.2]; simp

end Ecl.Singleton
