import Verif.Spec.Lifetimes
import Mathlib.Tactic.ByContra

set_option autoImplicit false

namespace Ecl.Props.C137
open Lifetimes

variable {α : Type}

def JoinedIn (e : Env) (t : Nat) (l : List (Lifetimes.Step α)) : Prop :=
  ∃ a b, l = a ++ .join t :: b ∧ (Env.unwinds e → ∀ u, .start u ∉ a)

def Good (e : Env) (uses : Nat → List α) (made : List α) : List (Lifetimes.Step α) → Prop
  | [] => True
  | .obj p :: l => Good e uses (p :: made) l
  | .join _ :: l => Good e uses made l
  | .start t :: l =>
    (∀ p ∈ uses t, p ∈ made) ∧ (uses t ≠ [] → JoinedIn e t l) ∧
      (e.mode = .release → e.mayFail = true → .join t ∈ l) ∧ Good e uses made l

def Once : List (Lifetimes.Step α) → Prop
  | [] => True
  | .join t :: l => .join t ∉ l ∧ Once l
  | _ :: l => Once l

theorem once_iff (l : List (Lifetimes.Step α)) : JoinedOnce l ↔ Once l := by
  induction l with
  | nil => simp [JoinedOnce, Once]
  | cons x l ih =>
    have key : JoinedOnce (x :: l) ↔ (∀ t, x = .join t → .join t ∉ l) ∧ JoinedOnce l := by
      constructor
      · intro h
        refine ⟨fun t hx => h [] t l (by rw [hx]; rfl), fun b t a hl => h (x :: b) t a (by rw [hl]; rfl)⟩
      · rintro ⟨h1, h2⟩ b t a hl
        cases b with
        | nil => simp only [List.nil_append, List.cons.injEq] at hl; obtain ⟨rfl, rfl⟩ := hl; exact h1 t rfl
        | cons y b => simp only [List.cons_append, List.cons.injEq] at hl; exact h2 b t a hl.2
    rw [key, ih]
    cases x <;> simp [Once]

theorem rule_iff_aux (e : Env) (uses : Nat → List α) (l : List (Lifetimes.Step α)) :
    ∀ (pre : List (Lifetimes.Step α)) (made : List α), (∀ p, p ∈ made ↔ .obj p ∈ pre) →
      ((∀ before t after, l = before ++ .start t :: after →
        (∀ p ∈ uses t, .obj p ∈ pre ++ before) ∧ (uses t ≠ [] → JoinedIn e t after) ∧
        (e.mode = .release → e.mayFail = true → .join t ∈ after)) ↔ Good e uses made l) := by
  induction l with
  | nil => intro pre made _; simp [Good]
  | cons x l ih =>
    intro pre made hm
    have hm' : ∀ made' : List α, (∀ p, p ∈ made' ↔ p ∈ made ∨ x = .obj p) → ∀ p, p ∈ made' ↔ .obj p ∈ pre ++ [x] := by
      intro made' h p
      rw [h, hm]; simp [eq_comm]
    have split : (∀ before t after, x :: l = before ++ .start t :: after →
        (∀ p ∈ uses t, .obj p ∈ pre ++ before) ∧ (uses t ≠ [] → JoinedIn e t after) ∧
        (e.mode = .release → e.mayFail = true → .join t ∈ after)) ↔
        (∀ t, x = .start t → (∀ p ∈ uses t, .obj p ∈ pre) ∧ (uses t ≠ [] → JoinedIn e t l) ∧
          (e.mode = .release → e.mayFail = true → .join t ∈ l)) ∧
        (∀ before t after, l = before ++ .start t :: after →
        (∀ p ∈ uses t, .obj p ∈ (pre ++ [x]) ++ before) ∧ (uses t ≠ [] → JoinedIn e t after) ∧
        (e.mode = .release → e.mayFail = true → .join t ∈ after)) := by
      constructor
      · intro h
        refine ⟨fun t hx => ?_, fun b t a hl => ?_⟩
        · have := h [] t l (by rw [hx]; rfl)
          simpa using this
        · have := h (x :: b) t a (by rw [hl]; rfl)
          simpa using this
      · rintro ⟨h1, h2⟩ b t a hl
        cases b with
        | nil =>
          simp only [List.nil_append, List.cons.injEq] at hl
          obtain ⟨rfl, rfl⟩ := hl
          simpa using h1 t rfl
        | cons y b =>
          simp only [List.cons_append, List.cons.injEq] at hl
          obtain ⟨rfl, hl⟩ := hl
          simpa using h2 b t a hl
    rw [split]
    cases x with
    | obj p =>
      rw [ih (pre ++ [Lifetimes.Step.obj p]) (p :: made) (hm' _ (by intro q; simp [or_comm, eq_comm]))]
      simp [Good]
    | start t =>
      rw [ih (pre ++ [Lifetimes.Step.start t]) made (hm' _ (by intro q; simp))]
      simp [Good, hm, and_assoc]
    | join t =>
      rw [ih (pre ++ [Lifetimes.Step.join t]) made (hm' _ (by intro q; simp))]
      simp [Good]

theorem rule_iff (e : Env) (uses : Nat → List α) (l : List (Lifetimes.Step α)) :
    LifetimesRule e uses l ↔ Good e uses [] l := by
  rw [← rule_iff_aux e uses l [] [] (by simp)]
  rfl

def objs (k : List (Item α)) : List α := k.filterMap fun i => match i with | .obj p => some p | _ => none

theorem objs_mark (t : Nat) (k : List (Item α)) : objs (k.map (markJoined t)) = objs k := by
  induction k with
  | nil => rfl
  | cons i k ih =>
    cases i <;> simp [objs, markJoined] at ih ⊢ <;> exact ih

theorem objs_obj (p : α) (k : List (Item α)) : objs (.obj p :: k) = p :: objs k := rfl
theorem objs_handle (t : Nat) (c j : Bool) (k : List (Item α)) : objs (.handle t c j :: k) = objs k := rfl

variable [DecidableEq α]

theorem lives_iff (s : St α) (p : α) : lives s p = true ↔ p ∈ objs s.stack := by
  obtain ⟨_, k, _, _, _⟩ := s
  simp only [lives]
  induction k with
  | nil => simp [objs]
  | cons i k ih =>
    cases i with
    | obj q => rw [List.any_cons, Bool.or_eq_true, ih, objs_obj]; simp [eq_comm]
    | handle t c j => rw [List.any_cons, Bool.or_eq_true, ih, objs_handle]; simp

/-- The invariant while the block is not left. -/
structure Inv (e : Env) (uses : Nat → List α) (s : St α) : Prop where
  good : s.leaving = false → Good e uses (objs s.stack) s.todo
  once : s.leaving = false → Once s.todo
  run : ∀ t ∈ s.running, s.leaving = false → (∀ p ∈ uses t, p ∈ objs s.stack) ∧ (uses t ≠ [] → JoinedIn e t s.todo)
  runL : ∀ t ∈ s.running, s.leaving = true → uses t = []
  uncreated : ∀ t j, .handle t false j ∈ s.stack → e.mode = .release ∧ e.mayFail = true
  unjoined : ∀ t, .handle t false false ∈ s.stack → s.leaving = false ∧ .join t ∈ s.todo
  joined : ∀ t c, .handle t c true ∈ s.stack → s.leaving = false → .join t ∉ s.todo

theorem inv_init (e : Env) (uses : Nat → List α) (prog : List (Lifetimes.Step α)) (hg : Good e uses [] prog)
    (ho : Once prog) : Inv e uses (St.init prog) := by
  refine ⟨fun _ => hg, fun _ => ho, ?_, ?_, ?_, ?_, ?_⟩ <;> simp [St.init]

theorem joinedIn_tail {e : Env} {t : Nat} {x : Lifetimes.Step α} {l : List (Lifetimes.Step α)} (h : JoinedIn e t (x :: l))
    (hx : x ≠ .join t) : JoinedIn e t l := by
  obtain ⟨a, b, h1, h2⟩ := h
  cases a with
  | nil => simp at h1; exact absurd h1.1 hx
  | cons y a =>
    simp only [List.cons_append, List.cons.injEq] at h1
    exact ⟨a, b, h1.2, fun hu u hm => h2 hu u (List.mem_cons_of_mem _ hm)⟩

theorem mark_mem {t u : Nat} {c j : Bool} {k : List (Item α)} (h : .handle u c j ∈ k.map (markJoined t)) :
    ∃ j', .handle u c j' ∈ k ∧ j = (j' || decide (u = t)) := by
  rw [List.mem_map] at h
  obtain ⟨i, hi, he⟩ := h
  cases i with
  | obj p => simp [markJoined] at he
  | handle v c' j' =>
    simp only [markJoined, Item.handle.injEq] at he
    obtain ⟨rfl, rfl, rfl⟩ := he
    exact ⟨j', hi, rfl⟩

theorem inv_main (e : Env) (uses : Nat → List α) (s : St α) (c : Bool) (h : Inv e uses s) :
    mainStep e s c ≠ some .ub ∧ ∀ s', mainStep e s c = some (.ok s') → Inv e uses s' := by
  obtain ⟨todo, stack, running, leaving, over⟩ := s
  obtain ⟨hg, ho, hr, hrl, huc, huj, hj⟩ := h
  simp only at hg ho hr hrl huc huj hj
  cases over with
  | true => simp [mainStep]
  | false =>
  cases leaving with
  | true =>
    simp only [Bool.true_eq_false, false_implies, implies_true, forall_const] at *
    cases stack with
    | nil =>
      simp only [mainStep]
      refine ⟨by simp, ?_⟩
      rintro s' h
      simp only [Bool.false_eq_true, if_false, if_true, Option.some.injEq, Outcome.ok.injEq] at h
      subst h
      exact ⟨by simp, by simp, by simp, by simpa using hrl, by simp, by simp, by simp⟩
    | cons i k =>
      have huc' : ∀ t j, .handle t false j ∈ k → e.mode = .release ∧ e.mayFail = true :=
        fun t j hm => huc t j (List.mem_cons_of_mem _ hm)
      have huj' : ∀ t, ¬ (.handle t false false ∈ k) := fun t hm => (huj t (List.mem_cons_of_mem _ hm)).1.elim
      have fin : Inv e uses ⟨todo, k, running, true, false⟩ :=
        ⟨by simp, by simp, by simp, by simpa using hrl, huc', fun t hm => (huj' t hm).elim, by simp⟩
      cases i with
      | obj p =>
        simp only [mainStep]
        refine ⟨by simp, ?_⟩
        rintro s' h
        simp only [Bool.false_eq_true, if_false, if_true, Option.some.injEq, Outcome.ok.injEq] at h
        subst h
        exact fin
      | handle t c' j' =>
        have hcj : (!j' && !c') = false := by
          cases j' <;> cases c' <;> simp
          exact (huj t (by simp)).1
        simp only [mainStep, hcj]
        refine ⟨by simp, ?_⟩
        rintro s' h
        simp only [Bool.false_eq_true, if_false, if_true, Option.some.injEq, Outcome.ok.injEq] at h
        subst h
        exact fin
  | false =>
    simp only [true_implies, Bool.false_eq_true, false_implies, implies_true] at hg ho hr hrl huj hj
    cases todo with
    | nil =>
      simp only [mainStep]
      refine ⟨by simp, ?_⟩
      rintro s' h
      simp only [Bool.false_eq_true, if_false, Option.some.injEq, Outcome.ok.injEq] at h
      subst h
      refine ⟨by simp, by simp, by simp, ?_, huc, ?_, by simp⟩
      · intro t ht _
        by_contra hu
        obtain ⟨a, b, hab, _⟩ := (hr t ht).2 hu
        simp at hab
      · intro t ht; have := huj t ht; simp at this
    | cons x l =>
      cases x with
      | obj p =>
        simp only [mainStep]
        refine ⟨by simp, ?_⟩
        rintro s' h
        simp only [Bool.false_eq_true, if_false, Option.some.injEq, Outcome.ok.injEq] at h
        subst h
        refine ⟨fun _ => ?_, fun _ => by simpa [Once] using ho, ?_, by simp, ?_, ?_, ?_⟩
        · simpa [objs_obj, Good] using hg
        · intro t ht _
          refine ⟨fun q hq => ?_, fun hu => joinedIn_tail ((hr t ht).2 hu) (by simp)⟩
          simp only [objs_obj]; exact List.mem_cons_of_mem _ ((hr t ht).1 q hq)
        · intro t j hm; exact huc t j (by simpa using hm)
        · intro t hm; have := huj t (by simpa using hm); simpa using this
        · intro t c hm _; have := hj t c (by simpa using hm); simpa using this
      | start t =>
        simp only [Good] at hg
        obtain ⟨g1, g2, g3, g4⟩ := hg
        simp only [Once] at ho
        cases c with
        | true =>
          simp only [mainStep]
          refine ⟨by simp, ?_⟩
          rintro s' h
          simp only [Bool.false_eq_true, if_false, if_true, Option.some.injEq, Outcome.ok.injEq] at h
          subst h
          refine ⟨fun _ => by simpa [objs_handle] using g4, fun _ => ho, ?_, by simp, ?_, ?_, ?_⟩
          · intro u hu _
            simp only [objs_handle]
            simp only [List.mem_cons] at hu
            rcases hu with rfl | hu
            · exact ⟨g1, g2⟩
            · exact ⟨(hr u hu).1, fun hn => joinedIn_tail ((hr u hu).2 hn) (by simp)⟩
          · intro u j hm; exact huc u j (by simpa using hm)
          · intro u hm; have := huj u (by simpa using hm); simpa using this
          · intro u c hm _; have := hj u c (by simpa using hm); simpa using this
        | false =>
          by_cases hf : e.mayFail = true
          · cases hm : e.mode with
            | debug =>
              by_cases hc : e.caught = true
              · simp only [mainStep, hm, hf, hc]
                refine ⟨by simp, ?_⟩
                rintro s' h
                simp only [Bool.false_eq_true, if_false, if_true, Option.some.injEq, Outcome.ok.injEq] at h
                subst h
                refine ⟨by simp, by simp, by simp, ?_, huc, ?_, by simp⟩
                · intro u hu _
                  by_contra hn
                  obtain ⟨a, b, hab, hs⟩ := (hr u hu).2 hn
                  cases a with
                  | nil => simp at hab
                  | cons y a =>
                    simp only [List.cons_append, List.cons.injEq] at hab
                    exact hs ⟨hm, hf, hc⟩ t (by rw [← hab.1]; simp)
                · intro u hu
                  have := (huc u false hu).1
                  rw [hm] at this; cases this
              · simp only [mainStep, hm, hf, hc]
                refine ⟨by simp, ?_⟩
                rintro s' h
                simp only [Bool.false_eq_true, if_false, if_true, Option.some.injEq, Outcome.ok.injEq] at h
                subst h
                exact ⟨fun _ => by simp only [Good]; exact ⟨g1, g2, g3, g4⟩, fun _ => by simpa [Once] using ho,
                  fun u hu _ => hr u hu, by simp, huc, by simpa using huj, by simpa using hj⟩
            | release =>
              simp only [mainStep, hm, hf]
              refine ⟨by simp, ?_⟩
              rintro s' h
              simp only [Bool.false_eq_true, if_false, if_true, Option.some.injEq, Outcome.ok.injEq] at h
              subst h
              refine ⟨fun _ => by simpa [objs_handle] using g4, fun _ => ho, ?_, by simp, ?_, ?_, ?_⟩
              · intro u hu _
                simp only [objs_handle]
                exact ⟨(hr u hu).1, fun hn => joinedIn_tail ((hr u hu).2 hn) (by simp)⟩
              · intro _ _ _; exact ⟨hm, hf⟩
              · intro u hu
                simp only [List.mem_cons, Item.handle.injEq, and_true] at hu
                rcases hu with rfl | hu
                · exact ⟨rfl, g3 hm hf⟩
                · have := huj u hu; simpa using this
              · intro u c hu _; have := hj u c (by simpa using hu); simpa using this
          · simp [mainStep, hf]
      | join t =>
        simp only [Good] at hg
        simp only [Once] at ho
        by_cases ht : t ∈ running
        · simp [mainStep, ht]
        · have hany : stack.any (waitedFor t) = false := by
            rw [List.any_eq_false]
            rintro i hi
            cases i with
            | obj p => simp [waitedFor]
            | handle u c j =>
              rintro hh
              simp only [waitedFor, Bool.and_eq_true, decide_eq_true_eq] at hh
              obtain ⟨⟨rfl, rfl⟩, rfl⟩ := hh
              exact hj u true hi (by simp)
          simp only [mainStep, ht, hany]
          refine ⟨by simp, ?_⟩
          rintro s' h
          simp only [Bool.false_eq_true, if_false, Option.some.injEq, Outcome.ok.injEq] at h
          subst h
          refine ⟨fun _ => by simpa [objs_mark] using hg, fun _ => ho.2, ?_, by simp, ?_, ?_, ?_⟩
          · intro u hu _
            simp only [objs_mark]
            refine ⟨(hr u hu).1, fun hn => joinedIn_tail ((hr u hu).2 hn) ?_⟩
            rintro hx
            simp only [Lifetimes.Step.join.injEq] at hx
            subst hx; exact ht hu
          · intro u j hm
            obtain ⟨j', hm', _⟩ := mark_mem hm
            exact huc u j' hm'
          · intro u hm
            obtain ⟨j', hm', hj'⟩ := mark_mem hm
            cases j' with
            | true => simp at hj'
            | false =>
              have hne : u ≠ t := by simpa using hj'
              have := huj u hm'
              simpa [hne] using this
          · intro u c hm _
            obtain ⟨j', hm', hj'⟩ := mark_mem hm
            cases j' with
            | true => have := hj u c hm'; simp at this; exact this.2
            | false =>
              have hne : u = t := by simpa using hj'
              subst hne; exact ho.1

theorem inv_step (e : Env) (uses : Nat → List α) (ends : Nat → Bool) (s : St α) (v : Event α) (h : Inv e uses s) :
    step e uses ends s v ≠ some .ub ∧ ∀ s', step e uses ends s v = some (.ok s') → Inv e uses s' := by
  cases v with
  | main c => exact inv_main e uses s c h
  | use t p =>
    simp only [step]
    split
    · rename_i hc
      have hl : lives s p = true := by
        rw [lives_iff]
        cases hl : s.leaving with
        | false => exact (h.run t hc.2.1 hl).1 p hc.2.2
        | true => have := h.runL t hc.2.1 hl; rw [this] at hc; simp at hc
      rw [hl]
      simp only [if_true]
      exact ⟨by simp, fun s' hs => by simp at hs; subst hs; exact h⟩
    · exact ⟨by simp, by simp⟩
  | finish t =>
    simp only [step]
    split
    · refine ⟨by simp, fun s' hs => ?_⟩
      simp only [Option.some.injEq, Outcome.ok.injEq] at hs
      subst hs
      exact ⟨h.good, h.once, fun u hu => h.run u (List.mem_filter.1 hu).1, fun u hu => h.runL u (List.mem_filter.1 hu).1,
        h.uncreated, h.unjoined, h.joined⟩
    · exact ⟨by simp, by simp⟩

theorem safe_of_inv (e : Env) (uses : Nat → List α) (ends : Nat → Bool) (vs : List (Event α)) :
    ∀ s : St α, Inv e uses s → run e uses ends s vs ≠ some .ub := by
  induction vs with
  | nil => intro s _; simp [run]
  | cons v vs ih =>
    intro s h
    obtain ⟨h1, h2⟩ := inv_step e uses ends s v h
    simp only [run]
    split
    · rename_i s' hs; exact ih s' (h2 s' hs)
    · exact h1

/-! ## The rule is needed -/

def Safe (e : Env) (uses : Nat → List α) (ends : Nat → Bool) (s : St α) : Prop :=
  ∀ vs, run e uses ends s vs ≠ some .ub

theorem safe_step {e : Env} {uses : Nat → List α} {ends : Nat → Bool} {s s' : St α} (v : Event α) (h : Safe e uses ends s)
    (hs : step e uses ends s v = some (.ok s')) : Safe e uses ends s' := by
  intro vs hv
  apply h (v :: vs)
  simp only [run, hs, hv]

theorem safe_not_ub {e : Env} {uses : Nat → List α} {ends : Nat → Bool} {s : St α} (v : Event α)
    (h : Safe e uses ends s) : step e uses ends s v ≠ some .ub := by
  intro hs
  apply h [v]
  simp only [run, hs]

/-- A safe state that is being left keeps no running thread with something to use. -/
theorem safe_leaving {e : Env} {uses : Nat → List α} {ends : Nat → Bool} (l : List (Lifetimes.Step α)) (r : List Nat)
    (k : List (Item α)) (h : Safe e uses ends ⟨l, k, r, true, false⟩) :
    (∀ t ∈ r, uses t = []) ∧ ∀ t, .handle t false false ∉ k := by
  induction k with
  | nil =>
    refine ⟨fun t ht => ?_, by simp⟩
    rw [List.eq_nil_iff_forall_not_mem]
    intro p hp
    apply safe_not_ub (.use t p) h
    simp [step, ht, hp, lives]
  | cons i k ih =>
    cases i with
    | obj p =>
      have := ih (safe_step (.main true) h (by simp [step, mainStep]))
      exact ⟨this.1, by simpa using this.2⟩
    | handle u c j =>
      cases hcj : (!j && !c) with
      | true =>
        exfalso
        apply safe_not_ub (.main true) h
        simp [step, mainStep, hcj]
      | false =>
        have := ih (safe_step (.main true) h (by simp [step, mainStep, hcj]))
        refine ⟨this.1, fun t ht => ?_⟩
        simp only [List.mem_cons, Item.handle.injEq] at ht
        rcases ht with ⟨_, rfl, rfl⟩ | ht
        · simp at hcj
        · exact this.2 t ht

/-- Getting past a `join`. -/
theorem safe_join {e : Env} {uses : Nat → List α} {ends : Nat → Bool} (he : ∀ t, ends t = true)
    {t : Nat} {l : List (Lifetimes.Step α)} {k : List (Item α)} {r : List Nat}
    (h : Safe e uses ends ⟨.join t :: l, k, r, false, false⟩) :
    Safe e uses ends ⟨l, k.map (markJoined t), r.filter (· ≠ t), false, false⟩ := by
  have h1 : Safe e uses ends ⟨.join t :: l, k, r.filter (· ≠ t), false, false⟩ := by
    by_cases ht : t ∈ r
    · exact safe_step (.finish t) h (by simp [step, ht, he])
    · have : r.filter (· ≠ t) = r := by
        rw [List.filter_eq_self]; intro u hu; simp; rintro rfl; exact ht hu
      rw [this]; exact h
  have hn : t ∉ r.filter (· ≠ t) := by simp
  have h2 := safe_not_ub (.main true) h1
  refine safe_step (.main true) h1 ?_
  simp only [step, mainStep, Bool.false_eq_true, if_false, if_neg hn] at h2 ⊢
  split
  · rename_i hx; rw [if_pos hx] at h2; exact absurd rfl h2
  · rfl

theorem safe_joinedIn {e : Env} {uses : Nat → List α} {ends : Nat → Bool} (he : ∀ t, ends t = true)
    (t : Nat) (hu : uses t ≠ []) (l : List (Lifetimes.Step α)) :
    ∀ (k : List (Item α)) (r : List Nat), t ∈ r → Safe e uses ends ⟨l, k, r, false, false⟩ → JoinedIn e t l := by
  induction l with
  | nil =>
    intro k r ht h
    have := safe_step (s' := ⟨[], k, r, true, false⟩) (.main true) h (by simp [step, mainStep])
    exact absurd ((safe_leaving _ _ _ this).1 t ht) hu
  | cons x l ih =>
    intro k r ht h
    have cons : JoinedIn e t l → (∀ u, x = .start u → ¬ Env.unwinds e) → JoinedIn e t (x :: l) := by
      rintro ⟨a, b, rfl, hs⟩ hx
      refine ⟨x :: a, b, rfl, fun hw u hm => ?_⟩
      simp only [List.mem_cons] at hm
      rcases hm with hm | hm
      · exact hx u hm.symm hw
      · exact hs hw u hm
    cases x with
    | obj p =>
      exact cons (ih (.obj p :: k) r ht (safe_step (.main true) h (by simp [step, mainStep]))) (by simp)
    | start u =>
      refine cons (ih (.handle u true false :: k) (u :: r) (by simp [ht])
        (safe_step (.main true) h (by simp [step, mainStep]))) ?_
      rintro _ _ ⟨w1, w2, w3⟩
      have := safe_step (s' := ⟨.start u :: l, k, r, true, false⟩) (.main false) h
        (by simp [step, mainStep, w1, w2, w3])
      exact absurd ((safe_leaving _ _ _ this).1 t ht) hu
    | join u =>
      by_cases hut : u = t
      · subst hut; exact ⟨[], l, rfl, fun _ _ => by simp⟩
      · refine cons (ih _ _ ?_ (safe_join he h)) (by simp)
        simp only [List.mem_filter]
        exact ⟨ht, by simpa using fun h => hut h.symm⟩

theorem safe_unjoined {e : Env} {uses : Nat → List α} {ends : Nat → Bool} (he : ∀ t, ends t = true)
    (t : Nat) (l : List (Lifetimes.Step α)) :
    ∀ (k : List (Item α)) (r : List Nat), .handle t false false ∈ k → Safe e uses ends ⟨l, k, r, false, false⟩ →
      .join t ∈ l := by
  induction l with
  | nil =>
    intro k r ht h
    have := safe_step (s' := ⟨[], k, r, true, false⟩) (.main true) h (by simp [step, mainStep])
    exact absurd ht ((safe_leaving _ _ _ this).2 t)
  | cons x l ih =>
    intro k r ht h
    cases x with
    | obj p =>
      exact List.mem_cons_of_mem _ (ih (.obj p :: k) r (by simp [ht])
        (safe_step (.main true) h (by simp [step, mainStep])))
    | start u =>
      exact List.mem_cons_of_mem _ (ih (.handle u true false :: k) (u :: r) (by simp [ht])
        (safe_step (.main true) h (by simp [step, mainStep])))
    | join u =>
      by_cases hut : u = t
      · subst hut; simp
      · refine List.mem_cons_of_mem _ (ih _ _ ?_ (safe_join he h))
        rw [List.mem_map]
        exact ⟨_, ht, by simp [markJoined]; exact fun h => hut h.symm⟩

theorem good_of_safe {e : Env} {uses : Nat → List α} {ends : Nat → Bool} (he : ∀ t, ends t = true)
    (l : List (Lifetimes.Step α)) :
    ∀ (k : List (Item α)) (r : List Nat), Safe e uses ends ⟨l, k, r, false, false⟩ → Good e uses (objs k) l := by
  induction l with
  | nil => intro k r _; simp [Good]
  | cons x l ih =>
    intro k r h
    cases x with
    | obj p =>
      simp only [Good]
      exact ih (.obj p :: k) r (safe_step (.main true) h (by simp [step, mainStep]))
    | join u =>
      simp only [Good]
      have := ih _ _ (safe_join he h)
      rwa [objs_mark] at this
    | start u =>
      have h1 : Safe e uses ends ⟨l, .handle u true false :: k, u :: r, false, false⟩ :=
        safe_step (.main true) h (by simp [step, mainStep])
      simp only [Good]
      refine ⟨fun p hp => ?_, fun hu => ?_, fun hm hf => ?_, ih (.handle u true false :: k) _ h1⟩
      · by_contra hn
        apply safe_not_ub (.use u p) h1
        have : lives (⟨l, .handle u true false :: k, u :: r, false, false⟩ : St α) p ≠ true := by
          rw [Ne, lives_iff]; exact hn
        simp [step, hp, this]
      · exact safe_joinedIn he u hu l _ _ (by simp) h1
      · have h2 : Safe e uses ends ⟨l, .handle u false false :: k, r, false, false⟩ :=
          safe_step (.main false) h (by simp [step, mainStep, hm, hf])
        exact safe_unjoined he u l _ _ (by simp) h2

/-! ## Waiting for a thread that does not end -/

def Follows (t : Nat) : List (Lifetimes.Step α) → Prop
  | [] => True
  | .start u :: l => (u = t → .join t ∈ l) ∧ Follows t l
  | _ :: l => Follows t l

def Waits (t : Nat) (s : St α) : Prop :=
  (t ∈ s.running → .join t ∈ s.todo ∧ s.leaving = false ∧ s.over = false) ∧ Follows t s.todo

theorem waits_step (e : Env) (uses : Nat → List α) (ends : Nat → Bool) (t : Nat)
    (hn : e.mode = .release ∨ e.mayFail = false) (s s' : St α) (v : Event α) (h : Waits t s)
    (hs : step e uses ends s v = some (.ok s')) : Waits t s' := by
  cases v with
  | use u p =>
    simp only [step] at hs
    split at hs
    · split at hs
      · simp at hs; subst hs; exact h
      · simp at hs
    · simp at hs
  | finish u =>
    simp only [step] at hs
    split at hs
    · simp at hs; subst hs
      exact ⟨fun hm => h.1 (List.mem_filter.1 hm).1, h.2⟩
    · simp at hs
  | main c =>
    obtain ⟨todo, stack, running, leaving, over⟩ := s
    obtain ⟨h1, h2⟩ := h
    simp only at h1 h2
    cases over with
    | true => simp [step, mainStep] at hs
    | false =>
    cases leaving with
    | true =>
      have hr : t ∉ running := fun hm => by have := h1 hm; simp at this
      cases stack with
      | nil =>
        simp [step, mainStep] at hs; subst hs
        exact ⟨fun hm => absurd hm hr, h2⟩
      | cons i k =>
        cases i with
        | obj p =>
          simp [step, mainStep] at hs; subst hs
          exact ⟨fun hm => absurd hm hr, h2⟩
        | handle u c' j =>
          simp only [step, mainStep] at hs
          split at hs
          · simp at hs
          · split at hs
            · split at hs
              · simp at hs
              · simp at hs; subst hs
                exact ⟨fun hm => absurd hm hr, h2⟩
            · simp at *
    | false =>
      cases todo with
      | nil =>
        simp [step, mainStep] at hs; subst hs
        exact ⟨fun hm => by have := h1 hm; simp at this, h2⟩
      | cons x l =>
        cases x with
        | obj p =>
          simp [step, mainStep] at hs; subst hs
          exact ⟨fun hm => by have := h1 hm; simpa using this, by simpa [Follows] using h2⟩
        | start u =>
          simp only [Follows] at h2
          cases c with
          | true =>
            simp [step, mainStep] at hs; subst hs
            refine ⟨fun hm => ?_, h2.2⟩
            simp only [List.mem_cons] at hm
            rcases hm with rfl | hm
            · exact ⟨h2.1 rfl, rfl, rfl⟩
            · have := h1 hm; simpa using this
          | false =>
            rcases hn with hn | hn
            · cases hf : e.mayFail with
              | false => simp [step, mainStep, hf] at hs
              | true =>
                simp [step, mainStep, hf, hn] at hs; subst hs
                exact ⟨fun hm => by have := h1 hm; simpa using this, h2.2⟩
            · simp [step, mainStep, hn] at hs
        | join u =>
          simp only [step, mainStep, Bool.false_eq_true, if_false] at hs
          split at hs
          · simp at hs
          · rename_i hu
            split at hs
            · simp at hs
            · simp at hs; subst hs
              refine ⟨fun hm => ?_, by simpa [Follows] using h2⟩
              have := h1 hm
              have hne : t ≠ u := by rintro rfl; exact hu hm
              simpa [hne] using this

theorem waits_for (e : Env) (uses : Nat → List α) (ends : Nat → Bool) (t : Nat)
    (hn : e.mode = .release ∨ e.mayFail = false) (vs : List (Event α)) :
    ∀ s s' : St α, Waits t s → run e uses ends s vs = some (.ok s') → Waits t s' := by
  induction vs with
  | nil => intro s s' h hs; simp [run] at hs; subst hs; exact h
  | cons v vs ih =>
    intro s s' h hs
    simp only [run] at hs
    split at hs
    · rename_i s1 h1; exact ih s1 s' (waits_step e uses ends t hn s s1 v h h1) hs
    · rename_i hne; exact absurd hs (hne s')

theorem main_running (e : Env) (s s' : St α) (c : Bool) (t : Nat) (ht : t ∈ s.running)
    (hs : mainStep e s c = some (.ok s')) : t ∈ s'.running := by
  obtain ⟨todo, stack, running, leaving, over⟩ := s
  simp only at ht
  simp only [mainStep] at hs
  split at hs
  · simp at hs
  · split at hs
    · split at hs
      · simp at hs; subst hs; exact ht
      · simp at hs; subst hs; exact ht
      · split at hs
        · simp at hs
        · simp at hs; subst hs; exact ht
    · split at hs
      · simp at hs; subst hs; exact ht
      · simp at hs; subst hs; exact ht
      · split at hs
        · simp at hs; subst hs; exact List.mem_cons_of_mem _ ht
        · split at hs
          · split at hs
            · split at hs <;> (simp at hs; subst hs; exact ht)
            · simp at hs; subst hs; exact ht
          · simp at hs
      · split at hs
        · simp at hs
        · split at hs
          · simp at hs
          · simp at hs; subst hs; exact ht

theorem keeps_running (e : Env) (uses : Nat → List α) (ends : Nat → Bool) (t : Nat) (he : ends t = false)
    (vs : List (Event α)) :
    ∀ s s' : St α, t ∈ s.running → run e uses ends s vs = some (.ok s') → t ∈ s'.running := by
  induction vs with
  | nil => intro s s' h hs; simp [run] at hs; subst hs; exact h
  | cons v vs ih =>
    intro s s' h hs
    simp only [run] at hs
    split at hs
    · rename_i s1 h1
      refine ih s1 s' ?_ hs
      cases v with
      | main c => exact main_running e s s1 c t h h1
      | use u p =>
        simp only [step] at h1
        split at h1
        · split at h1
          · simp at h1; subst h1; exact h
          · simp at h1
        · simp at h1
      | finish u =>
        simp only [step] at h1
        split at h1
        · rename_i hc
          simp at h1; subst h1
          simp only [List.mem_filter]
          refine ⟨h, ?_⟩
          have : t ≠ u := by
            rintro rfl
            rw [he] at hc; simp at hc
          simpa using this
        · simp at h1
    · rename_i hne; exact absurd hs (hne s')

end Ecl.Props.C137
