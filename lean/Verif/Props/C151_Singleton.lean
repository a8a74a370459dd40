import Verif.Lemmas.Singleton

/-!
# C151: A singleton is constructed once

The events are calls of `instance()` by any threads, the ends of the constructor, and the completion of the constructors
of other static objects; `run init es = .ok s` says that `es` can happen.  `s.got` lists the references that were
returned, each as a thread and the number of the run of the constructor that made the object.
-/
set_option autoImplicit false

namespace Ecl.Props

open Ecl.Singleton

/-- Every thread is given the same object, one whose constructor has returned; the constructor returned at most once, and
it was begun again only after it had thrown. -/
theorem C151_same (es : List Event) (s : St) (h : run init es = .ok s) :
    (∀ x ∈ s.got, ∀ y ∈ s.got, x.2 = y.2) ∧ s.order.count .single ≤ 1 ∧
    (s.got ≠ [] ↔ s.order.count .single = 1) ∧ s.threw ≤ s.started ∧ s.started ≤ s.threw + 1 := by
  have hi := inv_run inv_init h
  cases hg : s.guard with
  | idle =>
    obtain ⟨h1, h2, h3⟩ := hi.idle hg
    simp [h1, h2, h3]
  | building t =>
    obtain ⟨h1, h2, h3⟩ := hi.building t hg
    simp [h1, h2, h3]
  | done k =>
    obtain ⟨h1, h2, h3, h4, h5⟩ := hi.done k hg
    exact ⟨fun x hx y hy => (h5 x hx).trans (h5 y hy).symm, by omega, ⟨fun _ => h4, fun _ => h3⟩, by omega, by omega⟩

/-- After a reference was returned the constructor is never begun again, and every later call, by any thread, returns at
once with that object. -/
theorem C151_kept (es fs : List Event) (s s' : St) (x : Nat × Nat) (h : run init es = .ok s) (hx : x ∈ s.got)
    (h' : run s fs = .ok s') (t : Nat) :
    s'.started = s.started ∧ ∃ r, step s' (.call t) = .ok r ∧ r.got = (t, x.2) :: s'.got ∧ r.started = s.started := by
  have hi := inv_run inv_init h
  cases hg : s.guard with
  | idle => rw [(hi.idle hg).2.1] at hx; cases hx
  | building u => rw [(hi.building u hg).2.1] at hx; cases hx
  | done k =>
    obtain ⟨a, b⟩ := done_run hg h'
    have hk := (hi.done k hg).2.2.2.2 x hx
    exact ⟨b, { s' with got := (t, k) :: s'.got }, by simp only [step, a], by simp [hk], b⟩

/-- A call waits only for a constructor that is running in another thread: as soon as every constructor that was begun has
returned or thrown, a call by any thread goes ahead, and it begins the constructor exactly if none has returned yet. -/
theorem C151_progress (es : List Event) (s : St) (h : run init es = .ok s)
    (hq : s.started = s.threw + s.order.count .single) (t : Nat) :
    ∃ r, step s (.call t) = .ok r ∧ (r.started = s.started + 1 ↔ s.got = []) ∧
      (s.got = [] → ∃ r', run r [.finish t] = .ok r' ∧ r'.got = [(t, s.started + 1)]) := by
  have hi := inv_run inv_init h
  cases hg : s.guard with
  | idle =>
    obtain ⟨h1, h2, h3⟩ := hi.idle hg
    exact ⟨{ s with guard := .building t, started := s.started + 1 }, by simp only [step, hg], by simp [h2], fun _ =>
      ⟨{ s with guard := .done (s.started + 1), started := s.started + 1, got := (t, s.started + 1) :: s.got,
                order := .single :: s.order }, by simp [run, step], by simp [h2]⟩⟩
  | building u =>
    obtain ⟨h1, h2, h3⟩ := hi.building u hg
    omega
  | done k =>
    obtain ⟨h1, h2, h3, h4, h5⟩ := hi.done k hg
    exact ⟨{ s with got := (t, k) :: s.got }, by simp only [step, hg], by simp [h3], fun hc => absurd hc h3⟩

/-- While the constructor runs in one thread no other thread gets a reference or begins a second constructor. -/
theorem C151_exclusive (es : List Event) (s r : St) (h : run init es = .ok s) (t : Nat)
    (ht : step s (.finish t) = .ok r) (u : Nat) (hu : u ≠ t) : s.got = [] ∧ s.started = s.threw + 1 ∧
      ∀ q, step s (.call u) ≠ .ok q ∧ step s (.finish u) ≠ .ok q ∧ step s (.throws u) ≠ .ok q := by
  have hi := inv_run inv_init h
  have hg : s.guard = .building t := by
    by_cases hg : s.guard = .building t
    · exact hg
    · simp [step, hg] at ht
  refine ⟨(hi.building t hg).2.1, (hi.building t hg).1, fun q => ⟨?_, ?_, ?_⟩⟩ <;> simp [step, hg, Ne.symm hu]

/-- A constructor that asks for the singleton it is constructing is undefined behaviour, whatever came before. -/
theorem C151_fails_nested (es : List Event) (s r : St) (h : run init es = .ok s) (t : Nat)
    (hb : step s (.finish t) = .ok r) : run init (es ++ [.call t]) matches .ub := by
  have hg : s.guard = .building t := by
    by_cases hg : s.guard = .building t
    · exact hg
    · simp [step, hg] at hb
  rw [run_append, h]
  simp [run, step, hg]

/-- When static objects are destroyed, those with `uses` asking for the singleton in their destructors: with no
constructor running, this is undefined behaviour exactly if such an object was complete before the singleton was, or the
singleton was never made and there are two such objects. -/
theorem C151_exit (uses : Nat → Bool) (es : List Event) (s : St) (h : run init es = .ok s)
    (hq : s.started = s.threw + s.order.count .single) : atExit uses s = false ↔
      (∃ a b c i t, es = a ++ .other i :: b ++ .finish t :: c ∧ uses i = true) ∨
      ((∀ t, .finish t ∉ es) ∧ ∃ a b c i j, es = a ++ .other i :: b ++ .other j :: c ∧ uses i = true ∧ uses j = true) := by
  have hi := inv_run inv_init h
  have ho : s.order = (completed es).reverse := by simpa [init] using order_run h
  have hfin : ∀ (l : List Event) (t : Nat), .finish t ∈ l → .single ∈ completed l := by
    intro l t ht
    obtain ⟨a, b, rfl⟩ := List.append_of_mem ht
    simp [completed_append, completed]
  have hone : ∀ {e : Event} {i : Nat}, completed [e] = [.other i] → e = .other i := by
    intro e i he; cases e <;> simp_all [completed]
  have hsin : ∀ {e : Event}, completed [e] = [.single] → ∃ t, e = .finish t := by
    intro e he; cases e <;> simp_all [completed]
  cases hg : s.guard with
  | building u => obtain ⟨h1, h2, h3⟩ := hi.building u hg; omega
  | idle =>
    obtain ⟨h1, h2, h3⟩ := hi.idle hg
    have hn : .single ∉ s.order := List.count_eq_zero.1 h3
    have hc : .single ∉ completed es := by rw [ho] at hn; simpa using hn
    have hnf : ∀ t, .finish t ∉ es := fun t ht => hc (hfin es t ht)
    have hl : ¬ ∃ a b c i t, es = a ++ .other i :: b ++ .finish t :: c ∧ uses i = true := by
      rintro ⟨a, b, c, i, t, rfl, _⟩
      exact hnf t (by simp)
    simp only [atExit, hg, hl, false_or]
    rw [destroy_never uses _ hn, and_iff_right hnf]
    constructor
    · rintro ⟨a, b, c, i, j, he, hi', hj'⟩
      have h4 : completed es = (c.reverse) ++ .other j :: (b.reverse ++ .other i :: a.reverse) := by
        have := congrArg List.reverse (ho.symm.trans he)
        simpa using this
      obtain ⟨x, e, y, rfl, _, h6, h7⟩ := completed_split h4
      obtain ⟨y1, e', y2, rfl, _, _, h10⟩ := completed_split h6
      rw [hone h7, hone h10]
      exact ⟨x, y1, y2, j, i, by simp, hj', hi'⟩
    · rintro ⟨a, b, c, i, j, rfl, hi', hj'⟩
      refine ⟨(completed c).reverse, (completed b).reverse, (completed a).reverse, j, i, ?_, hj', hi'⟩
      rw [ho]
      simp [completed_append, completed]
  | done k =>
    obtain ⟨h1, h2, h3, h4, h5⟩ := hi.done k hg
    have hm : Obj.single ∈ completed es := by
      have : Obj.single ∈ s.order := List.count_pos_iff.1 (by omega)
      rw [ho] at this
      simpa using this
    obtain ⟨A, B, hAB⟩ := List.append_of_mem hm
    have hcnt : (completed es).count .single = 1 := by rw [← List.count_reverse, ← ho]; exact h4
    rw [hAB, List.count_append, List.count_cons_self] at hcnt
    have hA : Obj.single ∉ A := List.count_eq_zero.1 (by omega)
    have hB : Obj.single ∉ B := List.count_eq_zero.1 (by omega)
    obtain ⟨x, e, y, hes, h6, h7, h8⟩ := completed_split hAB
    obtain ⟨u, rfl⟩ := hsin h8
    have hr : ¬ ∀ t, .finish t ∉ es := fun hc => hc u (by rw [hes]; simp)
    simp only [atExit, hg, hr, false_and, or_false]
    rw [ho, hAB, List.reverse_append, List.reverse_cons, List.append_assoc, List.singleton_append,
      destroy_alive uses _ _ (by simpa using hB), ← Bool.not_eq_true, destroy_dead]
    simp only [List.mem_reverse, not_forall, Bool.not_eq_false]
    constructor
    · rintro ⟨i, hmi, hu⟩
      obtain ⟨A1, A2, rfl⟩ := List.append_of_mem hmi
      obtain ⟨a, e, b, rfl, _, _, h11⟩ := completed_split h6
      rw [hone h11] at hes
      exact ⟨a, b, y, i, u, hes, hu⟩
    · rintro ⟨a, b, c, i, t, he, hu⟩
      refine ⟨i, ?_, hu⟩
      have h9 : completed a ++ .other i :: completed b ++ .single :: completed c = A ++ .single :: B := by
        rw [← hAB, he]; simp [completed_append, completed]
      rcases List.append_eq_append_iff.1 h9 with ⟨l, hl1, _⟩ | ⟨l, hl1, hl2⟩
      · rw [hl1]; simp
      · cases l with
        | nil => rw [List.append_nil] at hl1; rw [← hl1]; simp
        | cons z l =>
          exfalso
          simp only [List.cons_append, List.cons.injEq] at hl2
          exact hB (by rw [hl2.2]; simp)

/-- Objects whose constructors asked for the singleton, or came after it, may ask for it in their destructors. -/
theorem C151_exit_partial (uses : Nat → Bool) (es : List Event) (s : St) (x : Nat × Nat) (h : run init es = .ok s)
    (hx : x ∈ s.got) (fs : List Event) (s' : St) (h' : run s fs = .ok s')
    (hlate : ∀ i, uses i = true → .other i ∉ es) : atExit uses s' = true := by
  have hr : run init (es ++ fs) = .ok s' := by rw [run_append, h]; exact h'
  have hi := inv_run inv_init h
  cases hg : s.guard with
  | idle => rw [(hi.idle hg).2.1] at hx; cases hx
  | building u => rw [(hi.building u hg).2.1] at hx; cases hx
  | done k =>
    obtain ⟨hg', -⟩ := done_run hg h'
    obtain ⟨-, h2, h3, h4, -⟩ := (inv_run inv_init hr).done k hg'
    have h4s := (hi.done k hg).2.2.2.1
    have ho := order_run h
    have ho' := order_run h'
    have hfs : Obj.single ∉ completed fs := by
      have h5 := h4
      rw [ho', List.count_append, List.count_reverse, h4s] at h5
      exact List.count_eq_zero.1 (by omega)
    have hfin : ∀ t, Event.finish t ∉ fs := by
      intro t ht
      obtain ⟨a, b, rfl⟩ := List.append_of_mem ht
      simp [completed_append, completed] at hfs
    rw [← Bool.not_eq_false, C151_exit uses _ s' hr (by omega)]
    rintro (⟨a, b, c, i, t, he, hu⟩ | ⟨hn, -⟩)
    · rw [List.append_assoc] at he
      rcases List.append_eq_append_iff.1 he with ⟨l, -, hl⟩ | ⟨l, hl1, hl2⟩
      · exact hfin t (by rw [hl]; simp)
      · cases l with
        | nil =>
          simp only [List.nil_append, List.cons_append] at hl2
          exact hfin t (by rw [← hl2]; simp)
        | cons z l =>
          simp only [List.cons_append, List.cons.injEq] at hl2
          exact hlate i hu (by rw [hl1, hl2.1]; simp)
    · have : Obj.single ∈ s.order := List.count_pos_iff.1 (by omega)
      rw [ho] at this
      have hm : Obj.single ∈ completed es := by simpa [init] using this
      obtain ⟨A, B, hAB⟩ := List.append_of_mem hm
      obtain ⟨a, e, b, rfl, -, -, h8⟩ := completed_split hAB
      cases e with
      | finish t => exact hn t (by simp)
      | call t => simp [completed] at h8
      | throws t => simp [completed] at h8
      | other i => simp [completed] at h8

/-- But a static object made before the first call, whose destructor asks for the singleton, gets a destroyed one. -/
theorem C151_fails_exit : ∃ s, run init [.other 0, .call 0, .finish 0] = .ok s ∧
    atExit (fun _ => true) s = false := ⟨_, rfl, rfl⟩

/-! ## The hypotheses are met -/

/-- A constructor is running in thread 4. -/
example : ∃ s r, run init [.call 3, .throws 3, .call 4] = .ok s ∧ step s (.finish 4) = .ok r ∧ r.got = [(4, 2)] :=
  ⟨_, _, rfl, rfl, rfl⟩

/-- A constructor that throws, a second attempt by another thread, and three references. -/
def C151.es : List Event := [.call 1, .throws 1, .call 2, .other 7, .finish 2, .call 1, .other 8, .call 3]

example : ∃ s, run init C151.es = .ok s ∧ s.got = [(3, 2), (1, 2), (2, 2)] ∧ s.started = 2 ∧ s.threw = 1 ∧
    s.order = [.other 8, .single, .other 7] := ⟨_, rfl, rfl, rfl, rfl, rfl⟩

example : ∃ s, run init C151.es = .ok s ∧ atExit (fun i => i = 8) s = true ∧ atExit (fun i => i = 7) s = false :=
  ⟨_, rfl, rfl, rfl⟩

/-- Never constructed: one destructor may make it, two may not. -/
example : ∃ s, run init [.other 1, .other 2] = .ok s ∧ atExit (fun i => i = 1) s = true ∧
    atExit (fun _ => true) s = false := ⟨_, rfl, rfl, rfl⟩

end Ecl.Props
