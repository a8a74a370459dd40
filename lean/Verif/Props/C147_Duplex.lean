import Mathlib.Tactic.ByContra
import Verif.Spec.Duplex

/-!
# C147: one thread reads a device, another one writes it
-/
set_option autoImplicit false

namespace Ecl.Props.C147
open Ecl Ecl.Duplex Ecl.Spec.Duplex

/-- What can be said about where a thread is. -/
def Good (c : Cls) (m : Mode) (can : Side → Answer → Prop) (s : Side) : Pc → Prop
  | .idle => True
  | .check => ¬ (c = .server ∧ s = .writer)
  | .call => True
  | .note _ _ => SetsError c m can s
  | .mark => Closes c can s
  | .drop => Closes c can s

structure Inv (c : Cls) (m : Mode) (can : Side → Answer → Prop) (w : World) : Prop where
  good : ∀ s, Good c m can s (w.pc s)
  isOpen : c = .serial → w.isOpen = true

theorem good_at {c : Cls} {m : Mode} {can : Side → Answer → Prop} {w : World} (h : Inv c m can w) (s : Side) (p : Pc)
    (hp : Good c m can s p) : Inv c m can (w.at s p) := by
  refine ⟨fun x => ?_, h.isOpen⟩
  unfold World.at
  by_cases e : x = s
  · subst e; simpa using hp
  · simpa [e] using h.good x

theorem good_ret {c : Cls} {m : Mode} {can : Side → Answer → Prop} {w : World} (h : Inv c m can w) (s : Side) (r : Result) :
    Inv c m can (w.ret s r) := by
  refine ⟨fun x => ?_, h.isOpen⟩
  unfold World.ret
  by_cases e : x = s
  · subst e; simp [Good]
  · simpa [e] using h.good x

theorem step_inv {c : Cls} {m : Mode} {can : Side → Answer → Prop} {w : World} (h : Inv c m can w) (s : Side) (a : Answer)
    (ha : can s a) : Inv c m can (step c m w s a) := by
  have hs := h.good s
  unfold step
  cases e : w.pc s with
  | idle =>
    refine good_at h s _ ?_
    cases c <;> cases s <;> simp [entry, Good]
  | check =>
    simp only
    split
    · exact good_at h s _ trivial
    · split
      · rename_i h1 h2
        exact absurd (h.isOpen h2) h1
      · exact good_ret h s _
  | call =>
    simp only
    have hf : ∀ f, (m = .release → SetsError c m can s) → Inv c m can (fail m w s f) := by
      intro f k
      cases m with
      | debug => exact good_ret h s _
      | release => exact good_at h s _ (k rfl)
    cases a with
    | done =>
      simp only [answered]
      split
      · exact good_ret h s _
      · rename_i k
        exact good_at h s _ (.inl ⟨ha, k⟩)
    | hangUp =>
      simp only [answered]
      split
      · rename_i k
        exact hf _ (fun hm => .inr ⟨hm, .inr ⟨k, ha⟩⟩)
      · rename_i k
        exact good_at h s _ ⟨k, ha⟩
    | failed f => exact hf f (fun hm => .inr ⟨hm, .inl ⟨f, ha⟩⟩)
  | note f r => exact good_ret (w := { w with err := f }) ⟨h.good, h.isOpen⟩ s r
  | mark =>
    rw [e] at hs
    have hc : Closes c can s := hs
    exact good_at (w := { w with isOpen := false }) ⟨h.good, fun k => absurd k hc.1⟩ s _ hc
  | drop => exact good_ret (w := { w with closes := w.closes + 1 }) ⟨h.good, h.isOpen⟩ s _

theorem run_inv {c : Cls} {m : Mode} {can : Side → Answer → Prop} (xs : List (Side × Answer)) (hx : ∀ x ∈ xs, can x.1 x.2)
    {w : World} (h : Inv c m can w) : Inv c m can (run c m w xs) := by
  induction xs generalizing w with
  | nil => exact h
  | cons x xs ih =>
    obtain ⟨s, a⟩ := x
    exact ih (fun y hy => hx y (List.mem_cons_of_mem _ hy)) (step_inv h s a (hx (s, a) List.mem_cons_self))

theorem start_inv (c : Cls) (m : Mode) (can : Side → Answer → Prop) : Inv c m can World.start :=
  ⟨fun _ => trivial, fun _ => rfl⟩

/-- A race has one of three causes. -/
theorem cause {c : Cls} {m : Mode} {can : Side → Answer → Prop} {w : World} (h : Inv c m can w) (hr : Race w) :
    (SetsError c m can .reader ∧ SetsError c m can .writer) ∨ Closes c can .writer ∨ (c = .client ∧ Closes c can .reader) := by
  obtain ⟨x, a, b, h1, h2, h3⟩ := hr
  have hg := h.good .reader
  have hw := h.good .writer
  cases e1 : w.pc .reader <;> cases e2 : w.pc .writer <;> rw [e1] at h1 hg <;> rw [e2] at h2 hw <;>
    simp only [Pc.access, Option.some.injEq, Prod.mk.injEq, reduceCtorEq] at h1 h2 <;>
    (try obtain ⟨h1, h4⟩ := h1) <;> (try obtain ⟨h2, h5⟩ := h2) <;> subst_vars <;> try (simp at h3; done)
  all_goals try (cases h2; done)
  · exact .inr (.inl hw)
  · exact .inl ⟨hg, hw⟩
  · refine .inr (.inr ⟨?_, hg⟩)
    have h6 : c ≠ .serial := hg.1
    have h7 : ¬ (c = .server ∧ Side.writer = .writer) := hw
    cases c with
    | client => rfl
    | server => exact absurd ⟨rfl, rfl⟩ h7
    | serial => exact absurd rfl h6
  · exact .inr (.inl hw)

end Ecl.Props.C147

namespace Ecl.Props
open Ecl Ecl.Duplex Ecl.Spec.Duplex C147

/-- **C147** (decision): whatever the system may answer, some schedule of a reading and a writing thread leads to a data race exactly
if both threads can come to set the error, or the writing one to close the device, or, with a client, the reading one. -/
theorem C147_decision (c : Cls) (m : Mode) (can : Side → Answer → Prop) (h : ∀ s, ∃ a, can s a) :
    Racy c m can ↔
      (SetsError c m can .reader ∧ SetsError c m can .writer) ∨ Closes c can .writer ∨ (c = .client ∧ Closes c can .reader) := by
  constructor
  · rintro ⟨xs, h1, h2⟩
    exact cause (run_inv xs h1 (start_inv c m can)) h2
  · -- an answer with which a thread comes to set the error
    have note : ∀ s, SetsError c m can s → ∃ a, can s a ∧ ∀ w : World, ∃ f r, answered c m w s a = w.at s (.note f r) := by
      rintro s (⟨h1, h2⟩ | ⟨rfl, ⟨f, h1⟩ | ⟨rfl, h1⟩⟩)
      · exact ⟨.done, h1, fun w => ⟨.noError, .moved, by simp only [answered, if_neg h2]⟩⟩
      · exact ⟨.failed f, h1, fun w => ⟨f, .problem, rfl⟩⟩
      · exact ⟨.hangUp, h1, fun w => ⟨.unknownError, .problem, rfl⟩⟩
    obtain ⟨a0, ha0⟩ := h .reader
    obtain ⟨b0, hb0⟩ := h .writer
    rintro (⟨h1, h2⟩ | ⟨h1, h2⟩ | ⟨rfl, -, h2⟩)
    · obtain ⟨a, ha, hn⟩ := note _ h1
      obtain ⟨b, hb, hm⟩ := note _ h2
      have e1 : ∃ f r w, run c m World.start [(.reader, a), (.reader, a), (.reader, a)] = w ∧ w.isOpen = true ∧
          w.pc .reader = .note f r ∧ w.pc .writer = .idle := by
        obtain ⟨f, r, k⟩ := hn ((World.start.at .reader .check).at .reader .call)
        refine ⟨f, r, ((World.start.at .reader .check).at .reader .call).at .reader (.note f r), ?_, rfl, rfl, rfl⟩
        rw [← k]
        cases c <;> rfl
      obtain ⟨f, r, w, e1, e2, e3, e4⟩ := e1
      by_cases hc : c = .server
      · subst hc
        refine ⟨[(.reader, a), (.reader, a), (.reader, a)] ++ [(.writer, b), (.writer, b)], ?_, .err, true, true, ?_⟩
        · intro x hx
          simp at hx
          rcases hx with rfl | rfl <;> assumption
        · obtain ⟨f', r', k⟩ := hm (w.at .writer .call)
          have : run .server m World.start ([(.reader, a), (.reader, a), (.reader, a)] ++ [(.writer, b), (.writer, b)]) =
              (w.at .writer .call).at .writer (.note f' r') := by
            rw [← k, ← e1]
            show run .server m (run .server m World.start [(.reader, a), (.reader, a), (.reader, a)]) [(.writer, b), (.writer, b)] = _
            rw [e1]
            simp only [run, step, e4, entry]
            rfl
          rw [this]
          simp [World.at, e3, Pc.access]
      · refine ⟨[(.reader, a), (.reader, a), (.reader, a)] ++ [(.writer, b), (.writer, b), (.writer, b)], ?_, .err, true, true, ?_⟩
        · intro x hx
          simp at hx
          rcases hx with rfl | rfl <;> assumption
        · obtain ⟨f', r', k⟩ := hm ((w.at .writer .check).at .writer .call)
          have : run c m World.start ([(.reader, a), (.reader, a), (.reader, a)] ++ [(.writer, b), (.writer, b), (.writer, b)]) =
              ((w.at .writer .check).at .writer .call).at .writer (.note f' r') := by
            rw [← k, ← e1]
            show run c m (run c m World.start [(.reader, a), (.reader, a), (.reader, a)]) [(.writer, b), (.writer, b), (.writer, b)] = _
            rw [e1]
            have en : entry c .writer = .check := by cases c <;> first | rfl | exact absurd rfl hc
            simp only [run, step, e4, en]
            simp only [World.at, if_true, e2]
          rw [this]
          simp [World.at, e3, Pc.access]
    · -- the writer closes while the reader is about to look
      by_cases hc : c = .server
      · subst hc
        refine ⟨[(.writer, .hangUp), (.writer, .hangUp), (.reader, a0)], ?_, .isOpen, false, true, rfl, rfl, .inr rfl⟩
        intro x hx
        simp at hx
        rcases hx with rfl | rfl <;> assumption
      · have hc' : c = .client := by cases c <;> first | rfl | exact absurd rfl h1 | exact absurd rfl hc
        subst hc'
        refine ⟨[(.writer, .hangUp), (.writer, .hangUp), (.writer, .hangUp), (.reader, a0)], ?_, .isOpen, false, true, rfl, rfl, .inr rfl⟩
        intro x hx
        simp at hx
        rcases hx with rfl | rfl <;> assumption
    · refine ⟨[(.reader, .hangUp), (.reader, .hangUp), (.reader, .hangUp), (.writer, b0)], ?_, .isOpen, true, false, rfl, rfl, .inl rfl⟩
      intro x hx
      simp at hx
      rcases hx with rfl | rfl <;> assumption

/-- Threads whose calls succeed or fail, but whose partner never hangs up. -/
example : ∀ s : Side, ∃ a, (fun (_ : Side) (a : Answer) => a ≠ .hangUp) s a := fun _ => ⟨.done, nofun⟩

/-- **C147** (partial): a client may be read by one thread and written by another as long as all goes well: there is no data race, the
device stays open without an error, and every call returns what the system moved. -/
theorem C147_client_partial (m : Mode) (xs : List (Side × Answer)) (h : ∀ x ∈ xs, x.2 = .done) :
    ¬ Race (run .client m World.start xs) ∧ (run .client m World.start xs).isOpen = true ∧
      (run .client m World.start xs).err = .noError ∧ (run .client m World.start xs).closes = 0 ∧
      ∀ s, ∀ r ∈ (run .client m World.start xs).log s, r = .moved := by
  refine ⟨fun hr => ?_, ?_⟩
  · rcases cause (can := fun _ a => a = .done) (run_inv xs h (start_inv .client m _)) hr with ⟨-, h2⟩ | h2 | ⟨-, h2⟩
    · rcases h2 with ⟨-, h2⟩ | ⟨-, ⟨f, h2⟩ | ⟨h2, -⟩⟩
      · exact h2 ⟨rfl, rfl⟩
      · cases h2
      · cases h2
    · cases h2.2
    · cases h2.2
  · have key : ∀ (xs : List (Side × Answer)), (∀ x ∈ xs, x.2 = .done) → ∀ w : World,
        (w.isOpen = true ∧ w.err = .noError ∧ w.closes = 0 ∧ (∀ s, ∀ r ∈ w.log s, r = .moved) ∧
          ∀ s, w.pc s = .idle ∨ w.pc s = .check ∨ w.pc s = .call ∨ w.pc s = .note .noError .moved) →
        (run .client m w xs).isOpen = true ∧ (run .client m w xs).err = .noError ∧ (run .client m w xs).closes = 0 ∧
          ∀ s, ∀ r ∈ (run .client m w xs).log s, r = .moved := by
      intro xs
      induction xs with
      | nil => exact fun _ w hw => ⟨hw.1, hw.2.1, hw.2.2.1, hw.2.2.2.1⟩
      | cons x xs ih =>
        obtain ⟨s, a⟩ := x
        intro hx w hw
        have ha : a = .done := hx (s, a) List.mem_cons_self
        subst ha
        refine ih (fun y hy => hx y (List.mem_cons_of_mem _ hy)) (step .client m w s .done) ?_
        obtain ⟨h1, h2, h3, h4, h5⟩ := hw
        have at' : ∀ p, (p = .idle ∨ p = .check ∨ p = .call ∨ p = .note .noError .moved) →
            ∀ x, (w.at s p).pc x = .idle ∨ (w.at s p).pc x = .check ∨ (w.at s p).pc x = .call ∨
              (w.at s p).pc x = .note .noError .moved := by
          intro p hp x
          unfold World.at
          by_cases e : x = s
          · subst e; simpa using hp
          · simpa [e] using h5 x
        have ret' : ∀ x, (w.ret s .moved).pc x = .idle ∨ (w.ret s .moved).pc x = .check ∨ (w.ret s .moved).pc x = .call ∨
            (w.ret s .moved).pc x = .note .noError .moved := by
          intro x
          unfold World.ret
          by_cases e : x = s
          · simp [e]
          · simpa [e] using h5 x
        have log' : ∀ x, ∀ r ∈ (w.ret s .moved).log x, r = .moved := by
          intro x r hr
          unfold World.ret at hr
          by_cases e : x = s
          · subst e
            simp only [if_true, List.mem_cons] at hr
            rcases hr with hr | hr
            · exact hr
            · exact h4 x r hr
          · simp only [e, if_false] at hr
            exact h4 x r hr
        rcases h5 s with e | e | e | e
        · simp only [step, e]
          exact ⟨h1, h2, h3, h4, at' _ (by cases s <;> simp [entry])⟩
        · simp only [step, e, h1, if_true]
          exact ⟨h1, h2, h3, h4, at' _ (by simp)⟩
        · simp only [step, e, answered]
          split
          · exact ⟨h1, h2, h3, log', ret'⟩
          · exact ⟨h1, h2, h3, h4, at' _ (by simp)⟩
        · simp only [step, e]
          exact ⟨h1, rfl, h3, log', ret'⟩
    exact key xs h World.start ⟨rfl, rfl, rfl, fun s r hr => (by cases hr), fun _ => .inl rfl⟩

/-- Two calls of each thread. -/
example : (run .client .debug World.start ((List.replicate 4 [(.reader, .done), (.writer, .done)]).flatten)).log =
    fun _ => [.moved] := by
  funext s
  cases s <;> rfl

/-- **C147** fails: a serial port, or the server's side of a connection, cannot be read by one thread while another one writes, in
any build, even if every call succeeds. -/
theorem C147_fails_error (c : Cls) (hc : c ≠ .client) (m : Mode) : Racy c m (fun _ a => a = .done) :=
  (C147_decision c m (fun _ a => a = .done) (fun _ => ⟨.done, rfl⟩)).2
    (.inl ⟨.inl ⟨rfl, fun h => hc h.1⟩, .inl ⟨rfl, fun h => hc h.1⟩⟩)

/-- **C147** fails: with a client, a partner that hangs up is enough. -/
theorem C147_fails_hang_up (m : Mode) (s : Side) (can : Side → Answer → Prop) (h : ∀ s, ∃ a, can s a) (hs : can s .hangUp) :
    Racy .client m can := by
  refine (C147_decision .client m can h).2 (.inr ?_)
  cases s with
  | reader => exact .inr ⟨rfl, nofun, hs⟩
  | writer => exact .inl ⟨nofun, hs⟩

/-- **C147** fails: even when the accesses themselves do no harm, the failure of one thread is hidden by the success of the other:
the call reported a problem, but `error()` says that there is none. -/
theorem C147_fails_hidden (f : Flag) :
    ∃ xs : List (Side × Answer), (run .serial .release World.start xs).log .writer = [.problem] ∧
      (run .serial .release World.start xs).pc .writer = .idle ∧ (run .serial .release World.start xs).err = .noError :=
  ⟨[(.writer, .failed f), (.writer, .failed f), (.writer, .failed f), (.writer, .failed f),
    (.reader, .done), (.reader, .done), (.reader, .done), (.reader, .done)], rfl, rfl, rfl⟩

/-- **C147** fails: if the partner hangs up, both threads may close the same descriptor, whatever it stands for by then. -/
theorem C147_fails_closed_twice (m : Mode) :
    ∃ xs : List (Side × Answer), (run .client m World.start xs).closes = 2 :=
  ⟨(List.replicate 5 [(.reader, .hangUp), (.writer, .hangUp)]).flatten, rfl⟩

end Ecl.Props
