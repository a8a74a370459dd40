import Verif.Lemmas.Lifetimes

/-!
# C137: threads only use objects that exist
-/
set_option autoImplicit false

namespace Ecl.Props
open Lifetimes

variable {α : Type}

open C137

/-- **C137** (schedules): a program that keeps the rule never lets a thread use a part that does not exist, whatever
the scheduler does, and nothing else undefined happens either: whether or not the threads ever end, in both builds, with
or without failures to create threads. -/
theorem C137_rule [DecidableEq α] (e : Env) (uses : Nat → List α) (ends : Nat → Bool)
    (prog : List (Lifetimes.Step α)) (ho : JoinedOnce prog) (h : LifetimesRule e uses prog) :
    LifetimesSafe e uses ends prog := by
  intro vs
  exact safe_of_inv e uses ends vs _ (inv_init e uses prog ((rule_iff e uses prog).1 h) ((once_iff prog).1 ho))

/-- **C137** (necessity): a program whose threads can end, and that does not keep the rule, has a schedule with undefined
behaviour. -/
theorem C137_needed [DecidableEq α] (e : Env) (uses : Nat → List α) (ends : Nat → Bool) (he : ∀ t, ends t = true)
    (prog : List (Lifetimes.Step α)) (h : LifetimesSafe e uses ends prog) : LifetimesRule e uses prog := by
  rw [rule_iff]
  exact good_of_safe he prog [] [] h

/-- A program with an object, a thread using it and a wait keeps the rule. -/
example : LifetimesRule ⟨.release, true, true⟩ (fun _ => [7]) [.obj 7, .start 0, .join 0] ∧
    JoinedOnce [Lifetimes.Step.obj 7, .start 0, .join 0] := by
  rw [rule_iff, once_iff]
  refine ⟨?_, by simp [Once]⟩
  simp only [Good, JoinedIn]
  refine ⟨by simp, fun _ => ⟨[], [], rfl, fun _ _ => by simp⟩, by simp, trivial⟩

theorem C137.serial_once : Once serialProgram := by simp [serialProgram, Once]
theorem C137.socket_once : Once socketProgram := by simp [socketProgram, Once]

/-- **C137** (the serial terminal): exactly decided.  In every build and for every schedule nothing undefined happens,
except in debug builds if the system can fail to create the second thread. -/
theorem C137_serial (e : Env) : LifetimesSafe e serialUses writersEnd serialProgram ↔ ¬ Env.unwinds e := by
  constructor
  · rintro h ⟨h1, h2, h3⟩
    obtain ⟨m, f, c⟩ := e
    simp only at h1 h2 h3
    subst h1 h2 h3
    apply h ((List.replicate 11 (.main true)) ++ [.main false] ++ List.replicate 11 (.main true) ++ [.use 0 .device])
    decide +kernel
  · intro hu
    refine C137_rule e _ _ _ ((once_iff _).2 serial_once) ((rule_iff _ _ _).2 ?_)
    simp only [serialProgram, Good, JoinedIn, true_and, and_true]
    refine ⟨by simp [serialUses], fun _ => ?_, by simp, by simp [serialUses], fun _ => ?_, by simp⟩
    · exact ⟨[.obj .wDisplayTimestamps, .obj .wTimestamp, .obj .wSerial, .start 1], [.join 1], rfl, fun h => absurd h hu⟩
    · exact ⟨[.join 0], [], rfl, fun h => absurd h hu⟩

example : ∃ s, run ⟨.release, true, true⟩ serialUses writersEnd (St.init serialProgram)
    (List.replicate 8 (.main true) ++ [.use 0 .device] ++ List.replicate 4 (.main true) ++ [.use 1 .wSerial, .finish 1])
    = some (.ok s) ∧ s.running = [0] := ⟨_, rfl, rfl⟩

/-- **C137, refuted in debug builds** (failures): if the second thread of the serial terminal cannot be created, the
exception destroys the port and the reader while the reader's thread goes on using them. -/
theorem C137_fails_serial : ¬ LifetimesSafe ⟨.debug, true, true⟩ serialUses writersEnd serialProgram := by
  rw [C137_serial]
  exact fun h => h ⟨rfl, rfl, rfl⟩

/-- **C137, refuted** (schedules): the writer of the hexadecimal terminal starts its thread before its converter is
constructed: in every build there is a schedule, with all threads created, in which the converter is used before. -/
theorem C137_fails_hex (e : Env) : ¬ LifetimesSafe e hexUses writersEnd hexProgram := by
  intro h
  apply h (List.replicate 12 (.main true) ++ [.use 1 .wToByteArray])
  obtain ⟨m, f, c⟩ := e
  cases m <;> cases f <;> cases c <;> decide +kernel

/-- **C137** (the hexadecimal terminal, all but its converter): that is the only thing wrong with it unless threads
cannot be created: if the converter existed before, the program would be safe. -/
theorem C137_hex_partial (e : Env) (hu : ¬ Env.unwinds e) (ends : Nat → Bool) :
    LifetimesSafe e hexUses ends (.obj .wToByteArray :: hexProgram.filter (· ≠ .obj .wToByteArray)) := by
  refine C137_rule e _ _ _ ((once_iff _).2 (by simp [hexProgram, Once])) ((rule_iff _ _ _).2 ?_)
  have hf : hexProgram.filter (· ≠ .obj .wToByteArray) = [.obj .device,
     .obj .rSerial, .obj .rDisplayTimestamps, .obj .rTime, .obj .rFormat, .obj .rHexFormat, .start 0,
     .obj .wDisplayTimestamps, .obj .wTimestamp, .obj .wSerial, .obj .wHexFormat, .start 1, .join 0, .join 1] := by
    decide
  rw [hf]
  simp only [Good, JoinedIn, true_and, and_true]
  refine ⟨by simp [hexUses], fun _ => ?_, by simp, by simp [hexUses], fun _ => ?_, by simp⟩
  · exact ⟨[.obj .wDisplayTimestamps, .obj .wTimestamp, .obj .wSerial, .obj .wHexFormat, .start 1], [.join 1], rfl,
      fun h => absurd h hu⟩
  · exact ⟨[.join 0], [], rfl, fun h => absurd h hu⟩

/-- **C137** (the socket terminals): since no handler catches the exception, nothing undefined happens in any build,
for any schedule and any failures. -/
theorem C137_sockets (m : Mode) (f : Bool) (ends : Nat → Bool) :
    LifetimesSafe ⟨m, f, false⟩ socketUses ends socketProgram := by
  have hu : ¬ Env.unwinds ⟨m, f, false⟩ := by rintro ⟨_, _, h⟩; simp at h
  refine C137_rule _ _ _ _ ((once_iff _).2 socket_once) ((rule_iff _ _ _).2 ?_)
  simp only [socketProgram, Good, JoinedIn, true_and, and_true]
  refine ⟨by simp [socketUses], fun _ => ?_, by simp, by simp [socketUses], fun _ => ?_, by simp⟩
  · exact ⟨[.start 1], [.join 1], rfl, fun h => absurd h hu⟩
  · exact ⟨[.join 0], [], rfl, fun h => absurd h hu⟩

/-- **C137, refuted** (termination): a terminal does not end when its input does: once the reader's thread runs, `main`
never returns, whatever the scheduler does, unless an exception makes it. -/
theorem C137_fails_endless (e : Env) (hn : e.mode = .release ∨ e.mayFail = false) (uses : Nat → List Part)
    (prog : List (Lifetimes.Step Part)) (hp : prog = serialProgram ∨ prog = hexProgram ∨ prog = socketProgram)
    (vs : List (Lifetimes.Event Part)) (s : St Part)
    (h : run e uses writersEnd (St.init prog) vs = some (.ok s)) (hr : 0 ∈ s.running)
    (later : List (Lifetimes.Event Part)) (s' : St Part) (h' : run e uses writersEnd s later = some (.ok s')) :
    s'.leaving = false ∧ s'.over = false := by
  have hw : Waits 0 (St.init prog) → Waits 0 s' := fun hi =>
    waits_for e uses writersEnd 0 hn later s s' (waits_for e uses writersEnd 0 hn vs (St.init prog) s hi h) h'
  refine ((hw ⟨by simp [St.init], ?_⟩).1 (keeps_running e uses writersEnd 0 rfl later s s' hr h')).2
  rcases hp with rfl | rfl | rfl <;> simp [St.init, serialProgram, hexProgram, socketProgram, Follows]

example : ∃ s, run ⟨.release, true, true⟩ socketUses writersEnd (St.init socketProgram)
    (List.replicate 5 (.main true) ++ [.finish 1]) = some (.ok s) ∧ s.running = [0] := ⟨_, rfl, rfl⟩

/-- **C137, refuted** (destruction): the thread of a `Threadable` is not waited for, so it can use the object after its
destruction; the class has no way of waiting. -/
theorem C137_fails_threadable (m : Mode) (f c : Bool) :
    ¬ LifetimesSafe ⟨m, f, c⟩ threadableUses (fun _ => true) threadableProgram := by
  intro h
  have := C137_needed _ _ _ (fun _ => rfl) _ h [.obj ()] 0 [] rfl
  obtain ⟨a, b, hab, _⟩ := this.2.1 (by simp [threadableUses])
  simp at hab

end Ecl.Props
