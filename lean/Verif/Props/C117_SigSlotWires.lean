import Verif.Lemmas.SigSlotWiresCheck

/-!
# C117: signals and slots of one data type used from several threads
-/
set_option autoImplicit false

namespace Ecl.Props
open Ecl.SigSlots.Wires
open Ecl.Spec.Wiring

/-- Calls that keep out of each other's way (`Separate`) never race, and behave as if each of them had been made on its
own at the moment it began: every result is the one of that sequence, and when all are over so is the memory.
This is for any number of threads, any calls, and any schedule. -/
theorem C117_serial_partial (es : List Event) (h : AllOrderly init es) :
    ¬ Race (exec init es) ∧
      (∀ n r, (exec init es).results n = some r → (serial (fun _ => []) (exec init es).begun).1[n]? = some r) ∧
      (Idle (exec init es) → (exec init es).mem = (serial (fun _ => []) (exec init es).begun).2) := by
  have hi := Inv.init.exec es init h
  refine ⟨hi.no_race, hi.over, fun idle => ?_⟩
  funext x
  refine (hi.others x fun i a ha => ?_).symm
  rw [idle i] at ha
  cases ha

/-- If moreover the calls, in the order in which they began, use only endpoints that exist and disconnect none that
is alone with itself on a topic, then nothing goes wrong: every emission calls each slot once for each topic between them,
an endpoint is deleted with its last handle and not before, and when all calls are over the tables say exactly
who is connected to what. -/
theorem C117_threads_partial (es : List Event) (h : AllOrderly init es) (hl : Net.empty.AllLegal (exec init es).begun) :
    (∀ n r, (exec init es).results n = some r →
      ∃ c, (exec init es).begun[n]? = some c ∧ Expected (Net.empty.run ((exec init es).begun.take n)) c r) ∧
    (Idle (exec init es) → Describes (exec init es).mem (Net.empty.run (exec init es).begun)) := by
  obtain ⟨_, h1, h2⟩ := C117_serial_partial es h
  obtain ⟨h3, h4⟩ := serial_holds _ _ _ Holds.empty hl
  refine ⟨fun n r hr => h4 n r (h1 n r hr), fun idle => ?_⟩
  rw [h2 idle]
  exact h3.describes

/-- Calls made one after the other need only be legal. -/
theorem C117_sequence (cs : List Call) (hl : Net.empty.AllLegal cs) :
    Describes (serial (fun _ => []) cs).2 (Net.empty.run cs) ∧
      ∀ n r, (serial (fun _ => []) cs).1[n]? = some r →
        ∃ c, cs[n]? = some c ∧ Expected (Net.empty.run (cs.take n)) c r :=
  ⟨(serial_holds cs _ _ Holds.empty hl).1.describes, (serial_holds cs _ _ Holds.empty hl).2⟩

/-- Whatever the others do meanwhile, a thread that is let run ends its call and has its result. -/
theorem C117_finishes (s : State) (i : Nat) (a : Active) (h : s.th i = some a) :
    ∃ k, (exec s (List.replicate k (.step i))).th i = none ∧
      (exec s (List.replicate k (.step i))).results a.number ≠ none :=
  finishes a.rest s i a.call a.tables a.number h

namespace C117

/-- Two endpoints on topic 10, two on topic 11. -/
def setup : List Call := [.create 0, .create 1, .create 2, .create 3, .connect 0 10, .subscribe 1 10, .connect 2 11]

/-- A call made by one thread on its own. -/
def whole (c : Call) : List Event := .start 0 c :: List.replicate 10 (.step 0)

/-- Then one thread emits on topic 10 while another subscribes to topic 11 and a third copies a handle. -/
def together : List Event :=
  setup.flatMap whole ++ [.start 0 (.emit 0), .start 1 (.subscribe 3 11), .start 2 (.copy 2)] ++
    (List.replicate 8 [Event.step 1, .step 0, .step 2]).flatten ++ whole (.emit 2)

end C117
open C117

/-- Orderly histories with calls that overlap exist. -/
example : AllOrderly init together ∧ Net.empty.AllLegal (exec init together).begun ∧
    (exec init together).results 7 = some (.done [1] false) ∧ (exec init together).results 10 = some (.done [3] false) := by
  refine ⟨allOrderly_of 3 _ _ (fun _ _ => rfl) (by decide +kernel), ?_, by decide +kernel, by decide +kernel⟩
  have : (exec init together).begun = setup ++ [.emit 0, .subscribe 3 11, .copy 2, .emit 2] := by decide +kernel
  rw [this]
  simp [setup, Net.AllLegal, Net.Legal, Net.after, Net.setHandles, Net.empty]

namespace C117

/-- Two threads connect different endpoints to different topics at the same time. -/
def bothConnect : List Event :=
  whole (.create 0) ++ whole (.create 1) ++ [.start 0 (.connect 0 10), .start 1 (.connect 1 11), .step 0, .step 1]

/-- One thread emits on a topic while the other subscribes to it. -/
def emitWhileSubscribing : List Event :=
  whole (.create 0) ++ whole (.create 1) ++ whole (.connect 0 10) ++
    [.start 0 (.emit 0), .start 1 (.subscribe 1 10), .step 0, .step 1, .step 1, .step 1, .step 1]

/-- Two threads copy a handle of the same endpoint. -/
def bothCopy : List Event :=
  whole (.create 0) ++ [.start 0 (.copy 0), .start 1 (.copy 0), .step 0, .step 1, .step 0, .step 1, .step 0, .step 1]

theorem race_of {s : State} {i j : Nat} {a b : Active} {x : Cell} {v : List Nat} {p : Prog} (hij : i ≠ j)
    (hi : s.th i = some a) (hj : s.th j = some b) (ha : a.rest = .put x v p)
    (hb : (∃ v' p', b.rest = .put x v' p') ∨ ∃ k, b.rest = .get x k) : Race s :=
  ⟨i, j, a, b, x, v, p, hij, hi, hj, ha, hb⟩

end C117

/-- Two threads that connect different endpoints to different topics race for the map of topics, and a topic can get lost;
a later `disconnect` then has undefined behaviour, although the calls are legal. -/
theorem C117_connect_fails :
    Race (exec init bothConnect) ∧
      ∃ es, Net.empty.AllLegal (exec init (bothConnect ++ es)).begun ∧
        (exec init (bothConnect ++ es)).results 4 = some .ub := by
  refine ⟨race_of (i := 0) (j := 1) (by decide) rfl rfl rfl (Or.inl ⟨_, _, rfl⟩),
    List.replicate 10 (.step 0) ++ List.replicate 10 (.step 1) ++ whole (.disconnect 0), ?_, by decide +kernel⟩
  have : (exec init (bothConnect ++ (List.replicate 10 (.step 0) ++ List.replicate 10 (.step 1) ++
      whole (.disconnect 0)))).begun = [.create 0, .create 1, .connect 0 10, .connect 1 11, .disconnect 0] := by
    decide +kernel
  rw [this]
  simp [Net.AllLegal, Net.Legal, Net.after, Net.setHandles, Net.empty, Net.Lonely]

/-- Subscribing to a topic while somebody emits on it is a data race. -/
theorem C117_subscribe_fails :
    Race (exec init emitWhileSubscribing) ∧ Net.empty.AllLegal (exec init emitWhileSubscribing).begun := by
  refine ⟨race_of (i := 1) (j := 0) (by decide) rfl rfl rfl (Or.inr ⟨_, rfl⟩), ?_⟩
  have : (exec init emitWhileSubscribing).begun = [.create 0, .create 1, .connect 0 10, .emit 0, .subscribe 1 10] := by
    decide +kernel
  rw [this]
  simp [Net.AllLegal, Net.Legal, Net.after, Net.setHandles, Net.empty]

/-- Two threads that copy handles of one endpoint at the same time can make it count one too few: the endpoint is
deleted by the second `drop` although there were three handles. -/
theorem C117_copy_fails :
    (exec init (bothCopy ++ whole (.drop 0) ++ whole (.drop 0))).results 4 = some (.done [] true) ∧
      (exec init (bothCopy ++ whole (.drop 0) ++ whole (.drop 0))).begun =
        [.create 0, .copy 0, .copy 0, .drop 0, .drop 0] ∧
      (Net.empty.run [.create 0, .copy 0, .copy 0, .drop 0, .drop 0]).handles 0 = 1 := by
  refine ⟨by decide +kernel, by decide +kernel, ?_⟩
  simp [Net.run, Net.after, Net.setHandles, Net.empty]

end Ecl.Props
