import Verif.Lemmas.SigSlotsLog

/-!
# C93: slots that change connections while they are called
-/
set_option autoImplicit false
set_option linter.unusedSimpArgs false

namespace Ecl.Props
open Ecl Ecl.Spec Ecl.SigSlots Ecl.SigSlots.Nested

/-- Whatever the functions of the slots do (construct, copy, connect, disconnect, destroy, emit again),
as long as they spare the slots and signals that are being called or emitting: an emission never runs into
undefined behaviour nor does it get stuck; every endpoint called is subscribed at that moment to the topic,
and the emitter publishes it; the emission calls no endpoint twice for the same topic; and when it is over
every endpoint that was subscribed all the time has been called once for each topic that was published all
the time. -/
theorem C93_delivery_partial (ops : List Op) (hl : Wiring.empty.AllLegal ops) (w : World)
    (hw : SigSlots.run World.empty ops = .ok w) (e : Nat) (he : (Wiring.empty.run ops).Alive e)
    (addr : Nat → Nat) (hinj : Function.Injective addr) (script : Nat → List Act)
    (hc : ∀ n m, steps addr script n (begin w e) = .running m →
      Careful ((Wiring.empty.run ops).run (opsOf m.log)) m) (n : Nat) :
    ∃ m, steps addr script n (begin w e) = .running m ∧
      (∀ l₁ d e' t x l₂, m.log = l₁ ++ .called d e' t x :: l₂ →
        ((Wiring.empty.run ops).run (opsOf l₁)).pub e' t ∧ ((Wiring.empty.run ops).run (opsOf l₁)).sub x t) ∧
      (∀ q, (deliveries m.log).count q ≤ 1) ∧
      (m.stack = [] → ∀ t x, Throughout (Wiring.empty.run ops) m.log e t x →
        (deliveries m.log).count (t, x) = 1) := by
  obtain ⟨w', h1, hR⟩ := Rel.run ops Rel.empty hl
  rw [hw, Outcome.ok.injEq] at h1
  subst h1
  obtain ⟨S, T⟩ := begin_safe hR he addr
  obtain ⟨m, h1, -, T'⟩ := run_careful hinj n _ S T hc
  refine ⟨m, h1, T'.when, fun q => List.nodup_iff_count_le_one.1 T'.nodup q, ?_⟩
  intro hs t x ht
  have hm : (t, x) ∈ deliveries m.log := T'.all (t, x) ht (by rw [hs]; trivial)
  exact List.count_eq_one_of_mem T'.nodup hm

/-- A slot that disconnects itself as the last thing it does, whoever called it: the emission goes on with
an invalid iterator. -/
theorem C93_fails_one_shot (addr : Nat → Nat) (script : Nat → List Act) (m : Machine) (g : Wiring)
    (hR : Rel m.w g) (ha : ∀ y acts, Item.call y acts ∈ m.stack → g.Alive y) (x h : Nat) (f : Frame)
    (p : String × Nat) (rest : List Item)
    (hs : m.stack = .call x [.op (.disconnect h)] :: .loop f :: rest) (hpos : f.pos = some p)
    (hcur : f.cur = some x) (hat : g.At h x) (hl : ¬ g.Lonely x) :
    steps addr script 3 m = .ub := by
  obtain ⟨w', hw', hR'⟩ := hR.step (.disconnect h) ⟨x, hat, hl⟩
  have hdel : (w'.deleted.any fun e => isRunning m.stack e) = false := by
    rw [List.any_eq_false]
    intro e he hrun
    apply ((hR'.deleted.2 e).1 he).2
    unfold isRunning at hrun
    obtain ⟨i, hi, h⟩ := List.any_eq_true.1 hrun
    cases i with
    | loop f => simp at h
    | call y as =>
      simp only [decide_eq_true_eq] at h
      subst h
      exact ha y as hi
  have hin : (f.check w').inner = false := by
    unfold Frame.check
    rw [hpos]
    simp only [hcur]
    cases hT : w'.topics p.1 with
    | none => simp
    | some T =>
      have : x ∉ T.subs := fun hm => (((hR'.topic p.1 T hT).2.2.2.1 x).1 hm).2 hat
      simp [this]
  have h1 : next addr script m = .running ⟨w', .call x [] :: .loop (f.check w') :: rest.map (Item.check w'),
      m.log ++ [.did (.disconnect h)]⟩ := by
    unfold next
    rw [hs]
    simp only
    unfold doOp
    rw [hw']
    simp only
    rw [hdel]
    simp [Item.check]
  obtain ⟨t, uid⟩ := p
  have hpos' : (f.check w').pos = some (t, uid) := by rw [check_pos]; exact hpos
  have h3 : loopStep addr script ⟨w', .loop (f.check w') :: rest.map (Item.check w'), m.log ++ [.did (.disconnect h)]⟩
      (f.check w') (rest.map (Item.check w')) = .ub := by
    unfold loopStep
    simp [hpos', hin]
  rw [steps, h1]
  show (match loopStep addr script _ _ _ with | .running m => steps addr script 0 m | s => s) = _
  rw [h3]

/-- A slot that destroys its own last handle: the destructor waits for the function that runs it. -/
theorem C93_fails_suicide (addr : Nat → Nat) (script : Nat → List Act) (m : Machine) (g : Wiring)
    (hR : Rel m.w g) (x h : Nat) (acts : List Act) (rest : List Item)
    (hs : m.stack = .call x (.op (.destroy h) :: acts) :: rest)
    (hat : g.At h x) (honly : ∀ k, g.At k x → k = h) (hl : ¬ g.Lonely x) :
    steps addr script 1 m = .stuck := by
  obtain ⟨w', hw', hR'⟩ := hR.step (.destroy h) ⟨x, hat, fun _ => hl⟩
  have hdead : ¬ (g.after (.destroy h)).Alive x := by
    rintro ⟨k, hk⟩
    have hk' := List.mem_filter.1 hk
    simp only [decide_eq_true_eq] at hk'
    exact hk'.2 (honly k hk'.1)
  have hmem : x ∈ w'.deleted := (hR'.deleted.2 x).2 ⟨hR.bound _ hat, hdead⟩
  have hdel : (w'.deleted.any fun e => isRunning m.stack e) = true := by
    rw [List.any_eq_true]
    refine ⟨x, hmem, ?_⟩
    rw [hs]
    simp [isRunning]
  have h1 : next addr script m = .stuck := by
    unfold next
    rw [hs]
    simp only
    unfold doOp
    rw [hw']
    simp only
    rw [hdel]
    simp
  simp only [steps, h1]

/-- The signal 0 and the slots 1 and 2 on one topic. -/
private def three : List Op :=
  [.newSignal 0, .connect 0 "a", .newSlot 1, .subscribe 1 "a", .newSlot 2, .subscribe 2 "a"]

private theorem three_legal : Wiring.empty.AllLegal three := by
  simp [three, Wiring.AllLegal, Wiring.Legal, Wiring.empty, Wiring.after, Wiring.At]

/-- The first slot disconnects the second, which is then not called; it also starts a new one, which is. -/
private def busybody : Nat → List Act
  | 1 => [.op (.disconnect 2), .op (.newSlot 3), .op (.subscribe 3 "a")]
  | _ => []

example : ∃ w, SigSlots.run World.empty three = .ok w ∧
    (∃ m, steps id busybody 20 (begin w 0) = .running m ∧ m.stack = [] ∧ deliveries m.log = [("a", 1), ("a", 3)]) ∧
    ∀ n m, steps id busybody n (begin w 0) = .running m → Careful ((Wiring.empty.run three).run (opsOf m.log)) m := by
  refine ⟨_, rfl, ⟨_, rfl, ?_, ?_⟩, ?_⟩
  · rfl
  · rfl
  · refine steps_all id busybody _ 9 _ ⟨_, rfl, rfl⟩ ?_
    intro j hj m hm
    have : j = 0 ∨ j = 1 ∨ j = 2 ∨ j = 3 ∨ j = 4 ∨ j = 5 ∨ j = 6 ∨ j = 7 ∨ j = 8 ∨ j = 9 := by omega
    rcases this with rfl | rfl | rfl | rfl | rfl | rfl | rfl | rfl | rfl | rfl
    · cases hm; trivial
    · change Status.running _ = _ at hm
      cases hm
      trivial
    · obtain ⟨hst, hlog⟩ : m.stack = [.call 1 [.op (.disconnect 2), .op (.newSlot 3), .op (.subscribe 3 "a")],
          .loop ⟨0, some ("a", 0), some 1, true, true⟩] ∧ m.log = [.called 0 0 "a" 1] := by
        change Status.running _ = _ at hm
        cases hm
        exact ⟨rfl, rfl⟩
      unfold Careful
      rw [hst, hlog]
      refine ⟨⟨2, ?_, ?_⟩, ?_⟩
      · simp [three, Wiring.run, Wiring.empty, Wiring.after, Wiring.At, opsOf]
      · rintro ⟨t, hp, hs, hx⟩
        simp [three, Wiring.run, Wiring.empty, Wiring.after, Wiring.At, opsOf] at hp
      · intro e he hb
        have he2 : e = 2 := by
          simpa [three, Wiring.run, Wiring.empty, Wiring.after, Wiring.At, opsOf] using he
        subst he2
        rcases hb with ⟨as, hb⟩ | ⟨f, hb, hf⟩
        · simp at hb
        · simp at hb
          subst hb
          cases hf
    · obtain ⟨hst, hlog⟩ : m.stack = [.call 1 [.op (.newSlot 3), .op (.subscribe 3 "a")],
          .loop ⟨0, some ("a", 0), some 1, true, true⟩] ∧ m.log = [.called 0 0 "a" 1, .did (.disconnect 2)] := by
        change Status.running _ = _ at hm
        cases hm
        exact ⟨rfl, rfl⟩
      unfold Careful
      rw [hst, hlog]
      refine ⟨?_, trivial⟩
      intro e he
      simp [three, Wiring.run, Wiring.empty, Wiring.after, Wiring.At, opsOf, Wiring.cut] at he
    · obtain ⟨hst, hlog⟩ : m.stack = [.call 1 [.op (.subscribe 3 "a")],
          .loop ⟨0, some ("a", 0), some 1, true, true⟩] ∧ m.log = [.called 0 0 "a" 1, .did (.disconnect 2), .did (.newSlot 3)] := by
        change Status.running _ = _ at hm
        cases hm
        exact ⟨rfl, rfl⟩
      unfold Careful
      rw [hst, hlog]
      refine ⟨⟨3, ?_⟩, trivial⟩
      simp [three, Wiring.run, Wiring.empty, Wiring.after, Wiring.At, opsOf, Wiring.cut]
    all_goals
      change Status.running _ = _ at hm
      cases hm
      trivial

/-- The slot is a one-shot slot: reached from the beginning, by any order of the addresses. -/
example (addr : Nat → Nat) : ∃ w, SigSlots.run World.empty [.newSignal 0, .connect 0 "a", .newSlot 1, .subscribe 1 "a"] = .ok w ∧
    steps addr (fun _ => [.op (.disconnect 1)]) 5 (begin w 0) = .ub := by
  refine ⟨_, rfl, ?_⟩
  simp [steps, next, begin, loopStep, nextTopic, nextKey, nextSub, Frame.start, onHandle, handle, connectSignal,
    connectSlot, topicAt, upd, bump, insertSet, World.empty, doOp, step, disconnect, disconnectList, disconnectTopic,
    Topic.disconnect, Topic.empty, Item.check, Frame.check, isRunning, onCall, create]

/-- A slot that destroys itself, from the beginning. -/
example (addr : Nat → Nat) : ∃ w, SigSlots.run World.empty [.newSignal 0, .connect 0 "a", .newSlot 1, .subscribe 1 "a"] = .ok w ∧
    steps addr (fun _ => [.op (.destroy 1)]) 3 (begin w 0) = .stuck := by
  refine ⟨_, rfl, ?_⟩
  simp [steps, next, begin, loopStep, nextTopic, nextKey, nextSub, Frame.start, onHandle, handle, connectSignal,
    connectSlot, topicAt, upd, bump, insertSet, World.empty, doOp, step, disconnect, disconnectList, disconnectTopic,
    Topic.disconnect, Topic.empty, Item.check, Frame.check, isRunning, onCall, create, destroy, delete]

/-- A slot that disconnects the signal that calls it: the emission goes on with an invalid iterator. -/
theorem C93_fails_emitter (addr : Nat → Nat) :
    ∃ w, SigSlots.run World.empty [.newSignal 0, .connect 0 "a", .newSlot 1, .subscribe 1 "a"] = .ok w ∧
      steps addr (fun _ => [.op (.disconnect 0)]) 5 (begin w 0) = .ub := by
  refine ⟨_, rfl, ?_⟩
  simp [steps, next, begin, loopStep, nextTopic, nextKey, nextSub, Frame.start, onHandle, handle, connectSignal,
    connectSlot, topicAt, upd, bump, insertSet, World.empty, doOp, step, disconnect, disconnectList, disconnectTopic,
    Topic.disconnect, Topic.empty, Item.check, Frame.check, isRunning, onCall, create]

/-- A slot that disconnects itself and connects itself again: its place in the set is a new one, and the
emission goes on with an invalid iterator all the same. -/
theorem C93_fails_reconnect (addr : Nat → Nat) :
    ∃ w, SigSlots.run World.empty [.newSignal 0, .connect 0 "a", .newSlot 1, .subscribe 1 "a"] = .ok w ∧
      steps addr (fun _ => [.op (.disconnect 1), .op (.subscribe 1 "a")]) 6 (begin w 0) = .ub := by
  refine ⟨_, rfl, ?_⟩
  simp [steps, next, begin, loopStep, nextTopic, nextKey, nextSub, Frame.start, onHandle, handle, connectSignal,
    connectSlot, topicAt, upd, bump, insertSet, World.empty, doOp, step, disconnect, disconnectList, disconnectTopic,
    Topic.disconnect, Topic.empty, Item.check, Frame.check, isRunning, onCall, create]

end Ecl.Props
