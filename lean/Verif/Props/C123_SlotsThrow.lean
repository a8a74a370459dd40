import Verif.Lemmas.SigSlotsThrow
import Verif.Props.C29_C31_SigSlots

/-!
# C123: slots whose functions throw

`calls`, `Unanswered`, `wires`, `NoneThrew` and `Route` are in `Verif.Spec.SlotCalls`, the wiring of a history in
`Verif.Spec.Wiring`.  `depth` is the depth of relays for which the stack suffices (C29).
-/
set_option autoImplicit false

namespace Ecl.Props
open Ecl Ecl.Spec Ecl.Spec.SlotCalls Ecl.SigSlotsThrow

/-- **C123**: an emission that would call `evs` if nothing threw (C29 says which these are) leaves the connections as
they are, whatever throws.  Either no slot's function throws: then `evs` are called, and no further calls are left
unanswered.  Or the function of a slot `x` throws: then this is the first that does, the calls so far are the
beginning of `evs`, `x` is the last of them, nobody else is called, and the calls left unanswered in addition are
those on the way to `x`. -/
theorem C123_emission (depth : Nat) (ops : List SigSlotsThrow.Op) (hl : Wiring.empty.AllLegal (wires ops))
    (s : State) (hs : SigSlotsThrow.run depth State.empty ops = .ok s) (h e : Nat)
    (hat : (Wiring.empty.run (wires ops)).At h e) (evs : List Nat)
    (hev : SigSlots.emit s.w depth e = .ok evs) (throws : List Event → Nat → Bool) :
    SigSlots.run SigSlots.World.empty (wires ops) = .ok s.w ∧
    ∃ t seen, SigSlotsThrow.step depth s (.emit h throws) = .ok t ∧ t.w = s.w ∧ t.busy.log = s.busy.log ++ seen ∧
      ((calls seen = evs ∧
          NoneThrew throws (fun x => (Wiring.empty.run (wires ops)).signal x = false) s.busy.log seen ∧
          ∀ y, Unanswered t.busy.log y ↔ Unanswered s.busy.log y) ∨
       ∃ l x way, seen = l ++ [.call x] ∧ calls seen <+: evs ∧
          NoneThrew throws (fun x => (Wiring.empty.run (wires ops)).signal x = false) s.busy.log l ∧
          throws t.busy.log x = true ∧
          Route (Wiring.empty.run (wires ops)) e way ∧ way.getLast? = some x ∧
          ∀ y, Unanswered t.busy.log y ↔ Unanswered s.busy.log y ∨ y ∈ way) := by
  obtain ⟨h1, hR, hi, -, -⟩ := run_ok ops SigSlots.Rel.empty Inv.idle hl hs
  refine ⟨h1, ?_⟩
  obtain ⟨hh, -⟩ := hR.at_handle hat
  rcases (good (throws := throws) hR depth).1 e evs hev s.busy hi with
    ⟨b, seen, e1, l1, c1, n1, i1, q1⟩ | ⟨b, l, x, way, e1, l1, c1, n1, w1, g1, i1, t1, q1⟩
  · refine ⟨⟨s.w, b⟩, seen, by simp only [SigSlotsThrow.step, hh, e1], rfl, l1, .inl ⟨c1, q1, fun y => ?_⟩⟩
    rw [i1.unanswered, hi.unanswered, n1]
  · refine ⟨⟨s.w, b⟩, l ++ [.call x], by simp only [SigSlotsThrow.step, hh, e1], rfl, l1,
      .inr ⟨l, x, way, rfl, c1, q1, by rw [l1]; exact t1, w1, g1, fun y => ?_⟩⟩
    rw [i1.unanswered, hi.unanswered, n1 y, ← List.count_pos_iff]
    omega

/-- **C123**: which calls on handles never end?  Just the destruction of the last handle of an endpoint with an
unanswered call; every other legal call ends, and nobody is called. -/
theorem C123_stuck (depth : Nat) (ops : List SigSlotsThrow.Op) (op : SigSlots.Op)
    (hl : Wiring.empty.AllLegal (wires ops)) (hop : (Wiring.empty.run (wires ops)).Legal op)
    (s : State) (hs : SigSlotsThrow.run depth State.empty ops = .ok s) :
    ((∃ h e, op = .destroy h ∧ (Wiring.empty.run (wires ops)).At h e ∧
        (∀ k, (Wiring.empty.run (wires ops)).At k e → k = h) ∧ Unanswered s.busy.log e) →
      SigSlotsThrow.step depth s (.wire op) = .stuck) ∧
    ((¬ ∃ h e, op = .destroy h ∧ (Wiring.empty.run (wires ops)).At h e ∧
        (∀ k, (Wiring.empty.run (wires ops)).At k e → k = h) ∧ Unanswered s.busy.log e) →
      ∃ t, SigSlotsThrow.step depth s (.wire op) = .ok t ∧ SigSlots.step s.w op = .ok t.w ∧
        t.busy.log = s.busy.log) := by
  obtain ⟨h1, hR, hi, -, -⟩ := run_ok ops SigSlots.Rel.empty Inv.idle hl hs
  obtain ⟨w', hw, -⟩ := hR.step op hop
  constructor
  · rintro ⟨h, e, rfl, hat, hlast, hu⟩
    have hd := (deletes_iff hR (.destroy h) e).2 ⟨h, rfl, hat, hlast⟩
    have hlk := (hi e).2.2 ((hi.unanswered e).1 hu)
    simp only [SigSlotsThrow.step, hw, hd, hlk, if_true]
  · intro hn
    cases hd : deletes s.w op with
    | none => exact ⟨⟨w', s.busy⟩, by simp only [SigSlotsThrow.step, hw, hd], hw, rfl⟩
    | some e =>
      have hlk : s.busy.locked e = false := by
        by_contra hc
        obtain ⟨h, h2, h3, h4⟩ := (deletes_iff hR op e).1 hd
        exact hn ⟨h, e, h2, h3, h4, (hi.unanswered e).2 ((hi e).2.1 (by simpa using hc))⟩
      exact ⟨⟨w', s.busy⟩, by simp [SigSlotsThrow.step, hw, hd, hlk], hw, rfl⟩

/-- The slot 0 and the slot 1 subscribe to a topic that the signal 2 publishes; the function of slot 0 throws. -/
def throwHistory : List SigSlotsThrow.Op :=
  [.wire (.newSlot 0), .wire (.subscribe 0 "a"), .wire (.newSlot 1), .wire (.subscribe 1 "a"),
   .wire (.newSignal 2), .wire (.connect 2 "a"), .emit 2 (fun _ x => x == 0)]

theorem throwHistory_legal : Wiring.empty.AllLegal (wires throwHistory) := by
  simp [throwHistory, wires, Wiring.AllLegal, Wiring.Legal, Wiring.empty, Wiring.after, Wiring.At]

/-- **C123 fails**: one would expect that a slot can be destroyed.  But an endpoint with an unanswered call, such as
a slot whose function once threw or a signal that relayed to it, outlives every history that ends: the call that
destroys its last handle never does. -/
theorem C123_fails_destroy (depth : Nat) (ops more : List SigSlotsThrow.Op)
    (hl : Wiring.empty.AllLegal (wires ops)) (hm : (Wiring.empty.run (wires ops)).AllLegal (wires more))
    (s t : State) (hs : SigSlotsThrow.run depth State.empty ops = .ok s)
    (ht : SigSlotsThrow.run depth s more = .ok t) (x : Nat)
    (hx : (Wiring.empty.run (wires ops)).Alive x) (hu : Unanswered s.busy.log x) :
    Unanswered t.busy.log x ∧ ((Wiring.empty.run (wires ops)).run (wires more)).Alive x := by
  obtain ⟨h1, hR, hi, -, -⟩ := run_ok ops SigSlots.Rel.empty Inv.idle hl hs
  obtain ⟨h2, hR2, hi2, hc, ha⟩ := run_ok more hR hi hm ht
  have h0 := (hi.unanswered x).1 hu
  exact ⟨(hi2.unanswered x).2 (Nat.lt_of_lt_of_le h0 (hc x)), ha x h0 hx⟩

/-- Such a history: slot 0 throws, slot 1 is not called, … -/
theorem throwHistory_run : ∃ s, SigSlotsThrow.run 1 State.empty throwHistory = .ok s ∧ s.busy.log = [.call 0] ∧
    SigSlots.emit s.w 1 2 = .ok [0, 1] := by
  simp [throwHistory, SigSlotsThrow.run, SigSlotsThrow.step, deletes, SigSlots.step, SigSlots.onHandle,
    SigSlots.handle, SigSlots.emit, SigSlots.collect, SigSlots.process, SigSlots.deref, SigSlots.connectSignal,
    SigSlots.connectSlot, SigSlots.create, SigSlots.topicAt, SigSlots.upd, SigSlots.bump, SigSlots.insertSet,
    SigSlots.World.empty, State.empty, SigSlotsThrow.emit, SigSlotsThrow.process, SigSlotsThrow.loop, Busy.idle,
    enter]

/-- … and destroying slot 0 never ends, while slot 1 and the signal can be destroyed. -/
example : ∃ s, SigSlotsThrow.run 1 State.empty throwHistory = .ok s ∧
    SigSlotsThrow.step 1 s (.wire (.destroy 0)) = .stuck ∧
    (∃ t, SigSlotsThrow.step 1 s (.wire (.destroy 1)) = .ok t) ∧
    ∃ t, SigSlotsThrow.step 1 s (.wire (.destroy 2)) = .ok t := by
  have hg : ∀ h e, (Wiring.empty.run (wires throwHistory)).At h e ↔ h = e ∧ e < 3 := by
    intro h e
    simp [throwHistory, wires, Wiring.run, Wiring.empty, Wiring.after, Wiring.At]
    omega
  have hlon : ∀ e, ¬ (Wiring.empty.run (wires throwHistory)).Lonely e := by
    rintro e ⟨t, h1, h2, -⟩
    simp [throwHistory, wires, Wiring.run, Wiring.empty, Wiring.after, Wiring.At] at h1 h2
    omega
  obtain ⟨s, h1, h2, -⟩ := throwHistory_run
  have hleg : ∀ n, n < 3 → (Wiring.empty.run (wires throwHistory)).Legal (.destroy n) :=
    fun n hn => ⟨n, (hg n n).2 ⟨rfl, hn⟩, fun _ => hlon n⟩
  refine ⟨s, h1, (C123_stuck 1 _ _ throwHistory_legal (hleg 0 (by omega)) s h1).1
    ⟨0, 0, rfl, (hg 0 0).2 ⟨rfl, by omega⟩, fun k hk => ((hg k 0).1 hk).1, by rw [h2]; unfold Unanswered; decide⟩, ?_, ?_⟩
  · obtain ⟨t, ht, -⟩ := (C123_stuck 1 _ _ throwHistory_legal (hleg 1 (by omega)) s h1).2 (by
      rintro ⟨h, e, h3, h4, -, h5⟩
      obtain ⟨rfl, -⟩ := (hg h e).1 h4
      cases h3
      rw [h2] at h5
      revert h5; unfold Unanswered; decide)
    exact ⟨t, ht⟩
  · obtain ⟨t, ht, -⟩ := (C123_stuck 1 _ _ throwHistory_legal (hleg 2 (by omega)) s h1).2 (by
      rintro ⟨h, e, h3, h4, -, h5⟩
      obtain ⟨rfl, -⟩ := (hg h e).1 h4
      cases h3
      rw [h2] at h5
      revert h5; unfold Unanswered; decide)
    exact ⟨t, ht⟩

/-- Through a relay: the function of slot 2 throws, and signal 1, on the way to it, cannot be destroyed either. -/
example : ∃ s, SigSlotsThrow.run 2 State.empty
      (relayHistory.map .wire ++ [.emit 0 (fun _ _ => true)]) = .ok s ∧
    s.busy.log = [.call 1, .call 2] ∧ Unanswered s.busy.log 1 ∧ Unanswered s.busy.log 2 := by
  simp [relayHistory, SigSlotsThrow.run, SigSlotsThrow.step, deletes, SigSlots.step, SigSlots.onHandle,
    SigSlots.handle, SigSlots.deref, SigSlots.connectSignal,
    SigSlots.connectSlot, SigSlots.create, SigSlots.topicAt, SigSlots.upd, SigSlots.bump, SigSlots.insertSet,
    SigSlots.World.empty, State.empty, SigSlotsThrow.emit, SigSlotsThrow.process, SigSlotsThrow.loop, Busy.idle,
    enter, Unanswered]

end Ecl.Props
