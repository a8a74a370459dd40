import Verif.Lemmas.SigSlotsEmit

/-!
# C29-C31: signals and slots
-/
set_option autoImplicit false
set_option linter.unusedSimpArgs false

namespace Ecl.Props
open Ecl Ecl.Spec Ecl.SigSlots

/-- A history used in the examples below: signal 0 publishes on `a` and `b`; slot 1 subscribes to
`a`; slot 2 subscribes to both; 3 is a copy of the signal's handle; 4 is a slot that comes and
goes. -/
def sigHistory : List SigSlots.Op :=
  [.newSignal 0, .connect 0 "a", .connect 0 "b", .newSlot 1, .subscribe 1 "a", .newSlot 2,
   .subscribe 2 "a", .subscribe 2 "b", .copy 3 0, .newSlot 4, .subscribe 4 "a", .destroy 4]

theorem sigHistory_legal : Wiring.empty.AllLegal sigHistory := by
  simp [sigHistory, Wiring.AllLegal, Wiring.Legal, Wiring.empty, Wiring.after, Wiring.At,
    Wiring.cut, Wiring.Lonely, Wiring.Alive]

/-- **C29**, slots only: after every legal history of construction, copying, connection,
disconnection and destruction, emitting a signal, none of whose subscribers is itself a signal,
succeeds and calls every endpoint `x` once for each topic (of the duplicate-free list `ts` of all
topics the signal publishes) that `x` subscribes to; endpoints sharing no topic are called zero
times.  See `C30_fails_lonely`, `C31_fails_assign` for the histories that are not legal. -/
theorem C29_emit_counts_partial (ops : List SigSlots.Op) (hl : Wiring.empty.AllLegal ops) (w : World)
    (hw : SigSlots.run World.empty ops = .ok w) (e : Nat)
    (ha : (Wiring.empty.run ops).Alive e)
    (hn : ∀ x, (Wiring.empty.run ops).Edge e x → (Wiring.empty.run ops).signal x = false) (n : Nat) :
    ∃ (evs : List Nat) (ts : List String), SigSlots.emit w (n + 1) e = .ok evs ∧ ts.Nodup ∧
      (∀ t, t ∈ ts ↔ (Wiring.empty.run ops).pub e t) ∧
      ∀ (x : Nat) (P : String → Bool), (∀ t, P t = true ↔ (Wiring.empty.run ops).sub x t) →
        evs.count x = ts.countP P := by
  obtain ⟨w', h1, hR⟩ := Rel.run ops Rel.empty hl
  rw [hw, Outcome.ok.injEq] at h1
  subst h1
  exact hR.emit_direct ha hn n

/-- The history above: slot 1 is called once, slot 2 twice. -/
example : (do let w ← SigSlots.run World.empty sigHistory; SigSlots.emit w 1 0) = .ok [1, 2, 2] := by
  simp [sigHistory, SigSlots.run, SigSlots.step, SigSlots.create, onHandle, handle, connectSignal,
    connectSlot, topicAt, upd, bump, insertSet, SigSlots.copy, SigSlots.destroy, SigSlots.delete,
    SigSlots.disconnect, disconnectList, disconnectTopic, Topic.disconnect, Topic.empty, World.empty,
    SigSlots.emit, SigSlots.collect, SigSlots.process, SigSlots.deref]

example : (Wiring.empty.run sigHistory).Alive 0 ∧
    ∀ x, (Wiring.empty.run sigHistory).Edge 0 x → (Wiring.empty.run sigHistory).signal x = false := by
  refine ⟨⟨0, by simp [sigHistory, Wiring.run, Wiring.empty, Wiring.after, Wiring.At, Wiring.cut]⟩, ?_⟩
  rintro x ⟨t, hp, hs⟩
  have hx : x = 1 ∨ x = 2 := by
    simp [sigHistory, Wiring.run, Wiring.empty, Wiring.after, Wiring.At, Wiring.cut,
      Wiring.Alive] at hp hs
    obtain ⟨hs, k, hk⟩ := hs
    rcases hs with ((⟨rfl, -⟩ | ⟨rfl, -⟩) | ⟨rfl, -⟩) | ⟨rfl, -⟩
    · exact .inl rfl
    · exact .inr rfl
    · exact .inr rfl
    · simp at hk
  rcases hx with rfl | rfl <;>
    simp [sigHistory, Wiring.run, Wiring.empty, Wiring.after, Wiring.At, Wiring.cut]

/-- **C29**, signals subscribed to topics: an emission that ends has called exactly the endpoints
that can be reached through published topics, passing through signals that relay. -/
theorem C29_emit_reaches (ops : List SigSlots.Op) (hl : Wiring.empty.AllLegal ops) (w : World)
    (hw : SigSlots.run World.empty ops = .ok w) (e n : Nat) (evs : List Nat)
    (he : SigSlots.emit w n e = .ok evs) (x : Nat) :
    x ∈ evs ↔ (Wiring.empty.run ops).Reach e x := by
  obtain ⟨w', h1, hR⟩ := Rel.run ops Rel.empty hl
  rw [hw, Outcome.ok.injEq] at h1
  subst h1
  exact hR.emit_reach n e evs he x

/-- **C29**: when the relaying signals can be ranked, so that none of them relays to itself through
others, emission of every live signal ends (with a stack deeper than its rank). -/
theorem C29_emit_ends_partial (ops : List SigSlots.Op) (hl : Wiring.empty.AllLegal ops) (w : World)
    (hw : SigSlots.run World.empty ops = .ok w) (rank : Nat → Nat)
    (hrank : ∀ a b, (Wiring.empty.run ops).Edge a b → (Wiring.empty.run ops).signal b = true →
      rank b < rank a)
    (e : Nat) (ha : (Wiring.empty.run ops).Alive e) (n : Nat) (hn : rank e < n) :
    ∃ evs, SigSlots.emit w n e = .ok evs := by
  obtain ⟨w', h1, hR⟩ := Rel.run ops Rel.empty hl
  rw [hw, Outcome.ok.injEq] at h1
  subst h1
  exact hR.emit_ends rank hrank n e ha hn

/-- Signal 0 relays to signal 1, which reaches slot 2. -/
def relayHistory : List SigSlots.Op :=
  [.newSignal 0, .connect 0 "a", .newSignal 1, .subscribe 1 "a", .connect 1 "b", .newSlot 2,
   .subscribe 2 "b"]

theorem relayHistory_legal : Wiring.empty.AllLegal relayHistory := by
  simp [relayHistory, Wiring.AllLegal, Wiring.Legal, Wiring.empty, Wiring.after, Wiring.At]

example : ∃ w, SigSlots.run World.empty relayHistory = .ok w ∧ SigSlots.emit w 2 0 = .ok [1, 2] := by
  simp [relayHistory, SigSlots.run, SigSlots.step, SigSlots.create, onHandle, handle, connectSignal,
    connectSlot, topicAt, upd, bump, insertSet, World.empty,
    SigSlots.emit, SigSlots.collect, SigSlots.process, SigSlots.deref]

example : ∀ a b, (Wiring.empty.run relayHistory).Edge a b →
    (Wiring.empty.run relayHistory).signal b = true → (fun x => 2 - x) b < (fun x => 2 - x) a := by
  rintro a b ⟨t, hp, hs⟩ hsig
  simp [relayHistory, Wiring.run, Wiring.empty, Wiring.after, Wiring.At] at hp hs hsig
  rcases hp with ⟨rfl, rfl⟩ | ⟨rfl, rfl⟩ <;> rcases hs with ⟨rfl, h⟩ | ⟨rfl, h⟩ <;> simp_all

/-- **C29 fails** when signals relay in a cycle: no depth of the stack suffices.  Here for every
legal history whose wiring contains such a cycle … -/
theorem C29_fails_cycle (ops : List SigSlots.Op) (hl : Wiring.empty.AllLegal ops) (w : World)
    (hw : SigSlots.run World.empty ops = .ok w) (C : Nat → Prop)
    (hC : ∀ a, C a → ∃ b, (Wiring.empty.run ops).Edge a b ∧
      (Wiring.empty.run ops).signal b = true ∧ C b)
    (e : Nat) (he : C e) (n : Nat) (evs : List Nat) : SigSlots.emit w n e ≠ .ok evs := by
  obtain ⟨w', h1, hR⟩ := Rel.run ops Rel.empty hl
  rw [hw, Outcome.ok.injEq] at h1
  subst h1
  exact hR.emit_cycle C hC n e he evs

/-- … and one such history: a signal connected to a topic it publishes. -/
example : Wiring.empty.AllLegal [.newSignal 0, .connect 0 "a", .subscribe 0 "a"] ∧
    ∀ a, a = 0 → ∃ b, (Wiring.empty.run [.newSignal 0, .connect 0 "a", .subscribe 0 "a"]).Edge a b ∧
      (Wiring.empty.run [.newSignal 0, .connect 0 "a", .subscribe 0 "a"]).signal b = true ∧ b = 0 := by
  refine ⟨by simp [Wiring.AllLegal, Wiring.Legal, Wiring.empty, Wiring.after, Wiring.At], ?_⟩
  rintro a rfl
  refine ⟨0, ⟨"a", ?_, ?_⟩, ?_, rfl⟩ <;>
    simp [Wiring.run, Wiring.empty, Wiring.after, Wiring.At]

/-- **C30**: no legal history dereferences an invalid iterator or a dangling pointer, and after it
the manager knows exactly the connections that were made and not taken back since: a topic exists
just when some endpoint publishes or subscribes to it, its publishers and subscribers are the right
ones, each once, and all of them exist.  Missing: `C30_fails_lonely`. -/
theorem C30_topics_exact_partial (ops : List SigSlots.Op) (hl : Wiring.empty.AllLegal ops) :
    ∃ w, SigSlots.run World.empty ops = .ok w ∧ ∀ t,
      ((∃ T, w.topics t = some T) ↔
        ∃ x, (Wiring.empty.run ops).pub x t ∨ (Wiring.empty.run ops).sub x t) ∧
      ∀ T, w.topics t = some T → T.pubs.Nodup ∧ T.subs.Nodup ∧
        (∀ x, x ∈ T.pubs ↔ (Wiring.empty.run ops).pub x t) ∧
        (∀ x, x ∈ T.subs ↔ (Wiring.empty.run ops).sub x t) ∧
        ∀ x, x ∈ T.pubs ∨ x ∈ T.subs → ∃ E, w.eps x = some E := by
  obtain ⟨w, h1, hR⟩ := Rel.run ops Rel.empty hl
  refine ⟨w, h1, fun t => ⟨⟨?_, ?_⟩, ?_⟩⟩
  · rintro ⟨T, hT⟩
    obtain ⟨-, -, hp, hs, hne⟩ := hR.topic t T hT
    rcases hne with hne | hne
    · obtain ⟨x, hx⟩ := List.exists_mem_of_ne_nil _ hne
      exact ⟨x, .inl ((hp x).1 hx)⟩
    · obtain ⟨x, hx⟩ := List.exists_mem_of_ne_nil _ hne
      exact ⟨x, .inr ((hs x).1 hx)⟩
  · rintro ⟨x, hx | hx⟩
    · exact hR.pub_topic hx
    · exact hR.sub_topic hx
  · intro T hT
    obtain ⟨h2, h3, hp, hs, -⟩ := hR.topic t T hT
    refine ⟨h2, h3, hp, hs, fun x hx => ?_⟩
    apply Option.isSome_iff_exists.1
    rw [hR.alive]
    by_contra hc
    have := hR.dead x hc t
    rcases hx with hx | hx
    · exact this.1 ((hp x).1 hx)
    · exact this.2 ((hs x).1 hx)

/-- **C30**: right after a disconnection or destruction of the last handle no topic refers to the
endpoint, and the connections of all other endpoints are as before. -/
theorem C30_disconnected_partial (ops : List SigSlots.Op) (op : SigSlots.Op) (h e : Nat)
    (hl : Wiring.empty.AllLegal (ops ++ [op])) (hat : (Wiring.empty.run ops).At h e)
    (hop : op = .disconnect h ∨ (op = .destroy h ∧ ∀ k, (Wiring.empty.run ops).At k e → k = h)) :
    ∃ w w', SigSlots.run World.empty ops = .ok w ∧ SigSlots.run World.empty (ops ++ [op]) = .ok w' ∧
      (∀ t T, w'.topics t = some T → e ∉ T.pubs ∧ e ∉ T.subs) ∧
      ∀ x, x ≠ e → ∀ t,
        ((∃ T, w'.topics t = some T ∧ x ∈ T.pubs) ↔ (∃ T, w.topics t = some T ∧ x ∈ T.pubs)) ∧
        ((∃ T, w'.topics t = some T ∧ x ∈ T.subs) ↔ (∃ T, w.topics t = some T ∧ x ∈ T.subs)) := by
  have hrun : ∀ (g : Wiring) (l : List SigSlots.Op), g.run (l ++ [op]) = (g.run l).after op := by
    intro g l
    induction l generalizing g with
    | nil => rfl
    | cons o l ih => exact ih _
  have hall : ∀ (g : Wiring) (l : List SigSlots.Op), g.AllLegal (l ++ [op]) → g.AllLegal l := by
    intro g l
    induction l generalizing g with
    | nil => intro _; trivial
    | cons o l ih => intro hx; exact ⟨hx.1, ih _ hx.2⟩
  obtain ⟨w, h1, hR⟩ := Rel.run ops Rel.empty (hall _ _ hl)
  obtain ⟨w', h2, hR'⟩ := Rel.run (ops ++ [op]) Rel.empty hl
  rw [hrun] at hR'
  have hat' : ∀ x, (Wiring.empty.run ops).At h x ↔ x = e := fun x =>
    ⟨fun hx => at_unique hR.keys hx hat, fun hx => hx ▸ hat⟩
  -- the wiring after the call
  have hcut : ∀ x t, (((Wiring.empty.run ops).after op).pub x t ↔
      (Wiring.empty.run ops).pub x t ∧ x ≠ e) ∧ (((Wiring.empty.run ops).after op).sub x t ↔
      (Wiring.empty.run ops).sub x t ∧ x ≠ e) := by
    intro x t
    rcases hop with rfl | ⟨rfl, hlast⟩
    · simp only [Wiring.after, Wiring.cut, hat', ne_eq, and_self]
    · have hdead := hR.dead x
      have hal : ({ Wiring.empty.run ops with
          handles := (Wiring.empty.run ops).handles.filter fun p => p.1 ≠ h } : Wiring).Alive x ↔
          (Wiring.empty.run ops).Alive x ∧ x ≠ e := by
        simp only [Wiring.Alive, Wiring.At, List.mem_filter, decide_eq_true_eq]
        constructor
        · rintro ⟨k, hk, hkh⟩
          refine ⟨⟨k, hk⟩, ?_⟩
          rintro rfl
          exact hkh (hlast k hk)
        · rintro ⟨⟨k, hk⟩, hx⟩
          refine ⟨k, hk, ?_⟩
          rintro rfl
          exact hx ((hat' x).1 hk)
      simp only [Wiring.after, Wiring.cut, hal, not_not]
      constructor
      · constructor
        · rintro ⟨a, b⟩; exact ⟨a, b.2⟩
        · rintro ⟨a, b⟩
          exact ⟨a, by by_contra hc; exact (hdead hc t).1 a, b⟩
      · constructor
        · rintro ⟨a, b⟩; exact ⟨a, b.2⟩
        · rintro ⟨a, b⟩
          exact ⟨a, by by_contra hc; exact (hdead hc t).2 a, b⟩
  have hp : ∀ {w : World} {g : Wiring}, Rel w g → ∀ x t,
      (∃ T, w.topics t = some T ∧ x ∈ T.pubs) ↔ g.pub x t := by
    intro w g hR x t
    constructor
    · rintro ⟨T, hT, hx⟩; exact ((hR.topic t T hT).2.2.1 x).1 hx
    · intro hx
      obtain ⟨T, hT⟩ := hR.pub_topic hx
      exact ⟨T, hT, ((hR.topic t T hT).2.2.1 x).2 hx⟩
  have hs : ∀ {w : World} {g : Wiring}, Rel w g → ∀ x t,
      (∃ T, w.topics t = some T ∧ x ∈ T.subs) ↔ g.sub x t := by
    intro w g hR x t
    constructor
    · rintro ⟨T, hT, hx⟩; exact ((hR.topic t T hT).2.2.2.1 x).1 hx
    · intro hx
      obtain ⟨T, hT⟩ := hR.sub_topic hx
      exact ⟨T, hT, ((hR.topic t T hT).2.2.2.1 x).2 hx⟩
  refine ⟨w, w', h1, h2, ?_, ?_⟩
  · intro t T hT
    refine ⟨fun hx => ?_, fun hx => ?_⟩
    · exact ((hcut e t).1.1 ((hp hR' e t).1 ⟨T, hT, hx⟩)).2 rfl
    · exact ((hcut e t).2.1 ((hs hR' e t).1 ⟨T, hT, hx⟩)).2 rfl
  · intro x hx t
    rw [hp hR, hp hR', hs hR, hs hR', (hcut x t).1, (hcut x t).2]
    simp [hx]

example : Wiring.empty.AllLegal (sigHistory ++ [.disconnect 2]) ∧
    (Wiring.empty.run sigHistory).At 2 2 := by
  constructor
  · simp [sigHistory, Wiring.AllLegal, Wiring.Legal, Wiring.empty, Wiring.after, Wiring.At,
      Wiring.cut, Wiring.Lonely, Wiring.Alive]
  · simp [sigHistory, Wiring.run, Wiring.empty, Wiring.after, Wiring.At, Wiring.cut]

/-- **C30 fails** for an endpoint that is the only publisher and the only subscriber of a topic:
after every legal history, disconnecting it dereferences the end iterator of the topics. -/
theorem C30_fails_lonely (ops : List SigSlots.Op) (hl : Wiring.empty.AllLegal ops) (h e : Nat)
    (hat : (Wiring.empty.run ops).At h e) (hlone : (Wiring.empty.run ops).Lonely e) :
    SigSlots.run World.empty (ops ++ [.disconnect h]) = .ub := by
  obtain ⟨w, h1, hR⟩ := Rel.run ops Rel.empty hl
  have happ : ∀ (w w' : World) (l : List SigSlots.Op), SigSlots.run w l = .ok w' →
      SigSlots.run w (l ++ [.disconnect h]) = SigSlots.run w' [.disconnect h] := by
    intro w w' l
    induction l generalizing w with
    | nil => intro hx; simp only [SigSlots.run, Outcome.ok.injEq] at hx; subst hx; rfl
    | cons o l ih =>
      intro hx
      simp only [SigSlots.run, List.cons_append] at hx ⊢
      cases ho : SigSlots.step w o with
      | ok w1 =>
        rw [ho, Outcome.bind_ok] at hx
        rw [Outcome.bind_ok, ih w1 hx]; rfl
      | throw _ => rw [ho] at hx; simp at hx
      | ub => rw [ho] at hx; simp at hx
  rw [happ _ _ _ h1]
  obtain ⟨h2, E, hE⟩ := hR.at_handle hat
  obtain ⟨k1, k2, k3, k4, k5, k6, k7⟩ := hR.ep e E hE
  obtain ⟨t, hp, hs, honly⟩ := hlone
  obtain ⟨T, hT⟩ := hR.sub_topic hs
  obtain ⟨t1, t2, t3, t4, -⟩ := hR.topic t T hT
  have := disconnect_ub w e E hE k3 k5
    (fun u hu => by
      obtain ⟨U, hU⟩ := hR.sub_topic ((k4 u).1 hu)
      simp [hU])
    t T hT t1 t2 ((k4 t).2 hs) ((k6 t).2 hp)
    (fun x hx => honly x (hx.imp (t3 x).1 (t4 x).1))
  simp only [SigSlots.run, SigSlots.step, onHandle, h2, this, Outcome.bind_ub]

example : Wiring.empty.AllLegal [.newSignal 0, .connect 0 "a", .subscribe 0 "a"] ∧
    (Wiring.empty.run [.newSignal 0, .connect 0 "a", .subscribe 0 "a"]).Lonely 0 := by
  refine ⟨by simp [Wiring.AllLegal, Wiring.Legal, Wiring.empty, Wiring.after, Wiring.At],
    "a", ?_, ?_, ?_⟩ <;> simp [Wiring.run, Wiring.empty, Wiring.after, Wiring.At]

/-- **C31**: after every legal history an endpoint exists just when one of its handles does, copies
of a handle stand for the endpoint of the original, and the endpoints that were constructed and
have no handle left have been deleted, each exactly once.  Missing: `C31_fails_assign`. -/
theorem C31_handles_partial (ops : List SigSlots.Op) (hl : Wiring.empty.AllLegal ops) :
    ∃ w, SigSlots.run World.empty ops = .ok w ∧
      (∀ h e, handle h w.handles = some e ↔ (Wiring.empty.run ops).At h e) ∧
      (∀ e, (∃ E, w.eps e = some E) ↔ (Wiring.empty.run ops).Alive e) ∧
      w.deleted.Nodup ∧
      ∀ e, e ∈ w.deleted ↔ e < (Wiring.empty.run ops).created ∧ ¬ (Wiring.empty.run ops).Alive e := by
  obtain ⟨w, h1, hR⟩ := Rel.run ops Rel.empty hl
  refine ⟨w, h1, ?_, ?_, hR.deleted.1, hR.deleted.2⟩
  · intro h e
    rw [hR.handles]
    exact handle_iff h e _ hR.keys
  · intro e
    rw [← Option.isSome_iff_exists]
    exact hR.alive e

/-- In the example history the slot of handle 4 (endpoint 3) has been deleted, and after dropping
one of the two handles of the signal it is still there. -/
example : ∃ w, SigSlots.run World.empty (sigHistory ++ [.destroy 0]) = .ok w ∧ w.deleted = [3] ∧
    (w.eps 0).isSome := by
  simp [sigHistory, SigSlots.run, SigSlots.step, SigSlots.create, onHandle, handle, connectSignal,
    connectSlot, topicAt, upd, bump, insertSet, SigSlots.copy, SigSlots.destroy, SigSlots.delete,
    SigSlots.disconnect, disconnectList, disconnectTopic, Topic.disconnect, Topic.empty, World.empty]

/-- **C31 fails** for assignment between different endpoints: the assigned endpoint is deleted with
its first handle, the second handle then works on freed memory; the endpoint assigned over is never
deleted although no handle stands for it. -/
theorem C31_fails_assign :
    (∃ w, SigSlots.run World.empty [.newSlot 0, .newSlot 1, .assign 0 1, .destroy 0] = .ok w ∧
      w.deleted = [1] ∧ handle 1 w.handles = some 1 ∧ (w.eps 0).isSome ∧
      ∀ h, handle h w.handles ≠ some 0) ∧
    SigSlots.run World.empty [.newSlot 0, .newSlot 1, .assign 0 1, .destroy 0, .destroy 1] = .ub := by
  simp [SigSlots.run, SigSlots.step, SigSlots.create, onHandle, handle, SigSlots.assign, upd,
    SigSlots.destroy, SigSlots.delete, SigSlots.disconnect, disconnectList, World.empty]

end Ecl.Props
