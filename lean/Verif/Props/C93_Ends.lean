import Verif.Lemmas.SigSlotsEndless

/-!
# C93: emissions that end, and one that does not
-/
set_option autoImplicit false
set_option linter.unusedSimpArgs false

namespace Ecl.Props
open Ecl Ecl.Spec Ecl.SigSlots Ecl.SigSlots.Nested

/-- A careful program (as in `C93_delivery_partial`), of which moreover at no time more than `N` endpoints
have been constructed and only the listed topics are published, and in which whatever is called, relayed or
emitted by a function has a lower rank than what calls, relays or emits it: its emissions end, and then
every endpoint that was subscribed all the time has been called exactly once for each topic that was
published all the time. -/
theorem C93_ends (ops : List Op) (hl : Wiring.empty.AllLegal ops) (w : World)
    (hw : SigSlots.run World.empty ops = .ok w) (e : Nat) (he : (Wiring.empty.run ops).Alive e)
    (addr : Nat → Nat) (hinj : Function.Injective addr) (script : Nat → List Act)
    (hc : ∀ n m, steps addr script n (begin w e) = .running m →
      Careful ((Wiring.empty.run ops).run (opsOf m.log)) m)
    (N : Nat) (topics : List String)
    (hC : ∀ n m, steps addr script n (begin w e) = .running m →
      Confined N topics ((Wiring.empty.run ops).run (opsOf m.log)))
    (rank : Nat → Nat)
    (hd : ∀ n m, steps addr script n (begin w e) = .running m →
      Descends rank ((Wiring.empty.run ops).run (opsOf m.log)) m) :
    ∃ n m, steps addr script n (begin w e) = .running m ∧ m.stack = [] ∧
      ∀ t x, Throughout (Wiring.empty.run ops) m.log e t x → (deliveries m.log).count (t, x) = 1 := by
  obtain ⟨w', h1, hR⟩ := Rel.run ops Rel.empty hl
  rw [hw, Outcome.ok.injEq] at h1
  subst h1
  obtain ⟨S, T⟩ := begin_safe hR he addr
  obtain ⟨n, m, h1, h2⟩ := Ends.ends hinj S T hc hC hd
  obtain ⟨m', h3, -, T'⟩ := run_careful hinj n _ S T hc
  rw [h1] at h3
  cases h3
  refine ⟨n, m, h1, h2, fun t x ht => ?_⟩
  exact List.count_eq_one_of_mem T'.nodup (T'.all (t, x) ht (by rw [h2]; trivial))

/-- In particular when the functions of the slots construct no slots and no signals. -/
theorem C93_ends_unless_constructing (ops : List Op) (hl : Wiring.empty.AllLegal ops) (w : World)
    (hw : SigSlots.run World.empty ops = .ok w) (e : Nat) (he : (Wiring.empty.run ops).Alive e)
    (addr : Nat → Nat) (hinj : Function.Injective addr) (script : Nat → List Act)
    (hc : ∀ n m, steps addr script n (begin w e) = .running m →
      Careful ((Wiring.empty.run ops).run (opsOf m.log)) m)
    (hb : ∀ x, ∀ a ∈ script x, ¬ Builds a) (rank : Nat → Nat)
    (hd : ∀ n m, steps addr script n (begin w e) = .running m →
      Descends rank ((Wiring.empty.run ops).run (opsOf m.log)) m) :
    ∃ n m, steps addr script n (begin w e) = .running m ∧ m.stack = [] ∧
      ∀ t x, Throughout (Wiring.empty.run ops) m.log e t x → (deliveries m.log).count (t, x) = 1 := by
  have hw' := hw
  obtain ⟨w', h1, hR⟩ := Rel.run ops Rel.empty hl
  rw [hw, Outcome.ok.injEq] at h1
  subst h1
  obtain ⟨S, T⟩ := begin_safe hR he addr
  obtain ⟨topics, hC⟩ := Ends.confined hinj S rfl (by intro x acts hx; simp [begin] at hx) T hc hb
  exact C93_ends ops hl w hw' e he addr hinj script hc _ topics hC rank hd

/-- Without these restrictions an emission may go on for ever, although the program is careful: every slot
constructs another one, at a higher address, and subscribes it to the topic that is being emitted. -/
theorem C93_fails_endless : ∃ (ops : List Op) (w : World) (script : Nat → List Act),
    Wiring.empty.AllLegal ops ∧ SigSlots.run World.empty ops = .ok w ∧ (Wiring.empty.run ops).Alive 0 ∧
      ∀ n, ∃ m, steps id script n (begin w 0) = .running m ∧
        Careful ((Wiring.empty.run ops).run (opsOf m.log)) m ∧ m.stack ≠ [] := by
  have hl : Wiring.empty.AllLegal [.newSignal 0, .connect 0 "a", .newSlot 1, .subscribe 1 "a"] := by
    simp [Wiring.AllLegal, Wiring.Legal, Wiring.empty, Wiring.after, Wiring.At]
  have ha : (Wiring.empty.run [.newSignal 0, .connect 0 "a", .newSlot 1, .subscribe 1 "a"]).Alive 0 :=
    ⟨0, by simp [Wiring.run, Wiring.empty, Wiring.after, Wiring.At]⟩
  have hrow : Ends.Row (Wiring.empty.run [.newSignal 0, .connect 0 "a", .newSlot 1, .subscribe 1 "a"]) 1 0 := by
    refine ⟨?_, rfl, ?_, ?_, ?_⟩
    · intro h e
      simp only [Wiring.run, Wiring.empty, Wiring.after, Wiring.At, List.nil_append, List.cons_append,
        List.mem_cons, List.not_mem_nil, or_false, Prod.mk.injEq]
      omega
    · intro e he
      simp only [Wiring.run, Wiring.empty, Wiring.after]
      have : e ≠ 0 := by omega
      simp [this]
    · intro e t
      simp [Wiring.run, Wiring.empty, Wiring.after, Wiring.At]
    · intro e t
      simp only [Wiring.run, Wiring.empty, Wiring.after, Wiring.At, List.nil_append, List.cons_append,
        List.mem_cons, List.not_mem_nil, or_false, Prod.mk.injEq, false_or]
      constructor
      · rintro ⟨h1, h2⟩
        exact ⟨by omega, h2⟩
      · rintro ⟨h1, h2⟩
        obtain rfl : e = 1 := by omega
        simp [h2]
  obtain ⟨w, hw, hR⟩ := Rel.run _ Rel.empty hl
  refine ⟨_, w, Ends.breeder, hl, hw, ha, ?_⟩
  generalize Wiring.empty.run [.newSignal 0, .connect 0 "a", .newSlot 1, .subscribe 1 "a"] = g at *
  obtain ⟨S, T⟩ := begin_safe hR ha id
  obtain ⟨m1, g', h1, h2, S1⟩ := S.next (addr := id) (script := Ends.breeder) trivial
  obtain ⟨T1, hg'⟩ := T.next Function.injective_id rfl h2
  have hph : Ends.Phase g' m1.stack := by
    cases h2 with
    | stop h => cases h
    | deliver f rest top p x h hpos => cases h; cases hpos
    | pop x rest h => cases h
    | op x o acts rest w h => cases h
    | emit x k acts rest e h => cases h
    | ret f rest h hi ho =>
      cases h
      obtain ⟨q, hq, -⟩ := ho "a" ((hrow.pub 0 "a").2 ⟨rfl, rfl⟩)
      cases hq
    | topic f rest p h hi hp =>
      cases h
      obtain ⟨t, uid⟩ := p
      have ht : t = "a" := ((hrow.pub _ _).1 hp).2
      subst ht
      exact .first 0 uid none hrow (.inl ⟨rfl, rfl⟩) rfl
  rw [hg'] at S1 hph
  intro n
  cases n with
  | zero => exact ⟨_, rfl, trivial, by simp [begin]⟩
  | succ n =>
    obtain ⟨m, h3, -, -, h4⟩ := Ends.Phase.endless S1 T1 hph n
    refine ⟨m, ?_, h4.careful, h4.nonempty⟩
    unfold steps
    rw [h1]
    exact h3

/-- A slot that emits another signal, which calls another slot. -/
private def chain : List Op :=
  [.newSignal 0, .connect 0 "a", .newSlot 1, .subscribe 1 "a", .newSignal 2, .connect 2 "b", .newSlot 3, .subscribe 3 "b"]

private def forward : Nat → List Act
  | 1 => [.emit 2]
  | _ => []

private def level : Nat → Nat
  | 0 => 3
  | 1 => 2
  | 2 => 1
  | _ => 0

private theorem chain_edge (e x : Nat) (h : (Wiring.empty.run chain).Edge e x) : level x < level e := by
  obtain ⟨t, h1, h2⟩ := h
  simp [chain, Wiring.run, Wiring.empty, Wiring.after, Wiring.At] at h1 h2
  rcases h1 with ⟨rfl, rfl⟩ | ⟨rfl, rfl⟩ <;> rcases h2 with ⟨rfl, h⟩ | ⟨rfl, h⟩ <;> first | decide | exact absurd h (by decide)

example : ∃ w, Wiring.empty.AllLegal chain ∧ SigSlots.run World.empty chain = .ok w ∧ (Wiring.empty.run chain).Alive 0 ∧
    (∀ n m, steps id forward n (begin w 0) = .running m →
      Careful ((Wiring.empty.run chain).run (opsOf m.log)) m ∧ Descends level ((Wiring.empty.run chain).run (opsOf m.log)) m) ∧
    (∀ x, ∀ a ∈ forward x, ¬ Builds a) ∧ Throughout (Wiring.empty.run chain) [.called 0 0 "a" 1, .called 2 2 "b" 3] 0 "a" 1 ∧
    ∃ m, steps id forward 9 (begin w 0) = .running m ∧ m.stack = [] ∧
      m.log = [.called 0 0 "a" 1, .called 2 2 "b" 3] := by
  refine ⟨_, ?_, rfl, ⟨0, ?_⟩, ?_, ?_, ?_, _, rfl, rfl, rfl⟩
  · simp [chain, Wiring.AllLegal, Wiring.Legal, Wiring.empty, Wiring.after, Wiring.At]
  · simp [chain, Wiring.run, Wiring.empty, Wiring.after, Wiring.At]
  · refine steps_all id forward _ 9 _ ⟨_, rfl, rfl⟩ ?_
    intro j hj m hm
    have : j = 0 ∨ j = 1 ∨ j = 2 ∨ j = 3 ∨ j = 4 ∨ j = 5 ∨ j = 6 ∨ j = 7 ∨ j = 8 ∨ j = 9 := by omega
    rcases this with rfl | rfl | rfl | rfl | rfl | rfl | rfl | rfl | rfl | rfl
    case inr.inr.inl =>
      obtain ⟨hst, hlog⟩ : m.stack = [.call 1 [.emit 2], .loop ⟨0, some ("a", 0), some 1, true, true⟩] ∧
          opsOf m.log = [] := by
        change Status.running _ = _ at hm
        cases hm
        exact ⟨rfl, rfl⟩
      rw [hlog]
      refine ⟨?_, chain_edge, ?_⟩
      · unfold Careful
        rw [hst]
        exact ⟨2, by simp [chain, Wiring.run, Wiring.empty, Wiring.after, Wiring.At]⟩
      · intro x h acts rest hs e he
        rw [hst] at hs
        cases hs
        have : e = 2 := by simpa [chain, Wiring.run, Wiring.empty, Wiring.after, Wiring.At] using he
        rw [this]
        decide
    all_goals
      change Status.running _ = _ at hm
      cases hm
      refine ⟨trivial, chain_edge, ?_⟩
      intro x h acts rest hs
      first | exact absurd (show ([] : List Item) = _ from hs) (by simp) | cases hs
  · intro x a ha
    unfold forward at ha
    split at ha
    · rw [List.mem_singleton.1 ha]; exact fun h => h
    · cases ha
  · intro k
    have : ∀ k, opsOf (List.take k [.called 0 0 "a" 1, .called 2 2 "b" 3]) = [] := by
      intro k
      match k with
      | 0 => rfl
      | 1 => rfl
      | k + 2 => simp [opsOf]
    rw [this k]
    simp [chain, Wiring.run, Wiring.empty, Wiring.after, Wiring.At]

end Ecl.Props
