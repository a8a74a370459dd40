import Verif.Lemmas.ShelfSteps

/-!
# C125 — What running out of memory leaves behind

Dynamic arrays are compared with the shelf of `Spec/Shelf.lean`; the text device with the same
device asked only the calls that succeeded; signals and slots with a connection made at once.
-/
set_option autoImplicit false

namespace Ecl.Props
open Ecl.Scarce Ecl.Shelf

namespace C125

/-- The results of the calls that had memory. -/
def good {Out : Type} : List (Obs Out) → List (Obs Out)
  | [] => []
  | .error .memoryError :: l => good l
  | o :: l => o :: good l

/-- The calls that had memory, read off their results. -/
def kept {Out : Type} : List TextOp → List (Obs Out) → List StrDev.Op
  | .call _ _ :: ops, .error .memoryError :: l => kept ops l
  | .call op _ :: ops, _ :: l => op :: kept ops l
  | _, _ => []

/-- A history of calls without the destructor. -/
def calls (l : List (StrDev.Op × Bool)) : List TextOp := l.map fun p => .call p.1 p.2

theorem count {α : Type} {s : St α} {t : Shelf α} (h : Rel s t) (N : Nat)
    (hN : ∀ i, N ≤ i → t.place i = .absent) :
    ∃ L : List Nat, L.Nodup ∧ (∀ p, p ∈ L ↔ (s.mem p).isSome) ∧
      L.length = ((List.range N).filter fun i => (t.place i).stored).length + t.lost := by
  obtain ⟨K, h1, h2, h3, h4⟩ := h.lost
  let ptr : Nat → Nat := fun i => match s.obj i with
    | some ⟨_, some p⟩ => p
    | _ => 0
  have hst : ∀ i, (t.place i).stored = true →
      ∃ n, s.obj i = some ⟨n, some (ptr i)⟩ ∧ (s.mem (ptr i)).isSome := by
    intro i hi
    have hp := h.place i
    cases hq : t.place i with
    | holds l =>
      rw [hq] at hp
      obtain ⟨p, e1, e2⟩ := hp
      have : ptr i = p := by simp only [ptr, e1]
      exact ⟨l.length, by rw [this, e1], by rw [this, e2]; rfl⟩
    | _ => rw [hq] at hi; cases hi
  refine ⟨((List.range N).filter fun i => (t.place i).stored).map ptr ++ K, ?_, fun p => ?_,
    by simp [h2]⟩
  · rw [List.nodup_append]
    refine ⟨?_, h1, ?_⟩
    · refine List.Nodup.map_on ?_ (List.nodup_range.filter _)
      intro a ha b hb e
      obtain ⟨n, ea, ma⟩ := hst a (List.mem_filter.1 ha).2
      obtain ⟨k, eb, _⟩ := hst b (List.mem_filter.1 hb).2
      rw [← e] at eb
      exact h.own a b n k _ ea eb ma
    · rintro a ha b hb rfl
      obtain ⟨i, hi, rfl⟩ := List.mem_map.1 ha
      obtain ⟨n, ea, _⟩ := hst i (List.mem_filter.1 hi).2
      exact (h3 _ hb).2 i n ea
  · rw [List.mem_append]
    constructor
    · rintro (hp | hp)
      · obtain ⟨i, hi, rfl⟩ := List.mem_map.1 hp
        exact (hst i (List.mem_filter.1 hi).2).choose_spec.2
      · exact (h3 p hp).1
    · intro hp
      rcases h4 p hp with hK | ⟨i, n, e⟩
      · exact .inr hK
      · refine .inl (List.mem_map.2 ⟨i, List.mem_filter.2 ⟨?_, ?_⟩, ?_⟩)
        · rw [List.mem_range]
          by_contra hlt
          have := h.place i
          rw [hN i (by omega), e] at this
          cases this
        · have hpl := h.place i
          cases hq : t.place i with
          | absent => rw [hq, e] at hpl; cases hpl
          | bare => rw [hq, e] at hpl; cases hpl
          | holds l => rfl
          | spoiled k =>
            rw [hq, e] at hpl
            obtain ⟨q, e1, e2⟩ := hpl
            cases e1; rw [e2] at hp; cases hp
        · simp only [ptr, e]

theorem run_append {σ Op Out : Type} (step : σ → Op → Res σ Out) (op : Op) :
    ∀ (ops : List Op) (s : σ) (r : σ × List (Obs Out)), runOps step s ops = some r →
      step r.1 op = .ub → runOps step s (ops ++ [op]) = none := by
  intro ops
  induction ops with
  | nil =>
    intro s r h hu
    simp only [runOps, Option.some.injEq] at h
    subst h
    simp [runOps, hu]
  | cons o ops ih =>
    intro s r h hu
    rw [runOps_cons] at h
    rw [List.cons_append, runOps_cons]
    cases hs : (step s o).obs with
    | none => rfl
    | some q =>
      rw [hs, Option.bind_some] at h
      cases hr : runOps step q.1 ops with
      | none => rw [hr] at h; cases h
      | some q' =>
        rw [hr] at h
        simp only [Option.map_some, Option.some.injEq] at h
        have := ih q.1 q' hr (by rw [← h] at hu; exact hu)
        simp [this]

/-- No call on the text device throws when there is memory. -/
theorem nothrow : ∀ (d d' : StrDev) (op : StrDev.Op) (e : Flag), StrDev.step d op ≠ .throw d' e := by
  have hst : ∀ mem i c e, StrDev.store mem i c ≠ .throw e := by
    intro mem i c e; unfold StrDev.store; split <;> simp
  have hgrow : ∀ s k e, StrDev.grow s k ≠ .throw e := by
    intro s k e; unfold StrDev.grow; dsimp only; split <;> simp
  have hall : ∀ cs mem i e, StrDev.storeAll mem i cs ≠ .throw e := by
    intro cs
    induction cs with
    | nil => intro mem i e; unfold StrDev.storeAll; split <;> simp
    | cons c cs ih =>
      intro mem i e h
      unfold StrDev.storeAll at h
      cases hs : StrDev.store mem i c with
      | ok m => rw [hs] at h; exact ih _ _ _ h
      | throw e' => exact hst _ _ _ _ hs
      | ub => rw [hs] at h; cases h
  have hload : ∀ n mem i e, StrDev.load mem i n ≠ .throw e := by
    intro n
    induction n with
    | zero => intro mem i e; simp [StrDev.load]
    | succ n ih =>
      intro mem i e h
      unfold StrDev.load at h
      split at h
      · cases hs : StrDev.load mem (i + 1) n with
        | ok m => rw [hs] at h; cases h
        | throw e' => exact ih _ _ _ hs
        | ub => rw [hs] at h; cases h
      · cases h
  intro d d' op e h
  cases op with
  | put c =>
    simp only [StrDev.step] at h
    split at h <;> try cases h
    next hp =>
      unfold StrDev.put at hp
      split at hp
      · cases hg : StrDev.grow d 256 with
        | ok s1 =>
          rw [hg] at hp
          simp only [Outcome.bind_ok] at hp
          cases hs : StrDev.store s1.mem s1.w c with
          | ok m => rw [hs] at hp; cases hp
          | throw e' => exact hst _ _ _ _ hs
          | ub => rw [hs] at hp; cases hp
        | throw e' => exact hgrow _ _ _ hg
        | ub => rw [hg] at hp; cases hp
      · simp only [Outcome.bind_ok] at hp
        cases hs : StrDev.store d.mem d.w c with
        | ok m => rw [hs] at hp; cases hp
        | throw e' => exact hst _ _ _ _ hs
        | ub => rw [hs] at hp; cases hp
  | puts cs =>
    simp only [StrDev.step] at h
    split at h <;> try cases h
    next hp =>
      unfold StrDev.puts at hp
      split at hp
      · cases hg : StrDev.grow d (s32 (cs.length + 256)) with
        | ok s1 =>
          rw [hg] at hp
          simp only [Outcome.bind_ok] at hp
          cases hs : StrDev.storeAll s1.mem s1.w cs with
          | ok m => rw [hs] at hp; cases hp
          | throw e' => exact hall _ _ _ _ hs
          | ub => rw [hs] at hp; cases hp
        | throw e' => exact hgrow _ _ _ hg
        | ub => rw [hg] at hp; cases hp
      · simp only [Outcome.bind_ok] at hp
        cases hs : StrDev.storeAll d.mem d.w cs with
        | ok m => rw [hs] at hp; cases hp
        | throw e' => exact hall _ _ _ _ hs
        | ub => rw [hs] at hp; cases hp
  | get =>
    simp only [StrDev.step] at h
    split at h <;> try cases h
    next hp =>
      unfold StrDev.get at hp
      split at hp
      · split at hp <;> cases hp
      · cases hp
  | gets n =>
    simp only [StrDev.step] at h
    split at h <;> try cases h
    next hp =>
      unfold StrDev.gets at hp
      dsimp only at hp
      split at hp
      · cases hs : StrDev.load d.mem d.r n with
        | ok m => rw [hs] at hp; cases hp
        | throw e' => exact hload _ _ _ _ hs
        | ub => rw [hs] at hp; cases hp
      · split at hp
        · cases hs : StrDev.load d.mem d.r (StrDev.remaining d) with
          | ok m => rw [hs] at hp; cases hp
          | throw e' => exact hload _ _ _ _ hs
          | ub => rw [hs] at hp; cases hp
        · cases hp
  | clear => simp [StrDev.step] at h
  | cstr =>
    simp only [StrDev.step] at h
    split at h <;> try cases h
    next hp =>
      unfold StrDev.cstr at hp
      cases hs : StrDev.store d.mem d.w '\x00' with
      | ok m =>
        rw [hs] at hp
        simp only [Outcome.bind_ok] at hp
        cases hs2 : StrDev.load m 0 d.w with
        | ok m => rw [hs2] at hp; cases hp
        | throw e' => exact hload _ _ _ _ hs2
        | ub => rw [hs2] at hp; cases hp
      | throw e' => exact hst _ _ _ _ hs
      | ub => rw [hs] at hp; cases hp
  | str =>
    simp only [StrDev.step] at h
    split at h <;> try cases h
    next hp => exact hload _ _ _ _ hp
  | size => simp [StrDev.step] at h
  | remaining => simp [StrDev.step] at h

end C125

/-- Arrays, however often memory runs out and element assignments throw: as long as the program
leaves spoiled arrays alone, every call answers as the shelf says, nothing is undefined, and at any
moment the blocks in memory are one for each array with storage plus the lost ones. -/
theorem C125_arrays_partial {α : Type} (ops : List (Op α))
    (hl : Legal spec allowed (Shelf.init : Shelf α) ops) :
    ∃ s, runOps step (St.init : St α) ops = some (s, (runSpec spec Shelf.init ops).2) ∧
      ∀ N, (∀ i, N ≤ i → (runSpec spec Shelf.init ops).1.place i = .absent) →
        ∃ L : List Nat, L.Nodup ∧ (∀ p, p ∈ L ↔ (s.mem p).isSome) ∧
          L.length = ((List.range N).filter fun i =>
            ((runSpec spec Shelf.init ops).1.place i).stored).length +
              (runSpec spec Shelf.init ops).1.lost := by
  obtain ⟨s, h1, h2⟩ := refines step spec allowed Rel step_rel ops _ _ rel_init hl
  exact ⟨s, h1, fun N hN => C125.count h2 N hN⟩

/-- A copy over an array, memory running out while one without storage grows, and the end. -/
example : Legal spec allowed (Shelf.init : Shelf Nat)
    [.makeOf 0 2 true (fun k => 10 + k), .make 1, .resize 1 5 false (fun _ => 0),
      .assign 1 0 true (some 1) (fun _ => 7), .get 1 0, .get 1 1, .get 1 2, .resize 0 3 false id,
      .size 0, .destroy 1] ∧
    (runSpec spec (Shelf.init : Shelf Nat)
    [.makeOf 0 2 true (fun k => 10 + k), .make 1, .resize 1 5 false (fun _ => 0),
      .assign 1 0 true (some 1) (fun _ => 7), .get 1 0, .get 1 1, .get 1 2, .resize 0 3 false id,
      .size 0, .destroy 1]).2 =
    [.ok .unit, .ok .unit, .error .memoryError, .error .unknownError, .ok (.value 10),
      .ok (.value 7), .error .outOfRange, .error .memoryError, .ok (.count 2), .ok .unit] := by
  refine ⟨?_, by decide⟩
  exact ⟨rfl, rfl, trivial, ⟨by decide, trivial, trivial⟩, trivial, trivial, trivial, trivial,
    (fun h => nomatch (h : (Place.spoiled 2 : Place Nat) = .absent)), trivial, trivial⟩

/-- Using a spoiled array is undefined, after every history: destroying it, giving it a new size or
new contents, clearing it, touching an element, or copying from it. -/
theorem C125_fails_spoiled {α : Type} (ops : List (Op α)) (op : Op α)
    (hl : Legal spec allowed (Shelf.init : Shelf α) ops)
    (ht : touches (runSpec spec (Shelf.init : Shelf α) ops).1 op) :
    runOps step (St.init : St α) (ops ++ [op]) = none := by
  obtain ⟨s, h1, h2⟩ := refines step spec allowed Rel step_rel ops _ _ rel_init hl
  exact C125.run_append step op ops _ _ h1 (step_touch s _ op h2 ht)

example : touches (runSpec spec (Shelf.init : Shelf Nat)
    [.makeOf 0 2 true id, .resize 0 9 false id]).1 (.destroy 0) :=
  ⟨2, rfl⟩

/-- So an array that has storage cannot even be destroyed once `resize` has run out of memory,
whatever the two sizes and whatever happened before. -/
theorem C125_fails_resize {α : Type} (ops : List (Op α)) (i n : Nat) (junk : Nat → α)
    (hl : Legal spec allowed (Shelf.init : Shelf α) ops) (l : List α)
    (hi : (runSpec spec (Shelf.init : Shelf α) ops).1.place i = .holds l) :
    runOps step (St.init : St α) (ops ++ [.resize i n false junk] ++ [.destroy i]) = none := by
  have key : ∀ (ops : List (Op α)) (t : Shelf α) (op : Op α), Legal spec allowed t ops →
      allowed (runSpec spec t ops).1 op → Legal spec allowed t (ops ++ [op]) ∧
        (runSpec spec t (ops ++ [op])).1 = (spec (runSpec spec t ops).1 op).1 := by
    intro ops
    induction ops with
    | nil => intro t op _ h; exact ⟨⟨h, trivial⟩, rfl⟩
    | cons o ops ih =>
      intro t op hl h
      obtain ⟨h1, h2⟩ := ih _ op hl.2 h
      exact ⟨⟨hl.1, h1⟩, h2⟩
  obtain ⟨h1, h2⟩ := key ops Shelf.init (.resize i n false junk) hl
    (by show (Place.Sound _); rw [hi]; trivial)
  refine C125_fails_spoiled _ _ h1 ?_
  rw [h2]
  exact ⟨l.length, by simp [spec, hi, Place.spoil]⟩

example : (runSpec spec (Shelf.init : Shelf Nat) [.makeOf 0 2 true id]).1.place 0 = .holds [0, 1] :=
  rfl

/-- And a copy constructor stopped by an element's exception loses its block for good: after this
history every array is destroyed, and a block remains. -/
theorem C125_fails_copy :
    ∃ s, runOps step (St.init : St Nat)
      [.makeOf 0 2 true id, .makeCopy 1 0 true (some 1) id, .destroy 0] =
        some (s, [.ok .unit, .error .unknownError, .ok .unit]) ∧
      (∀ i, s.obj i = none) ∧ (s.mem 1).isSome := by
  refine ⟨_, by simp [runOps, step, done, St.alloc, Res.bind, St.init, St.setObj, St.setMem, St.copy,
    St.release]; rfl, fun i => ?_, by simp⟩
  dsimp only; split <;> rfl

/-! ## The text device -/

/-- A write that runs out of memory does nothing: in every history of calls that leaves the device
sound, the calls that had memory answer, and leave the device, as if the others had not been
made. -/
theorem C125_text_partial (d d' : StrDev) (l : List (StrDev.Op × Bool))
    (out : List (Obs StrDev.Out))
    (h : runOps textStep (.live d) (C125.calls l) = some (.live d', out)) :
    runOps StrDev.step d (C125.kept (C125.calls l) out) = some (d', C125.good out) := by
  have dead : ∀ (l : List (StrDev.Op × Bool)) (out : List (Obs StrDev.Out)) (d' : StrDev),
      runOps textStep .dangling (C125.calls l) ≠ some (.live d', out) := by
    intro l out d' h
    cases l with
    | nil => simp [C125.calls, runOps] at h
    | cons o l => simp [C125.calls, runOps, textStep] at h
  induction l generalizing d out with
  | nil =>
    simp only [C125.calls, List.map_nil, runOps, Option.some.injEq, Prod.mk.injEq,
      Text.live.injEq] at h
    obtain ⟨rfl, rfl⟩ := h
    rfl
  | cons o l ih =>
    obtain ⟨op, room⟩ := o
    have hc : C125.calls ((op, room) :: l) = .call op room :: C125.calls l := rfl
    rw [hc, runOps_cons] at h
    rw [hc]
    by_cases hask : (asks d op && !room) = true
    · by_cases hcl : op = .clear
      · subst hcl
        simp only [textStep, hask, if_true, Res.obs, Option.bind_some] at h
        cases hr : runOps textStep .dangling (C125.calls l) with
        | none => rw [hr] at h; cases h
        | some r =>
          rw [hr] at h
          simp only [Option.map_some, Option.some.injEq, Prod.mk.injEq] at h
          exact absurd (hr.trans (by rw [← h.1])) (dead l r.2 d')
      · have hstep : textStep (.live d) (.call op room) = .throw (.live d) .memoryError := by
          cases op <;> simp_all [textStep]
        rw [hstep] at h
        simp only [Res.obs, Option.bind_some] at h
        cases hr : runOps textStep (.live d) (C125.calls l) with
        | none => rw [hr] at h; cases h
        | some r =>
          rw [hr] at h
          simp only [Option.map_some, Option.some.injEq, Prod.mk.injEq] at h
          obtain ⟨h1, h2⟩ := h
          subst h2
          exact ih d r.2 (hr.trans (by rw [← h1]))
    · have hstep : textStep (.live d) (.call op room) = match StrDev.step d op with
        | .ok d a => .ok (.live d) a
        | .throw d e => .throw (.live d) e
        | .ub => .ub := by
        simp only [textStep, hask, if_false]; rfl
      rw [hstep] at h
      cases hs : StrDev.step d op with
      | ub => rw [hs] at h; cases h
      | ok d1 a =>
        rw [hs] at h
        simp only [Res.obs, Option.bind_some] at h
        cases hr : runOps textStep (.live d1) (C125.calls l) with
        | none => rw [hr] at h; cases h
        | some r =>
          rw [hr] at h
          simp only [Option.map_some, Option.some.injEq, Prod.mk.injEq] at h
          obtain ⟨h1, h2⟩ := h
          subst h2
          have := ih d1 r.2 (hr.trans (by rw [← h1]))
          show runOps StrDev.step d (op :: C125.kept (C125.calls l) r.2) = _
          rw [runOps_cons, hs]
          simp [Res.obs, this, C125.good]
      | throw d1 e =>
        exact absurd hs (C125.nothrow d d1 op e)

example : runOps textStep (.live (StrDev.make ['a']))
    (C125.calls [(.put 'b', false), (.put 'c', true), (.str, true)]) =
    some (.live ⟨[some 'a', some 'c'] ++ List.replicate 256 none, 2, 2, 0⟩,
      [.error .memoryError, .ok (.count 1), .ok (.text ['a', 'c'])]) := by decide +kernel

/-- But after a `clear` that ran out of memory every call is undefined, and so is the end of the
device. -/
theorem C125_fails_clear (d : StrDev) (op : TextOp) :
    runOps textStep (.live d) [.call .clear false, op] = none := by
  cases op <;> simp [runOps, textStep, asks]

/-! ## Signals and slots -/

open SigSlots (World Endpoint connectSignal connectSlot disconnect)

namespace C125

theorem upd_upd {κ β : Type} [DecidableEq κ] (f : κ → β) (k : κ) (a b : β) :
    SigSlots.upd (SigSlots.upd f k a) k b = SigSlots.upd f k b := by
  funext x; unfold SigSlots.upd; split <;> rfl

theorem insertSet_twice (x : Nat) (l : List Nat) :
    SigSlots.insertSet x (SigSlots.insertSet x l) = SigSlots.insertSet x l := by
  have : x ∈ SigSlots.insertSet x l := by
    unfold SigSlots.insertSet; split
    · assumption
    · simp
  rw [SigSlots.insertSet, if_pos this]

theorem missing (e : Nat) (t : String) : ∀ (l : List String) (w : World), w.topics t = none →
    t ∈ l → SigSlots.disconnectList e w l = .ub := by
  intro l
  induction l with
  | nil => intro w _ h; cases h
  | cons x l ih =>
    intro w hw hm
    unfold SigSlots.disconnectList
    cases hx : w.topics x with
    | none => simp [SigSlots.disconnectTopic, hx]
    | some T =>
      have hxt : x ≠ t := by rintro rfl; rw [hw] at hx; cases hx
      have htx : t ≠ x := fun h => hxt h.symm
      simp only [SigSlots.disconnectTopic, hx, Outcome.bind_ok]
      refine ih _ ?_ ?_
      · simp only [SigSlots.upd, if_neg htx]; exact hw
      · rcases List.mem_cons.1 hm with h | h
        · exact absurd h htx
        · exact h

end C125

/-- A signal whose `connect` ran out of memory, wherever that was, can be connected again, and then
everything is as if it had been connected at once. -/
theorem C125_signal_partial (w : World) (e : Nat) (t : String) (pt : SignalPoint) :
    connectSignal (signalBroken w e t pt) e t = connectSignal w e t := by
  cases pt with
  | topic => rfl
  | publisher =>
    unfold connectSignal
    cases he : w.eps e with
    | none => simp [signalBroken, he]
    | some E =>
      simp [signalBroken, he, SigSlots.topicAt, SigSlots.bump, C125.upd_upd]
      simp [SigSlots.upd]
  | publication =>
    unfold connectSignal
    cases he : w.eps e with
    | none => simp [signalBroken, he]
    | some E =>
      simp [signalBroken, he, SigSlots.topicAt, SigSlots.bump, C125.upd_upd]
      simp [SigSlots.upd, C125.insertSet_twice]

example : signalBroken World.empty 0 "t" .publication ≠ World.empty ∧
    signalBroken World.empty 0 "t" .publisher ≠ World.empty := by
  constructor <;> intro h <;>
  · have := congrArg World.nextTopic h
    simp [signalBroken, SigSlots.bump, World.empty] at this

/-- If it is not connected again, the topic may keep a publisher that nobody takes away: here even
`disconnect` leaves the endpoint in the topic. -/
theorem C125_fails_signal (w : World) (e : Nat) (t : String) (h : Nat) (r : Bool)
    (he : w.eps e = some ⟨r, h, [], []⟩) :
    ∃ w' T, disconnect (signalBroken w e t .publication) e = .ok w' ∧ w'.topics t = some T ∧
      e ∈ T.pubs := by
  refine ⟨_, _, by simp [disconnect, signalBroken, he, SigSlots.disconnectList]; rfl,
    by simp [SigSlots.upd]; rfl, ?_⟩
  dsimp only
  unfold SigSlots.insertSet; split
  · assumption
  · simp

/-- A slot can be connected again to the same effect only if the very first step had failed. -/
theorem C125_slot (w : World) (e : Nat) (E : Endpoint) (t : String) (pt : SlotPoint)
    (he : w.eps e = some E) (ht : t ∉ E.subscriptions) (hs : e ∉ (SigSlots.topicAt w t).subs) :
    connectSlot (slotBroken w e E t pt) e t = connectSlot w e t ↔ pt = .subscription := by
  have hgood : ∃ w', connectSlot w e t = .ok w' ∧ ∃ T, w'.topics t = some T ∧ e ∈ T.subs := by
    refine ⟨_, by simp [connectSlot, he, ht]; rfl, _, by simp [SigSlots.upd]; rfl, ?_⟩
    simp [SigSlots.insertSet, hs]
  obtain ⟨w', h1, T, h2, h3⟩ := hgood
  rw [h1]
  cases pt with
  | subscription => simp [slotBroken, h1]
  | topic =>
    simp only [reduceCtorEq, iff_false]
    intro h
    simp [connectSlot, slotBroken, SigSlots.upd] at h
    rw [← h] at h2
    have : w.topics t = some T := h2
    rw [SigSlots.topicAt, this] at hs
    exact hs h3
  | subscriber =>
    simp only [reduceCtorEq, iff_false]
    intro h
    simp [connectSlot, slotBroken, SigSlots.upd] at h
    rw [← h] at h2
    simp only [SigSlots.upd, if_true, Option.some.injEq] at h2
    rw [h2] at hs
    exact hs h3

example : (World.empty.eps 0 = none) ∧
    (SigSlots.create World.empty 3 false).eps 0 = some ⟨false, 1, [], []⟩ ∧
    0 ∉ (SigSlots.topicAt (SigSlots.create World.empty 3 false) "t").subs :=
  ⟨rfl, rfl, by simp [SigSlots.topicAt, SigSlots.create, World.empty]⟩

/-- When the topic could not be made, trying again does nothing at all, and disconnecting (which
the end of the slot does) is undefined. -/
theorem C125_fails_slot (w : World) (e : Nat) (E : Endpoint) (t : String)
    (hw : w.topics t = none) :
    connectSlot (slotBroken w e E t .topic) e t = .ok (slotBroken w e E t .topic) ∧
      (slotBroken w e E t .topic).topics t = none ∧
      disconnect (slotBroken w e E t .topic) e = .ub := by
  refine ⟨by simp [connectSlot, slotBroken, SigSlots.upd], hw, ?_⟩
  have := C125.missing e t (E.subscriptions ++ [t]) (slotBroken w e E t .topic) hw (by simp)
  simp only [disconnect]
  have h1 : (slotBroken w e E t .topic).eps e =
      some { E with subscriptions := E.subscriptions ++ [t] } := by
    simp [slotBroken, SigSlots.upd]
  rw [h1]
  simp only [this, Outcome.bind_ub]

example : World.empty.topics "t" = none := rfl

end Ecl.Props
