import Verif.Lemmas.SigSlotsEnds

/-! # Functions that construct nothing; an emission without end -/
set_option autoImplicit false
set_option linter.unusedSimpArgs false
set_option linter.unusedVariables false

namespace Ecl.SigSlots.Nested.Ends
open Ecl.Spec Ecl.SigSlots Ecl.SigSlots.Nested

theorem created_run : ∀ (ops : List Op) (g : Wiring), (∀ o ∈ ops, ¬ Builds (.op o)) →
    (g.run ops).created = g.created
  | [], g, _ => rfl
  | o :: ops, g, h => by
    show ((g.after o).run ops).created = _
    rw [created_run ops _ fun o ho => h o (List.mem_cons_of_mem _ ho)]
    have := h o List.mem_cons_self
    cases o <;> first | rfl | exact absurd trivial this

theorem pub_run : ∀ (ops : List Op) (g : Wiring) {e : Nat} {t : String}, (g.run ops).pub e t →
    g.pub e t ∨ ∃ h, Op.connect h t ∈ ops
  | [], g, _, _, h => .inl h
  | o :: ops, g, e, t, h => by
    rcases pub_run ops (g.after o) h with h | ⟨k, hk⟩
    · cases o with
      | connect k u =>
        rcases h with h | ⟨-, h⟩
        · exact .inl h
        · exact .inr ⟨k, by rw [h]; exact List.mem_cons_self⟩
      | disconnect k => exact .inl h.1
      | destroy k => exact .inl h.1
      | newSignal k => exact .inl h
      | newSlot k => exact .inl h
      | copy k k' => exact .inl h
      | assign k k' => exact .inl h
      | subscribe k u => exact .inl h
    · exact .inr ⟨k, List.mem_cons_of_mem _ hk⟩

/-- The calls in the log and those still to be made are those of functions of the first `N` endpoints. -/
structure From (script : Nat → List Act) (N : Nat) (m : Machine) : Prop where
  todo : ∀ x acts, Item.call x acts ∈ m.stack → ∀ a ∈ acts, ∃ y, y < N ∧ a ∈ script y
  done : ∀ o ∈ opsOf m.log, ∃ y, y < N ∧ Act.op o ∈ script y

theorem From.of_stack {script : Nat → List Act} {N : Nat} {m m' : Machine} (h : From script N m)
    (hs : ∀ x acts, Item.call x acts ∈ m'.stack → Item.call x acts ∈ m.stack) (hl : opsOf m'.log = opsOf m.log) :
    From script N m' :=
  ⟨fun x acts hx => h.todo x acts (hs x acts hx), by rw [hl]; exact h.done⟩

theorem nextTopic_from {script : Nat → List Act} {N : Nat} {m m' : Machine} (F : From script N m) {f : Frame}
    {rest : List Item} (hst : m.stack = .loop f :: rest) (h : nextTopic m f rest = .running m') : From script N m' := by
  unfold nextTopic at h
  split at h
  · split at h
    · cases h
    · split at h
      · cases h
        exact F.of_stack (fun x acts hx => by rw [hst]; exact List.mem_cons_of_mem _ hx) rfl
      · split at h
        · cases h
        · cases h
          refine F.of_stack (fun x acts hx => ?_) rfl
          rw [hst]
          simpa using hx
  · cases h

theorem next_from {addr : Nat → Nat} {script : Nat → List Act} {N : Nat} {m m' : Machine} {g : Wiring}
    (hR : Rel m.w g) (hN : g.created ≤ N) (F : From script N m) (h : next addr script m = .running m') :
    From script N m' := by
  unfold next at h
  cases hst : m.stack with
  | nil => rw [hst] at h; cases h; exact F
  | cons i rest =>
    rw [hst] at h
    cases i with
    | call x acts =>
      have ht : ∀ a ∈ acts, ∃ y, y < N ∧ a ∈ script y := F.todo x acts (by rw [hst]; exact List.mem_cons_self)
      have hr : ∀ y as, Item.call y as ∈ rest → ∀ a ∈ as, ∃ z, z < N ∧ a ∈ script z :=
        fun y as hy => F.todo y as (by rw [hst]; exact List.mem_cons_of_mem _ hy)
      cases acts with
      | nil =>
        cases h
        exact ⟨hr, F.done⟩
      | cons a acts =>
        cases a with
        | op o =>
          simp only at h
          unfold doOp at h
          split at h
          · split at h
            · cases h
            · cases h
              refine ⟨?_, ?_⟩
              · intro y as hy
                obtain ⟨i, hi, he⟩ := List.mem_map.1 hy
                cases i with
                | loop f => cases he
                | call y' as' =>
                  cases he
                  rcases List.mem_cons.1 hi with hi | hi
                  · cases hi
                    exact fun a ha => ht a (List.mem_cons_of_mem _ ha)
                  · exact hr _ _ hi
              · intro o' ho'
                simp only [opsOf_append, opsOf, List.mem_append, List.mem_singleton] at ho'
                rcases ho' with ho' | ho'
                · exact F.done _ ho'
                · rw [ho']; exact ht _ List.mem_cons_self
          · cases h
        | emit k =>
          simp only at h
          split at h
          · cases h
          · cases h
            refine ⟨?_, F.done⟩
            intro y as hy
            rcases List.mem_cons.1 hy with hy | hy
            · cases hy
            rcases List.mem_cons.1 hy with hy | hy
            · cases hy
              exact fun a ha => ht a (List.mem_cons_of_mem _ ha)
            · exact hr _ _ hy
    | loop f =>
      simp only at h
      unfold loopStep at h
      split at h
      · exact nextTopic_from F hst h
      · split at h
        · split at h
          · cases h
          · rename_i T hT
            split at h
            · split at h
              · exact nextTopic_from F hst h
              · rename_i x hx
                split at h
                · cases h
                · rename_i X hX
                  cases h
                  have hxN : x < N := by
                    obtain ⟨k, hk⟩ := (hR.alive x).1 (by rw [hX]; rfl)
                    exact lt_of_lt_of_le (hR.bound _ hk) hN
                  refine ⟨?_, ?_⟩
                  · intro y as hy
                    rcases List.mem_append.1 hy with hy | hy
                    · unfold onCall at hy
                      split at hy
                      · simp only [List.mem_cons, List.not_mem_nil, or_false, reduceCtorEq, false_or,
                          Item.call.injEq] at hy
                        rw [hy.2]
                        simp
                      · simp only [List.mem_singleton, Item.call.injEq] at hy
                        rw [hy.2]
                        exact fun a ha => ⟨x, hxN, ha⟩
                    · rcases List.mem_cons.1 hy with hy | hy
                      · cases hy
                      · exact F.todo y as (by rw [hst]; exact List.mem_cons_of_mem _ hy)
                  · simp only [opsOf_append, opsOf, List.append_nil]
                    exact F.done
            · cases h
        · cases h

/-- Programs that construct nothing are confined. -/
theorem confined {addr : Nat → Nat} (hinj : Function.Injective addr) {script : Nat → List Act} {g₀ : Wiring}
    {m₀ : Machine} {e : Nat} (S : Safe m₀.w g₀ m₀.stack) (hlog : m₀.log = [])
    (hcalls : ∀ x acts, Item.call x acts ∉ m₀.stack) (T : Told addr g₀ e m₀)
    (hc : ∀ k m', steps addr script k m₀ = .running m' → Careful (g₀.run (opsOf m'.log)) m')
    (hb : ∀ x, ∀ a ∈ script x, ¬ Builds a) :
    ∃ topics, ∀ k m', steps addr script k m₀ = .running m' →
      Confined g₀.created topics (g₀.run (opsOf m'.log)) := by
  have S' : Safe m₀.w (g₀.run (opsOf m₀.log)) m₀.stack := by rw [hlog]; exact S
  have hF : ∀ k m', steps addr script k m₀ = .running m' → From script g₀.created m' := by
    intro k
    induction k with
    | zero =>
      intro m' h
      cases h
      exact ⟨fun x acts hx => absurd hx (hcalls x acts), by rw [hlog]; simp [opsOf]⟩
    | succ k ih =>
      intro m' h
      obtain ⟨m1, h1, S1, -⟩ := run_careful hinj k _ S' T hc
      rw [steps_succ h1] at h
      have F := ih m1 h1
      refine next_from S1.rel ?_ F h
      rw [created_run]
      intro o ho
      obtain ⟨y, -, hy⟩ := F.done o ho
      exact hb y _ hy
  let old : List String := (List.range g₀.created).flatMap fun e =>
    match m₀.w.eps e with
    | none => []
    | some E => E.publications.map Prod.fst
  let new : List String := (List.range g₀.created).flatMap fun x => (script x).filterMap fun a =>
    match a with
    | .op (.connect _ t) => some t
    | _ => none
  refine ⟨old ++ new, fun k m' h => ⟨?_, ?_⟩⟩
  · rw [created_run]
    intro o ho
    obtain ⟨y, -, hy⟩ := (hF k m' h).done o ho
    exact hb y _ hy
  · intro x t hp
    rcases pub_run _ _ hp with hp | ⟨j, hj⟩
    · refine List.mem_append_left _ (List.mem_flatMap.2 ⟨x, ?_, ?_⟩)
      · have hal : g₀.Alive x := by
          by_contra hn
          exact (S.rel.dead x hn t).1 hp
        obtain ⟨j, hj⟩ := hal
        exact List.mem_range.2 (S.rel.bound _ hj)
      · cases hE : m₀.w.eps x with
        | none =>
          exfalso
          have hal : g₀.Alive x := by
            by_contra hn
            exact (S.rel.dead x hn t).1 hp
          have := (S.rel.alive x).2 hal
          rw [hE] at this
          cases this
        | some E => exact ((S.rel.ep x E hE).2.2.2.2.2.1 t).2 hp
    · obtain ⟨y, hy, hm⟩ := (hF k m' h).done _ hj
      exact List.mem_append_right _ (List.mem_flatMap.2
        ⟨y, List.mem_range.2 hy, List.mem_filterMap.2 ⟨_, hm, rfl⟩⟩)

/-! ## Without end -/

/-- Each slot constructs another and subscribes it. -/
def breeder (x : Nat) : List Act := [.op (.newSlot (x + 1)), .op (.subscribe (x + 1) "a")]

/-- A signal and slots `1, …, k` on one topic, and `extra` slots on none. -/
structure Row (g : Wiring) (k extra : Nat) : Prop where
  at_ : ∀ h e, g.At h e ↔ h = e ∧ e < k + 1 + extra
  created : g.created = k + 1 + extra
  signal : ∀ e, 0 < e → g.signal e = false
  pub : ∀ e t, g.pub e t ↔ e = 0 ∧ t = "a"
  sub : ∀ e t, g.sub e t ↔ (0 < e ∧ e ≤ k) ∧ t = "a"

theorem Row.newSlot {g : Wiring} {k : Nat} (h : Row g k 0) : Row (g.after (.newSlot (k + 1))) k 1 := by
  refine ⟨?_, ?_, ?_, h.pub, h.sub⟩
  · intro j e
    have := h.at_ j e
    unfold Wiring.At at this ⊢
    simp only [Wiring.after, List.mem_append, List.mem_singleton, Prod.mk.injEq, this, h.created]
    omega
  · simp only [Wiring.after, h.created]
  · intro e he
    simp only [Wiring.after]
    split
    · rfl
    · exact h.signal e he

theorem Row.subscribe {g : Wiring} {k : Nat} (h : Row g k 1) : Row (g.after (.subscribe (k + 1) "a")) (k + 1) 0 := by
  refine ⟨?_, ?_, h.signal, h.pub, ?_⟩
  · intro j e
    have := h.at_ j e
    unfold Wiring.At at this ⊢
    simp only [Wiring.after, this]
  · simp only [Wiring.after, h.created]
  · intro e t
    simp only [Wiring.after, h.sub, h.at_]
    constructor
    · rintro (⟨h1, h2⟩ | ⟨⟨h1, h2⟩, h3⟩)
      · exact ⟨by omega, h2⟩
      · exact ⟨by omega, h3⟩
    · rintro ⟨h1, h2⟩
      by_cases he : e = k + 1
      · exact .inr ⟨by omega, h2⟩
      · exact .inl ⟨by omega, h2⟩

theorem next_deliver {addr : Nat → Nat} (hinj : Function.Injective addr) {script : Nat → List Act} {m : Machine}
    {g : Wiring} (S : Safe m.w g m.stack) {f : Frame} {rest : List Item} (hst : m.stack = .loop f :: rest)
    {t : String} {uid x : Nat} (hpos : f.pos = some (t, uid)) (hs : g.sub x t) (hsig : g.signal x = false)
    (hlt : ∀ c, f.cur = some c → addr c < addr x)
    (hmin : ∀ y, g.sub y t → (∀ c, f.cur = some c → addr c < addr y) → addr x ≤ addr y) :
    next addr script m = .running ⟨m.w, .call x (script x) :: .loop { f with cur := some x } :: rest,
      m.log ++ [.called rest.length f.emitter t x]⟩ := by
  have L := S.loops f (by rw [hst]; exact List.mem_cons_self)
  obtain ⟨E, hE, hp⟩ := L.pub _ hpos
  obtain ⟨T, hT, huid⟩ := (S.rel.ep _ E hE).2.2.2.2.2.2 _ hp
  have hsubs := (S.rel.topic t T hT).2.2.2.1
  have hal : g.Alive x := by
    by_contra hn
    exact (S.rel.dead x hn t).2 hs
  obtain ⟨X, hX⟩ := Option.isSome_iff_exists.1 ((S.rel.alive x).2 hal)
  have hrel := (S.rel.ep x X hX).1
  rw [hsig] at hrel
  have hn : nextSub addr f.cur T.subs = some x := by
    cases hn : nextSub addr f.cur T.subs with
    | none =>
      obtain ⟨c, hc, hle⟩ := nextSub_none hn x ((hsubs x).2 hs)
      have := hlt c hc
      omega
    | some y =>
      obtain ⟨h1, h2, h3⟩ := nextSub_some hn
      have h4 := h3 x ((hsubs x).2 hs) hlt
      have h5 := hmin y ((hsubs y).1 h1) h2
      rw [hinj (le_antisymm h4 h5)]
  unfold next
  rw [hst]
  simp only
  unfold loopStep
  rw [hpos]
  simp only
  rw [if_pos L.inner, hT]
  simp only
  rw [if_pos huid, hn]
  simp only
  rw [hX]
  simp only
  unfold onCall
  rw [hrel]
  simp [hpos]

/-- The states the emission goes through again and again. -/
inductive Phase (g : Wiring) (s : List Item) : Prop
  | first (k uid : Nat) (cur : Option Nat) (hr : Row g (k + 1) 0) (hcur : cur = none ∧ k = 0 ∨ cur = some k ∧ 0 < k)
      (h : s = [.loop ⟨0, some ("a", uid), cur, true, true⟩])
  | called (k uid : Nat) (hr : Row g (k + 1) 0)
      (h : s = [.call (k + 1) (breeder (k + 1)), .loop ⟨0, some ("a", uid), some (k + 1), true, true⟩])
  | made (k uid : Nat) (hr : Row g (k + 1) 1)
      (h : s = [.call (k + 1) [.op (.subscribe (k + 2) "a")], .loop ⟨0, some ("a", uid), some (k + 1), true, true⟩])
  | over (k uid : Nat) (hr : Row g (k + 2) 0)
      (h : s = [.call (k + 1) [], .loop ⟨0, some ("a", uid), some (k + 1), true, true⟩])

theorem Phase.nonempty {g : Wiring} {s : List Item} (h : Phase g s) : s ≠ [] := by
  cases h with
  | first k uid cur hr hcur h => rw [h]; simp
  | called k uid hr h => rw [h]; simp
  | made k uid hr h => rw [h]; simp
  | over k uid hr h => rw [h]; simp

theorem Phase.careful {g : Wiring} {m : Machine} (h : Phase g m.stack) : Careful g m := by
  unfold Careful
  cases h with
  | first k uid cur hr hcur h => rw [h]; trivial
  | called k uid hr h =>
    rw [h]
    refine ⟨?_, trivial⟩
    intro e he
    have := (hr.at_ _ _).1 he
    omega
  | made k uid hr h =>
    rw [h]
    exact ⟨⟨k + 2, (hr.at_ _ _).2 ⟨rfl, by omega⟩⟩, trivial⟩
  | over k uid hr h => rw [h]; trivial

theorem loop_alive {m : Machine} {g : Wiring} (S : Safe m.w g m.stack) {f : Frame} (hf : Item.loop f ∈ m.stack) :
    f.inner = true ∧ f.outer = true := ⟨(S.loops f hf).inner, (S.loops f hf).outer⟩

theorem Phase.next {m : Machine} {g : Wiring} (S : Safe m.w g m.stack) (h : Phase g m.stack) :
    ∃ m' g', Nested.next id breeder m = .running m' ∧ Trans id g m m' g' ∧ Safe m'.w g' m'.stack ∧ Phase g' m'.stack := by
  obtain ⟨m', g', h1, h2, h3⟩ := S.next (addr := id) (script := breeder) h.careful
  refine ⟨m', g', h1, h2, h3, ?_⟩
  cases h with
  | first k uid cur hr hcur h =>
    have hn := next_deliver (addr := id) (script := breeder) Function.injective_id S h (t := "a") (uid := uid) (x := k + 1)
      rfl ((hr.sub _ _).2 ⟨⟨by omega, le_rfl⟩, rfl⟩) (hr.signal _ (by omega))
      (by
        intro c hc
        rcases hcur with ⟨h1, h2⟩ | ⟨h1, h2⟩
        · rw [h1] at hc; cases hc
        · rw [h1] at hc; cases hc; exact Nat.lt_succ_self _)
      (by
        intro y hy hlt
        have hy' := (hr.sub _ _).1 hy
        rcases hcur with ⟨h1, h2⟩ | ⟨h1, h2⟩
        · show k + 1 ≤ y
          omega
        · have := hlt k h1
          exact this)
    have hg : g' = g := by
      cases h2 with
      | deliver f rest top p x => rfl
      | stop _ => rfl
      | topic f rest p => rfl
      | ret => rfl
      | pop => rfl
      | op x o acts rest w h' => rw [h] at h'; cases h'
      | emit => rfl
    rw [hn] at h1
    cases h1
    rw [hg]
    exact .called k uid hr rfl
  | called k uid hr h =>
    cases h2 with
    | stop h' => rw [h] at h'; cases h'
    | topic f rest p h' => rw [h] at h'; cases h'
    | ret f rest h' => rw [h] at h'; cases h'
    | deliver f rest top p x h' => rw [h] at h'; cases h'
    | pop x rest h' => rw [h] at h'; cases h'
    | emit x k acts rest e h' => rw [h] at h'; cases h'
    | op x o acts rest w h' =>
      rw [h] at h'
      cases h'
      refine .made k uid hr.newSlot ?_
      have hl := loop_alive h3 (f := Frame.check w ⟨0, some ("a", uid), some (k + 1), true, true⟩) (by simp [Item.check])
      simp only [List.map_cons, List.map_nil, Item.check]
      congr 2
      have e1 := check_emitter w ⟨0, some ("a", uid), some (k + 1), true, true⟩
      have e2 := check_pos w ⟨0, some ("a", uid), some (k + 1), true, true⟩
      have e3 := check_cur w ⟨0, some ("a", uid), some (k + 1), true, true⟩
      revert hl e1 e2 e3
      generalize Frame.check w ⟨0, some ("a", uid), some (k + 1), true, true⟩ = F
      rintro ⟨h1, h2⟩ e1 e2 e3
      cases F
      simp only at h1 h2 e1 e2 e3
      rw [h1, h2, e1, e2, e3]
  | made k uid hr h =>
    cases h2 with
    | stop h' => rw [h] at h'; cases h'
    | topic f rest p h' => rw [h] at h'; cases h'
    | ret f rest h' => rw [h] at h'; cases h'
    | deliver f rest top p x h' => rw [h] at h'; cases h'
    | pop x rest h' => rw [h] at h'; cases h'
    | emit x k acts rest e h' => rw [h] at h'; cases h'
    | op x o acts rest w h' =>
      rw [h] at h'
      cases h'
      refine .over k uid hr.subscribe ?_
      have hl := loop_alive h3 (f := Frame.check w ⟨0, some ("a", uid), some (k + 1), true, true⟩) (by simp [Item.check])
      simp only [List.map_cons, List.map_nil, Item.check]
      congr 2
      have e1 := check_emitter w ⟨0, some ("a", uid), some (k + 1), true, true⟩
      have e2 := check_pos w ⟨0, some ("a", uid), some (k + 1), true, true⟩
      have e3 := check_cur w ⟨0, some ("a", uid), some (k + 1), true, true⟩
      revert hl e1 e2 e3
      generalize Frame.check w ⟨0, some ("a", uid), some (k + 1), true, true⟩ = F
      rintro ⟨h1, h2⟩ e1 e2 e3
      cases F
      simp only at h1 h2 e1 e2 e3
      rw [h1, h2, e1, e2, e3]
  | over k uid hr h =>
    cases h2 with
    | stop h' => rw [h] at h'; cases h'
    | topic f rest p h' => rw [h] at h'; cases h'
    | ret f rest h' => rw [h] at h'; cases h'
    | deliver f rest top p x h' => rw [h] at h'; cases h'
    | op x o acts rest w h' => rw [h] at h'; cases h'
    | emit x k acts rest e h' => rw [h] at h'; cases h'
    | pop x rest h' =>
      rw [h] at h'
      cases h'
      exact .first (k + 1) uid (some (k + 1)) hr (.inr ⟨rfl, by omega⟩) rfl

/-- From such a state the emission never ends. -/
theorem Phase.endless {e : Nat} {g₀ : Wiring} {m₀ : Machine} (S : Safe m₀.w (g₀.run (opsOf m₀.log)) m₀.stack)
    (T : Told id g₀ e m₀) (h : Phase (g₀.run (opsOf m₀.log)) m₀.stack) : ∀ n, ∃ m, steps id breeder n m₀ = .running m ∧
      Safe m.w (g₀.run (opsOf m.log)) m.stack ∧ Told id g₀ e m ∧ Phase (g₀.run (opsOf m.log)) m.stack
  | 0 => ⟨m₀, rfl, S, T, h⟩
  | n + 1 => by
    obtain ⟨m, h1, S1, T1, h2⟩ := Phase.endless S T h n
    obtain ⟨m', g', h3, h4, S', h5⟩ := h2.next S1
    obtain ⟨T', hg'⟩ := T1.next Function.injective_id rfl h4
    refine ⟨m', by rw [steps_succ h1, h3], ?_, T', ?_⟩
    · rw [← hg']; exact S'
    · rw [← hg']; exact h5

end Ecl.SigSlots.Nested.Ends
