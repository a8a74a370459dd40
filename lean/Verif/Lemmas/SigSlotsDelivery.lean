import Verif.Lemmas.SigSlotsNested

/-! # Careful programs run without undefined behaviour -/
set_option autoImplicit false
set_option linter.unusedSimpArgs false

namespace Ecl.SigSlots.Nested
open Ecl.Spec Ecl.SigSlots

/-- Every function on the stack was called by the emission below it, every emission but the outermost
by a function. -/
def Shape : List Item → Prop
  | [] => True
  | .loop _ :: rest => (rest = [] ∨ ∃ x acts r, rest = .call x acts :: r) ∧ Shape rest
  | .call x _ :: rest => (∃ f r, rest = .loop f :: r ∧ f.cur = some x) ∧ Shape rest

structure LoopOk (w : World) (g : Wiring) (f : Frame) : Prop where
  outer : f.outer = true
  inner : f.inner = true
  pos : f.cur ≠ none → f.pos ≠ none
  pub : ∀ p, f.pos = some p → ∃ E, w.eps f.emitter = some E ∧ p ∈ E.publications
  sub : ∀ p c, f.pos = some p → f.cur = some c → g.sub c p.1

structure Safe (w : World) (g : Wiring) (stack : List Item) : Prop where
  rel : Rel w g
  shape : Shape stack
  alive : ∀ x, Busy stack x → g.Alive x
  loops : ∀ f, Item.loop f ∈ stack → LoopOk w g f

theorem Shape.covered : ∀ {stack : List Item}, Shape stack → (∀ f r, stack ≠ .loop f :: r) →
    ∀ f, Item.loop f ∈ stack → ∀ c, f.cur = some c → Busy stack c
  | [], _, _ => by simp
  | .loop f :: r, _, h => absurd rfl (h f r)
  | .call x acts :: rest, hs, _ => by
    obtain ⟨⟨f0, r, rfl, hc⟩, hs'⟩ := hs
    intro f hf c hfc
    simp only [List.mem_cons, reduceCtorEq, false_or] at hf
    rcases hf with hf | hf
    · cases hf
      rw [hc] at hfc
      cases hfc
      exact .inl ⟨acts, by simp⟩
    · obtain ⟨h1, h2⟩ := hs'
      have hb : Busy r c := by
        refine Shape.covered h2 ?_ f hf c hfc
        intro f' r' h
        rcases h1 with h1 | ⟨y, as, r'', h1⟩
        · rw [h1] at hf; cases hf
        · rw [h1] at h; cases h
      rcases hb with ⟨as, hb⟩ | ⟨f', hb, he⟩
      · exact .inl ⟨as, by simp [hb]⟩
      · exact .inr ⟨f', by simp [hb], he⟩

/-- The steps of a careful program, in terms of its connections `g`. -/
inductive Trans (addr : Nat → Nat) (g : Wiring) (m : Machine) : Machine → Wiring → Prop
  | stop (h : m.stack = []) : Trans addr g m m g
  | topic (f : Frame) (rest : List Item) (p : String × Nat) (h : m.stack = .loop f :: rest)
      (hi : ∀ q, f.pos = some q → ∀ y, g.sub y q.1 → ∃ c, f.cur = some c ∧ addr y ≤ addr c)
      (hp : g.pub f.emitter p.1) (hlt : ∀ q, f.pos = some q → q.1 < p.1)
      (hmin : ∀ t, g.pub f.emitter t → (∀ q, f.pos = some q → q.1 < t) → p.1 ≤ t) :
      Trans addr g m { m with stack := .loop ⟨f.emitter, some p, none, true, true⟩ :: rest } g
  | ret (f : Frame) (rest : List Item) (h : m.stack = .loop f :: rest)
      (hi : ∀ q, f.pos = some q → ∀ y, g.sub y q.1 → ∃ c, f.cur = some c ∧ addr y ≤ addr c)
      (ho : ∀ t, g.pub f.emitter t → ∃ q, f.pos = some q ∧ t ≤ q.1) :
      Trans addr g m { m with stack := rest } g
  | deliver (f : Frame) (rest top : List Item) (p : String × Nat) (x : Nat) (h : m.stack = .loop f :: rest)
      (hpos : f.pos = some p) (hp : g.pub f.emitter p.1) (hs : g.sub x p.1)
      (hlt : ∀ c, f.cur = some c → addr c < addr x)
      (hmin : ∀ y, g.sub y p.1 → (∀ c, f.cur = some c → addr c < addr y) → addr x ≤ addr y) :
      Trans addr g m ⟨m.w, top ++ .loop ⟨f.emitter, some p, some x, f.outer, f.inner⟩ :: rest,
        m.log ++ [.called rest.length f.emitter p.1 x]⟩ g
  | pop (x : Nat) (rest : List Item) (h : m.stack = .call x [] :: rest) (hr : rest ≠ []) :
      Trans addr g m { m with stack := rest } g
  | op (x : Nat) (o : Op) (acts : List Act) (rest : List Item) (w : World)
      (h : m.stack = .call x (.op o :: acts) :: rest) (hr : rest ≠ []) :
      Trans addr g m ⟨w, (.call x acts :: rest).map (Item.check w), m.log ++ [.did o]⟩ (g.after o)
  | emit (x : Nat) (k : Nat) (acts : List Act) (rest : List Item) (e : Nat)
      (h : m.stack = .call x (.emit k :: acts) :: rest) (hr : rest ≠ []) :
      Trans addr g m { m with stack := .loop (.start e) :: .call x acts :: rest } g

theorem busy_mono {s s' : List Item} (h : ∀ i ∈ s, i ∈ s') {x : Nat} (hb : Busy s x) : Busy s' x := by
  rcases hb with ⟨as, hb⟩ | ⟨f, hb, he⟩
  · exact .inl ⟨as, h _ hb⟩
  · exact .inr ⟨f, h _ hb, he⟩

theorem find_pub {l : List (String × Nat)} {t : String} (h : t ∈ l.map Prod.fst) :
    ∃ p, l.find? (fun p => p.1 = t) = some p ∧ p ∈ l ∧ p.1 = t := by
  obtain ⟨q, hq, rfl⟩ := List.mem_map.1 h
  cases hf : l.find? (fun p => p.1 = q.1) with
  | none =>
    rw [List.find?_eq_none] at hf
    exact absurd (decide_eq_true rfl) (hf q hq)
  | some p => exact ⟨p, rfl, List.mem_of_find?_eq_some hf, by simpa using List.find?_some hf⟩

theorem Safe.nextTopic {addr : Nat → Nat} {m : Machine} {g : Wiring} (S : Safe m.w g m.stack)
    {f : Frame} {rest : List Item} (h : m.stack = .loop f :: rest)
    (hi : ∀ q, f.pos = some q → ∀ y, g.sub y q.1 → ∃ c, f.cur = some c ∧ addr y ≤ addr c) :
    ∃ m', Nested.nextTopic m f rest = .running m' ∧ Trans addr g m m' g ∧ Safe m'.w g m'.stack := by
  have hsh := S.shape
  rw [h] at hsh
  obtain ⟨hrest, hshr⟩ := hsh
  have hf : Item.loop f ∈ m.stack := by rw [h]; simp
  have L := S.loops f hf
  have hal : g.Alive f.emitter := S.alive _ (.inr ⟨f, hf, rfl⟩)
  obtain ⟨E, hE⟩ := Option.isSome_iff_exists.1 ((S.rel.alive _).2 hal)
  have hpub := (S.rel.ep _ E hE).2.2.2.2.2.1
  unfold Nested.nextTopic
  rw [if_pos L.outer, hE]
  simp only
  cases hk : nextKey (f.pos.map Prod.fst) (E.publications.map Prod.fst) with
  | none =>
    refine ⟨_, rfl, .ret f rest h hi ?_, S.rel, hshr, ?_, ?_⟩
    · intro t ht
      obtain ⟨c, hc, hle⟩ := nextKey_none hk t ((hpub t).2 ht)
      obtain ⟨q, hq, rfl⟩ := Option.map_eq_some_iff.1 hc
      exact ⟨q, hq, hle⟩
    · intro x hx
      exact S.alive x (busy_mono (fun i hi => by rw [h]; exact List.mem_cons_of_mem _ hi) hx)
    · intro f' hf'
      exact S.loops f' (by rw [h]; exact List.mem_cons_of_mem _ hf')
  | some t =>
    obtain ⟨h1, h2, h3⟩ := nextKey_some hk
    obtain ⟨p, hp1, hp2, hp3⟩ := find_pub h1
    subst hp3
    simp only [hp1]
    have hp : g.pub f.emitter p.1 := (hpub _).1 h1
    refine ⟨_, rfl, .topic f rest p h hi hp ?_ ?_, S.rel, ⟨hrest, hshr⟩, ?_, ?_⟩
    · intro q hq
      exact h2 _ (by rw [hq]; rfl)
    · intro t ht hlt
      refine h3 t ((hpub t).2 ht) ?_
      intro c hc
      obtain ⟨q, hq, rfl⟩ := Option.map_eq_some_iff.1 hc
      exact hlt q hq
    · intro x hx
      apply S.alive x
      rw [h]
      rcases hx with ⟨as, hb⟩ | ⟨f', hb, he⟩
      · simp only [List.mem_cons, reduceCtorEq, false_or] at hb
        exact .inl ⟨as, by simp [hb]⟩
      · simp only [List.mem_cons, Item.loop.injEq] at hb
        rcases hb with rfl | hb
        · exact .inr ⟨f, by simp, he⟩
        · exact .inr ⟨f', by simp [hb], he⟩
    · intro f' hf'
      simp only [List.mem_cons, Item.loop.injEq] at hf'
      rcases hf' with rfl | hf'
      · refine ⟨rfl, rfl, by simp, ?_, by simp⟩
        rintro q hq
        cases hq
        exact ⟨E, hE, hp2⟩
      · exact S.loops f' (by rw [h]; exact List.mem_cons_of_mem _ hf')

theorem Shape.check (w : World) : ∀ {s : List Item}, Shape s → Shape (s.map (Item.check w))
  | [], _ => trivial
  | .loop f :: rest, h => by
    refine ⟨?_, Shape.check w h.2⟩
    rcases h.1 with h | ⟨x, as, r, h⟩
    · left; rw [h]; rfl
    · right; rw [h]; exact ⟨x, as, r.map (Item.check w), rfl⟩
  | .call x as :: rest, h => by
    refine ⟨?_, Shape.check w h.2⟩
    obtain ⟨f, r, h, hc⟩ := h.1
    rw [h]
    refine ⟨f.check w, r.map (Item.check w), rfl, ?_⟩
    unfold Frame.check
    split
    · exact hc
    · exact hc

theorem check_emitter (w : World) (f : Frame) : (f.check w).emitter = f.emitter := by
  unfold Frame.check
  split <;> rfl

theorem check_pos (w : World) (f : Frame) : (f.check w).pos = f.pos := by
  unfold Frame.check
  split <;> rfl

theorem check_cur (w : World) (f : Frame) : (f.check w).cur = f.cur := by
  unfold Frame.check
  split <;> rfl

theorem busy_check (w : World) {s : List Item} {x : Nat} (h : Busy (s.map (Item.check w)) x) : Busy s x := by
  rcases h with ⟨as, h⟩ | ⟨f, h, he⟩
  · obtain ⟨i, hi, h⟩ := List.mem_map.1 h
    cases i with
    | loop f => cases h
    | call y bs => cases h; exact .inl ⟨_, hi⟩
  · obtain ⟨i, hi, h⟩ := List.mem_map.1 h
    cases i with
    | loop f' =>
      cases h
      exact .inr ⟨f', hi, by rw [← he, check_emitter]⟩
    | call y bs => cases h

/-- A careful program makes its next step, and stays safe. -/
theorem Safe.next {addr : Nat → Nat} {script : Nat → List Act} {m : Machine} {g : Wiring}
    (S : Safe m.w g m.stack) (hc : Careful g m) :
    ∃ m' g', Nested.next addr script m = .running m' ∧ Trans addr g m m' g' ∧ Safe m'.w g' m'.stack := by
  unfold Nested.next
  cases hst : m.stack with
  | nil => exact ⟨m, g, rfl, .stop hst, S⟩
  | cons i rest =>
    have hsh := S.shape
    rw [hst] at hsh
    cases i with
    | loop f =>
      have hf : Item.loop f ∈ m.stack := by rw [hst]; simp
      have L := S.loops f hf
      have hal : g.Alive f.emitter := S.alive _ (.inr ⟨f, hf, rfl⟩)
      simp only
      unfold loopStep
      cases hpos : f.pos with
      | none =>
        simp only
        obtain ⟨m', h1, h2, h3⟩ := S.nextTopic (addr := addr) hst (by rw [hpos]; simp)
        exact ⟨m', g, h1, h2, h3⟩
      | some p =>
        obtain ⟨t, uid⟩ := p
        simp only
        rw [if_pos L.inner]
        obtain ⟨E, hE, hp⟩ := L.pub _ hpos
        obtain ⟨-, -, -, -, -, hpub, htop⟩ := S.rel.ep _ E hE
        obtain ⟨T, hT, huid⟩ := htop _ hp
        simp only at hT huid
        rw [hT]
        simp only
        rw [if_pos huid]
        have hsub := (S.rel.topic t T hT).2.2.2.1
        cases hn : nextSub addr f.cur T.subs with
        | none =>
          simp only
          obtain ⟨m', h1, h2, h3⟩ := S.nextTopic (addr := addr) hst (by
            intro q hq y hy
            rw [hpos] at hq
            cases hq
            exact nextSub_none hn y ((hsub y).2 hy))
          exact ⟨m', g, h1, h2, h3⟩
        | some x =>
          obtain ⟨n1, n2, n3⟩ := nextSub_some hn
          have hx : g.sub x t := (hsub x).1 n1
          have hax : g.Alive x := by
            by_contra hna
            exact (S.rel.dead x hna t).2 hx
          obtain ⟨X, hX⟩ := Option.isSome_iff_exists.1 ((S.rel.alive _).2 hax)
          simp only [hX]
          refine ⟨_, g, rfl, .deliver f rest _ (t, uid) x hst hpos
            ((hpub t).1 (List.mem_map.2 ⟨_, hp, rfl⟩)) hx n2 (fun y hy => n3 y ((hsub y).2 hy)), S.rel, ?_, ?_, ?_⟩
          · have h0 : Shape (.loop ⟨f.emitter, some (t, uid), some x, f.outer, f.inner⟩ :: rest) := ⟨hsh.1, hsh.2⟩
            unfold onCall
            split
            · exact ⟨.inr ⟨x, [], _, rfl⟩, ⟨_, rest, rfl, rfl⟩, h0⟩
            · exact ⟨⟨_, rest, rfl, rfl⟩, h0⟩
          · intro y hy
            have hy' : y = x ∨ Busy m.stack y := by
              have hcases : ∀ i ∈ onCall script x X, (∃ as, i = .call x as) ∨ i = .loop (.start x) := by
                unfold onCall
                split <;> simp
              rcases hy with ⟨as, hb⟩ | ⟨f', hb, he⟩
              · rcases List.mem_append.1 hb with hb | hb
                · rcases hcases _ hb with ⟨as', h⟩ | h
                  · cases h; exact .inl rfl
                  · cases h
                · simp only [List.mem_cons, reduceCtorEq, false_or] at hb
                  exact .inr (.inl ⟨as, by rw [hst]; simp [hb]⟩)
              · rcases List.mem_append.1 hb with hb | hb
                · rcases hcases _ hb with ⟨as', h⟩ | h
                  · cases h
                  · cases h; exact .inl he.symm
                · simp only [List.mem_cons, Item.loop.injEq] at hb
                  rcases hb with rfl | hb
                  · exact .inr (.inr ⟨f, hf, he⟩)
                  · exact .inr (.inr ⟨f', by rw [hst]; simp [hb], he⟩)
            rcases hy' with rfl | hy'
            · exact hax
            · exact S.alive y hy'
          · intro f' hf'
            rcases List.mem_append.1 hf' with hf' | hf'
            · have : f' = .start x := by
                unfold onCall at hf'
                split at hf' <;> simpa using hf'
              subst this
              exact ⟨rfl, rfl, by simp [Frame.start], by simp [Frame.start], by simp [Frame.start]⟩
            · simp only [List.mem_cons, Item.loop.injEq] at hf'
              rcases hf' with rfl | hf'
              · refine ⟨L.outer, L.inner, by simp, ?_, ?_⟩
                · intro p h1
                  cases h1
                  exact ⟨E, hE, hp⟩
                intro p c h1 h2
                cases h1
                cases h2
                exact hx
              · exact S.loops f' (by rw [hst]; exact List.mem_cons_of_mem _ hf')
    | call x acts =>
      obtain ⟨⟨f0, r0, hrest, hcur⟩, hshr⟩ := hsh
      have hr : rest ≠ [] := by rw [hrest]; simp
      cases acts with
      | nil =>
        refine ⟨_, g, rfl, .pop x rest hst hr, S.rel, hshr, ?_, ?_⟩
        · intro y hy
          exact S.alive y (busy_mono (fun i hi => by rw [hst]; exact List.mem_cons_of_mem _ hi) hy)
        · intro f' hf'
          exact S.loops f' (by rw [hst]; exact List.mem_cons_of_mem _ hf')
      | cons a acts =>
        cases a with
        | emit k =>
          unfold Careful at hc
          rw [hst] at hc
          simp only at hc
          obtain ⟨e, he⟩ := hc
          obtain ⟨h1, E, hE⟩ := S.rel.at_handle he
          simp only [h1]
          refine ⟨_, g, rfl, .emit x k acts rest e hst hr, S.rel, ?_, ?_, ?_⟩
          · exact ⟨.inr ⟨x, acts, rest, rfl⟩, ⟨f0, r0, hrest, hcur⟩, hshr⟩
          · intro y hy
            rcases hy with ⟨as, hb⟩ | ⟨f', hb, he'⟩
            · simp only [List.mem_cons, reduceCtorEq, false_or, Item.call.injEq] at hb
              rcases hb with ⟨rfl, -⟩ | hb
              · exact S.alive y (.inl ⟨_, by rw [hst]; exact List.mem_cons_self⟩)
              · exact S.alive y (.inl ⟨as, by rw [hst]; simp [hb]⟩)
            · simp only [List.mem_cons, reduceCtorEq, false_or, Item.loop.injEq] at hb
              rcases hb with rfl | hb
              · rw [← he']; exact ⟨k, he⟩
              · exact S.alive y (.inr ⟨f', by rw [hst]; simp [hb], he'⟩)
          · intro f' hf'
            simp only [List.mem_cons, reduceCtorEq, false_or, Item.loop.injEq] at hf'
            rcases hf' with rfl | hf'
            · exact ⟨rfl, rfl, by simp [Frame.start], by simp [Frame.start], by simp [Frame.start]⟩
            · exact S.loops f' (by rw [hst]; simp [hf'])
        | op o =>
          unfold Careful at hc
          rw [hst] at hc
          simp only at hc
          obtain ⟨hl, hsp⟩ := hc
          rw [← hst] at hsp
          obtain ⟨w', hw', hR'⟩ := S.rel.step o hl
          have hB : ∀ y, Busy (Item.call x acts :: rest) y → Busy m.stack y := by
            intro y hy
            rw [hst]
            rcases hy with ⟨as, hb⟩ | ⟨f', hb, he'⟩
            · simp only [List.mem_cons, Item.call.injEq] at hb
              rcases hb with ⟨rfl, -⟩ | hb
              · exact .inl ⟨_, List.mem_cons_self⟩
              · exact .inl ⟨as, by simp [hb]⟩
            · simp only [List.mem_cons, reduceCtorEq, false_or] at hb
              exact .inr ⟨f', by simp [hb], he'⟩
          have hdel : (w'.deleted.any fun e => isRunning m.stack e) = false := by
            rw [List.any_eq_false]
            intro e he hrun
            have hna := ((hR'.deleted.2 e).1 he).2
            apply hna
            unfold isRunning at hrun
            obtain ⟨i, hi, h⟩ := List.any_eq_true.1 hrun
            cases i with
            | loop f => simp at h
            | call y as =>
              simp only [decide_eq_true_eq] at h
              subst h
              have hb : Busy m.stack y := .inl ⟨as, hi⟩
              exact alive_after hsp hb (S.alive y hb)
          have hdo : doOp m x o acts rest =
              .running ⟨w', (.call x acts :: rest).map (Item.check w'), m.log ++ [.did o]⟩ := by
            unfold doOp
            rw [hw']
            simp only
            rw [hdel]
            simp
          simp only
          rw [hdo]
          have hcov := Shape.covered (stack := m.stack) S.shape (by rw [hst]; simp)
          have hshape : Shape (.call x acts :: rest) := ⟨⟨f0, r0, hrest, hcur⟩, hshr⟩
          refine ⟨_, g.after o, rfl, .op x o acts rest w' hst hr, hR', hshape.check w', ?_, ?_⟩
          · intro y hy
            have hb := hB y (busy_check w' hy)
            exact alive_after hsp hb (S.alive y hb)
          · intro f' hf'
            obtain ⟨i, hi, h⟩ := List.mem_map.1 hf'
            cases i with
            | call y as => cases h
            | loop f =>
              cases h
              have hfm : Item.loop f ∈ m.stack := by
                rw [hst]
                simp only [List.mem_cons, reduceCtorEq, false_or] at hi
                simp [hi]
              have L := S.loops f hfm
              have hbe : Busy m.stack f.emitter := .inr ⟨f, hfm, rfl⟩
              have hpub' : ∀ p, f.pos = some p → ∃ E, w'.eps f.emitter = some E ∧ p ∈ E.publications := by
                intro p hp
                obtain ⟨E, hE, hpE⟩ := L.pub p hp
                exact keeps_publications S.rel hl hsp hw' hbe hE hpE
              have hsub' : ∀ p c, f.pos = some p → f.cur = some c → (g.after o).sub c p.1 := by
                intro p c hp hc
                have hb := hcov f hfm c hc
                exact sub_after hsp hb (S.alive c hb) (L.sub p c hp hc)
              refine ⟨?_, ?_, ?_, ?_, ?_⟩
              · unfold Frame.check
                cases hp : f.pos with
                | none => exact L.outer
                | some p =>
                  obtain ⟨E, hE, hpE⟩ := hpub' p hp
                  simp only [L.outer, hE, Bool.true_and, List.any_eq_true]
                  exact ⟨p, hpE, by simp⟩
              · unfold Frame.check
                cases hp : f.pos with
                | none => exact L.inner
                | some p =>
                  obtain ⟨E, hE, hpE⟩ := hpub' p hp
                  obtain ⟨T, hT, huid⟩ := (hR'.ep _ E hE).2.2.2.2.2.2 p hpE
                  simp only [L.inner, hT, huid, decide_true, Bool.true_and]
                  cases hc : f.cur with
                  | none => rfl
                  | some c =>
                    simp only [decide_eq_true_eq]
                    exact ((hR'.topic p.1 T hT).2.2.2.1 c).2 (hsub' p c hp hc)
              · rw [check_cur, check_pos]; exact L.pos
              · intro p hp
                rw [check_pos] at hp
                rw [check_emitter]
                exact hpub' p hp
              · intro p c hp hc
                rw [check_pos] at hp
                rw [check_cur] at hc
                exact hsub' p c hp hc

end Ecl.SigSlots.Nested
