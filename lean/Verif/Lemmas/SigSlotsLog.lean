import Verif.Lemmas.SigSlotsDelivery

/-! # What the log of a careful program says -/
set_option autoImplicit false
set_option linter.unusedSimpArgs false

namespace Ecl.SigSlots.Nested
open Ecl.Spec Ecl.SigSlots

theorem opsOf_append (a b : List Event) : opsOf (a ++ b) = opsOf a ++ opsOf b := by
  induction a with
  | nil => rfl
  | cons x a ih => cases x <;> simp [opsOf, ih]

theorem deliveries_append (a b : List Event) : deliveries (a ++ b) = deliveries a ++ deliveries b := by
  induction a with
  | nil => rfl
  | cons x a ih =>
    cases x with
    | did o => simp [deliveries, ih]
    | called d e t x => cases d <;> simp [deliveries, ih]

theorem run_append (g : Wiring) (a b : List Op) : g.run (a ++ b) = (g.run a).run b := by
  induction a generalizing g with
  | nil => rfl
  | cons o a ih => exact ih (g.after o)

theorem throughout_mono {g : Wiring} {l l' : List Event} {e : Nat} {t : String} {x : Nat}
    (h : Throughout g (l ++ l') e t x) : Throughout g l e t x := by
  intro k
  have := h (min k l.length)
  rwa [List.take_append_of_le_length (Nat.min_le_right _ _), ← List.take_eq_take_min] at this

theorem throughout_now {g : Wiring} {l : List Event} {e : Nat} {t : String} {x : Nat}
    (h : Throughout g l e t x) : (g.run (opsOf l)).pub e t ∧ (g.run (opsOf l)).sub x t := by
  have := h l.length
  rwa [List.take_length] at this

/-- The outermost emission. -/
def bottom (s : List Item) : Option Frame :=
  match s.getLast? with
  | some (.loop f) => some f
  | _ => none

theorem bottom_cons (i : Item) {rest : List Item} (h : rest ≠ []) : bottom (i :: rest) = bottom rest := by
  unfold bottom
  rw [List.getLast?_cons_of_ne_nil h]

theorem bottom_append (top : List Item) {rest : List Item} (h : rest ≠ []) : bottom (top ++ rest) = bottom rest := by
  induction top with
  | nil => rfl
  | cons i top ih => rw [List.cons_append, bottom_cons _ (by simp [h]), ih]

theorem bottom_check (w : World) (s : List Item) : bottom (s.map (Item.check w)) = (bottom s).map (Frame.check w) := by
  unfold bottom
  rw [List.getLast?_map]
  cases s.getLast? with
  | none => rfl
  | some i => cases i <;> rfl

/-- What the outermost emission has behind it. -/
def Past (addr : Nat → Nat) (b : Option Frame) (q : String × Nat) : Prop :=
  match b with
  | none => True
  | some f => ∃ p, f.pos = some p ∧ (q.1 < p.1 ∨ q.1 = p.1 ∧ ∃ c, f.cur = some c ∧ addr q.2 ≤ addr c)

structure Told (addr : Nat → Nat) (g : Wiring) (e : Nat) (m : Machine) : Prop where
  bot : m.stack ≠ [] → ∃ f, bottom m.stack = some f ∧ f.emitter = e
  past : ∀ q ∈ deliveries m.log, Past addr (bottom m.stack) q
  nodup : (deliveries m.log).Nodup
  all : ∀ q, Throughout g m.log e q.1 q.2 → Past addr (bottom m.stack) q → q ∈ deliveries m.log
  when : ∀ l₁ d e' t x l₂, m.log = l₁ ++ .called d e' t x :: l₂ →
    (g.run (opsOf l₁)).pub e' t ∧ (g.run (opsOf l₁)).sub x t

theorem Told.same {addr : Nat → Nat} {g : Wiring} {e : Nat} {m m' : Machine} (T : Told addr g e m)
    (hne : m.stack ≠ []) (hlog : m'.log = m.log) (hb : bottom m'.stack = bottom m.stack) : Told addr g e m' := by
  refine ⟨fun _ => ?_, ?_, ?_, ?_, ?_⟩
  · rw [hb]; exact T.bot hne
  · rw [hb, hlog]; exact T.past
  · rw [hlog]; exact T.nodup
  · rw [hb, hlog]; exact T.all
  · rw [hlog]; exact T.when

theorem Told.next {addr : Nat → Nat} (hinj : Function.Injective addr) {g₀ g g' : Wiring} {e : Nat} {m m' : Machine}
    (T : Told addr g₀ e m) (hg : g = g₀.run (opsOf m.log)) (h : Trans addr g m m' g') :
    Told addr g₀ e m' ∧ g' = g₀.run (opsOf m'.log) := by
  cases h with
  | stop _ => exact ⟨T, hg⟩
  | topic f rest p h hi hp hlt hmin =>
    refine ⟨?_, hg⟩
    by_cases hr : rest = []
    · subst hr
      have hb : bottom m.stack = some f := by rw [h]; rfl
      obtain ⟨f', hf', he⟩ := T.bot (by rw [h]; simp)
      rw [hb] at hf'
      cases hf'
      have past := T.past
      have all := T.all
      rw [hb] at past all
      refine ⟨fun _ => ⟨_, rfl, he⟩, ?_, T.nodup, ?_, T.when⟩
      · intro q hq
        obtain ⟨r, hr, hqr⟩ := past q hq
        refine ⟨p, rfl, .inl ?_⟩
        rcases hqr with hqr | ⟨hqr, -⟩
        · exact lt_trans hqr (hlt r hr)
        · rw [hqr]; exact hlt r hr
      · intro q hq hpast
        obtain ⟨r, hr, hqr⟩ := hpast
        cases hr
        refine all q hq ?_
        have hqt : q.1 < p.1 := by
          rcases hqr with hqr | ⟨-, c, hc, -⟩
          · exact hqr
          · cases hc
        obtain ⟨n1, n2⟩ := throughout_now hq
        rw [← hg] at n1 n2
        cases hpos : f.pos with
        | none =>
          rw [← he] at n1
          exact absurd (hmin q.1 n1 (by rw [hpos]; simp)) (not_le.2 hqt)
        | some r =>
          refine ⟨r, hpos, ?_⟩
          rcases lt_trichotomy q.1 r.1 with hlt' | heq | hgt
          · exact .inl hlt'
          · exact .inr ⟨heq, hi r hpos q.2 (by rw [← heq]; exact n2)⟩
          · exfalso
            rw [← he] at n1
            refine absurd (hmin q.1 n1 ?_) (not_le.2 hqt)
            intro r' hr'
            rw [hpos] at hr'
            cases hr'
            exact hgt
    · refine T.same (by rw [h]; simp) rfl ?_
      rw [h, bottom_cons _ hr, bottom_cons _ hr]
  | ret f rest h hi ho =>
    refine ⟨?_, hg⟩
    by_cases hr : rest = []
    · subst hr
      have hb : bottom m.stack = some f := by rw [h]; rfl
      obtain ⟨f', hf', he⟩ := T.bot (by rw [h]; simp)
      rw [hb] at hf'
      cases hf'
      have all := T.all
      rw [hb] at all
      refine ⟨fun hc => absurd rfl hc, fun q _ => trivial, T.nodup, ?_, T.when⟩
      intro q hq _
      refine all q hq ?_
      obtain ⟨n1, n2⟩ := throughout_now hq
      rw [← hg] at n1 n2
      rw [← he] at n1
      obtain ⟨r, hr, hle⟩ := ho q.1 n1
      refine ⟨r, hr, ?_⟩
      rcases lt_or_eq_of_le hle with hlt | heq
      · exact .inl hlt
      · exact .inr ⟨heq, hi r hr q.2 (by rw [← heq]; exact n2)⟩
    · refine T.same (by rw [h]; simp) rfl ?_
      rw [h, bottom_cons _ hr]
  | deliver f rest top p x h hpos hp hs hlt hmin =>
    have hwhen : ∀ l₁ d e' t y l₂, m.log ++ [.called rest.length f.emitter p.1 x] = l₁ ++ .called d e' t y :: l₂ →
        (g₀.run (opsOf l₁)).pub e' t ∧ (g₀.run (opsOf l₁)).sub y t := by
      intro l₁ d e' t y l₂ heq
      rcases List.eq_nil_or_concat l₂ with rfl | ⟨l₂', z, rfl⟩
      · have heq' : m.log ++ [.called rest.length f.emitter p.1 x] = l₁ ++ [.called d e' t y] := heq
        obtain ⟨h1, h2⟩ := List.append_inj' heq' rfl
        cases h2
        rw [← h1, ← hg]
        exact ⟨hp, hs⟩
      · have heq' : m.log ++ [.called rest.length f.emitter p.1 x] = (l₁ ++ .called d e' t y :: l₂') ++ [z] := by
          rw [heq]; simp
        obtain ⟨h1, -⟩ := List.append_inj' heq' rfl
        exact T.when l₁ d e' t y l₂' h1
    have hgo : g = g₀.run (opsOf (m.log ++ [.called rest.length f.emitter p.1 x])) := by
      rw [opsOf_append]
      simpa [opsOf] using hg
    refine ⟨?_, hgo⟩
    by_cases hr : rest = []
    · subst hr
      have hb : bottom m.stack = some f := by rw [h]; rfl
      obtain ⟨f', hf', he⟩ := T.bot (by rw [h]; simp)
      rw [hb] at hf'
      cases hf'
      have past := T.past
      have all := T.all
      rw [hb] at past all
      have hb' : bottom (top ++ [.loop ⟨f.emitter, some p, some x, f.outer, f.inner⟩]) =
          some ⟨f.emitter, some p, some x, f.outer, f.inner⟩ := by
        rw [bottom_append _ (by simp)]; rfl
      have hd : deliveries (m.log ++ [.called ([] : List Item).length f.emitter p.1 x]) =
          deliveries m.log ++ [(p.1, x)] := by
        rw [deliveries_append]; rfl
      refine ⟨fun _ => ⟨_, hb', he⟩, ?_, ?_, ?_, hwhen⟩
      · show ∀ q ∈ deliveries (m.log ++ [.called ([] : List Item).length f.emitter p.1 x]),
          Past addr (bottom (top ++ [.loop ⟨f.emitter, some p, some x, f.outer, f.inner⟩])) q
        rw [hb', hd]
        intro q hq
        refine ⟨p, rfl, ?_⟩
        rcases List.mem_append.1 hq with hq | hq
        · obtain ⟨r, hr, hqr⟩ := past q hq
          rw [hpos] at hr
          cases hr
          rcases hqr with hqr | ⟨hqr, c, hc, hle⟩
          · exact .inl hqr
          · exact .inr ⟨hqr, x, rfl, le_trans hle (le_of_lt (hlt c hc))⟩
        · simp only [List.mem_singleton] at hq
          subst hq
          exact .inr ⟨rfl, x, rfl, le_refl _⟩
      · show (deliveries (m.log ++ [.called ([] : List Item).length f.emitter p.1 x])).Nodup
        rw [hd]
        refine List.Nodup.append T.nodup (by simp) ?_
        intro q hq hq'
        simp only [List.mem_singleton] at hq'
        subst hq'
        obtain ⟨r, hr, hqr⟩ := past _ hq
        rw [hpos] at hr
        cases hr
        rcases hqr with hqr | ⟨-, c, hc, hle⟩
        · exact lt_irrefl _ hqr
        · exact absurd hle (not_le.2 (hlt c hc))
      · show ∀ q : String × Nat, Throughout g₀ (m.log ++ [.called ([] : List Item).length f.emitter p.1 x]) e q.1 q.2 →
          Past addr (bottom (top ++ [.loop ⟨f.emitter, some p, some x, f.outer, f.inner⟩])) q →
          q ∈ deliveries (m.log ++ [.called ([] : List Item).length f.emitter p.1 x])
        rw [hb', hd]
        intro q hq hpast
        have hq := throughout_mono hq
        obtain ⟨r, hr, hqr⟩ := hpast
        cases hr
        rw [List.mem_append]
        by_cases hold : Past addr (some f) q
        · exact .inl (all q hq hold)
        · right
          rcases hqr with hqr | ⟨hqr, c, hc, hle⟩
          · exact absurd ⟨p, hpos, .inl hqr⟩ hold
          · cases hc
            obtain ⟨-, n2⟩ := throughout_now hq
            rw [← hg, hqr] at n2
            have hge := hmin q.2 n2 (by
              intro c hc
              by_contra hcon
              exact hold ⟨p, hpos, .inr ⟨hqr, c, hc, not_lt.1 hcon⟩⟩)
            have hx : q.2 = x := hinj (le_antisymm hle hge)
            simp [← hqr, ← hx]
    · have hb : bottom (top ++ .loop ⟨f.emitter, some p, some x, f.outer, f.inner⟩ :: rest) = bottom m.stack := by
        rw [bottom_append _ (by simp), bottom_cons _ hr, h, bottom_cons _ hr]
      have hd : deliveries (m.log ++ [.called rest.length f.emitter p.1 x]) = deliveries m.log := by
        rw [deliveries_append]
        obtain ⟨i, r, rfl⟩ := List.exists_cons_of_ne_nil hr
        simp [deliveries]
      have hne : m.stack ≠ [] := by rw [h]; simp
      refine ⟨fun _ => ?_, ?_, ?_, ?_, hwhen⟩
      · obtain ⟨b, h1, h2⟩ := T.bot hne
        exact ⟨b, by rw [← h1]; exact hb, h2⟩
      · show ∀ q ∈ deliveries (m.log ++ [.called rest.length f.emitter p.1 x]), Past addr (bottom (top ++ _)) q
        rw [hb, hd]
        exact T.past
      · show (deliveries (m.log ++ [.called rest.length f.emitter p.1 x])).Nodup
        rw [hd]
        exact T.nodup
      · show ∀ q : String × Nat, Throughout g₀ (m.log ++ [.called rest.length f.emitter p.1 x]) e q.1 q.2 →
          Past addr (bottom (top ++ _)) q → q ∈ deliveries (m.log ++ [.called rest.length f.emitter p.1 x])
        rw [hb, hd]
        exact fun q hq => T.all q (throughout_mono hq)
  | pop x rest h hr =>
    refine ⟨?_, hg⟩
    refine T.same (by rw [h]; simp) rfl ?_
    rw [h, bottom_cons _ hr]
  | op x o acts rest w h hr =>
    have hb : bottom ((.call x acts :: rest).map (Item.check w)) = (bottom m.stack).map (Frame.check w) := by
      rw [bottom_check, bottom_cons _ hr, h, bottom_cons _ hr]
    have hpast : ∀ q, Past addr ((bottom m.stack).map (Frame.check w)) q ↔ Past addr (bottom m.stack) q := by
      intro q
      cases bottom m.stack with
      | none => exact Iff.rfl
      | some f =>
        unfold Past
        simp only [Option.map_some]
        rw [check_pos, check_cur]
    have hne : m.stack ≠ [] := by rw [h]; simp
    have hd : deliveries (m.log ++ [.did o]) = deliveries m.log := by
      rw [deliveries_append]; simp [deliveries]
    refine ⟨⟨fun _ => ?_, ?_, ?_, ?_, ?_⟩, ?_⟩
    · obtain ⟨b, h1, h2⟩ := T.bot hne
      refine ⟨b.check w, ?_, by rw [check_emitter]; exact h2⟩
      show bottom ((.call x acts :: rest).map (Item.check w)) = _
      rw [hb, h1]
      rfl
    · show ∀ q ∈ deliveries (m.log ++ [.did o]), Past addr (bottom ((.call x acts :: rest).map (Item.check w))) q
      rw [hb, hd]
      exact fun q hq => (hpast q).2 (T.past q hq)
    · show (deliveries (m.log ++ [.did o])).Nodup
      rw [hd]
      exact T.nodup
    · show ∀ q : String × Nat, Throughout g₀ (m.log ++ [.did o]) e q.1 q.2 →
        Past addr (bottom ((.call x acts :: rest).map (Item.check w))) q → q ∈ deliveries (m.log ++ [.did o])
      rw [hb, hd]
      exact fun q hq hp => T.all q (throughout_mono hq) ((hpast q).1 hp)
    · intro l₁ d e' t y l₂ heq
      have heq : m.log ++ [.did o] = l₁ ++ .called d e' t y :: l₂ := heq
      rcases List.eq_nil_or_concat l₂ with rfl | ⟨l₂', z, rfl⟩
      · have heq' : m.log ++ [.did o] = l₁ ++ [.called d e' t y] := heq
        obtain ⟨-, h2⟩ := List.append_inj' heq' rfl
        cases h2
      · have heq' : m.log ++ [.did o] = (l₁ ++ .called d e' t y :: l₂') ++ [z] := by
          rw [heq]; simp
        obtain ⟨h1, -⟩ := List.append_inj' heq' rfl
        exact T.when l₁ d e' t y l₂' h1
    · show _ = g₀.run (opsOf (m.log ++ [.did o]))
      rw [opsOf_append, run_append, ← hg]
      rfl
  | emit x k acts rest e' h hr =>
    refine ⟨?_, hg⟩
    refine T.same (by rw [h]; simp) rfl ?_
    rw [h, bottom_cons _ hr, bottom_cons _ (by simp), bottom_cons _ hr]

/-- A program that stays careful. -/
theorem run_careful {addr : Nat → Nat} (hinj : Function.Injective addr) {script : Nat → List Act} {g₀ : Wiring}
    {e : Nat} : ∀ (n : Nat) (m : Machine), Safe m.w (g₀.run (opsOf m.log)) m.stack → Told addr g₀ e m →
    (∀ k m', steps addr script k m = .running m' → Careful (g₀.run (opsOf m'.log)) m') →
    ∃ m', steps addr script n m = .running m' ∧ Safe m'.w (g₀.run (opsOf m'.log)) m'.stack ∧ Told addr g₀ e m'
  | 0, m, S, T, _ => ⟨m, rfl, S, T⟩
  | n + 1, m, S, T, hc => by
    obtain ⟨m', g', h1, h2, h3⟩ := S.next (addr := addr) (script := script) (hc 0 m rfl)
    obtain ⟨T', hg'⟩ := T.next hinj rfl h2
    rw [hg'] at h3
    obtain ⟨m'', h4, h5⟩ := run_careful hinj n m' h3 T' (by
      intro k m2 hk
      refine hc (k + 1) m2 ?_
      unfold steps
      rw [h1]
      exact hk)
    refine ⟨m'', ?_, h5⟩
    unfold steps
    rw [h1]
    exact h4

/-- The beginning of an emission. -/
theorem begin_safe {w : World} {g : Wiring} (hR : Rel w g) {e : Nat} (he : g.Alive e) (addr : Nat → Nat) :
    Safe (begin w e).w (g.run (opsOf (begin w e).log)) (begin w e).stack ∧ Told addr g e (begin w e) := by
  refine ⟨⟨hR, ⟨.inl rfl, trivial⟩, ?_, ?_⟩, ⟨fun _ => ⟨.start e, rfl, rfl⟩, ?_, ?_, ?_, ?_⟩⟩
  · intro x hx
    rcases hx with ⟨as, hx⟩ | ⟨f, hx, hf⟩
    · simp [begin] at hx
    · simp only [begin, List.mem_singleton, Item.loop.injEq] at hx
      subst hx
      rw [← hf]
      exact he
  · intro f hf
    simp only [begin, List.mem_singleton, Item.loop.injEq] at hf
    subst hf
    exact ⟨rfl, rfl, by simp [Frame.start], by simp [Frame.start], by simp [Frame.start]⟩
  · intro q hq
    simp [begin, deliveries] at hq
  · simp [begin, deliveries]
  · intro q _ hp
    obtain ⟨p, hp, -⟩ := hp
    cases hp
  · intro l₁ d e' t x l₂ h
    simp [begin] at h

end Ecl.SigSlots.Nested

namespace Ecl.SigSlots.Nested

/-- A program at its end stays there. -/
theorem steps_end (addr : Nat → Nat) (script : Nat → List Act) {m : Machine} (h : m.stack = []) (n : Nat) :
    steps addr script n m = .running m := by
  induction n with
  | zero => rfl
  | succ n ih =>
    have : next addr script m = .running m := by unfold next; rw [h]
    rw [steps, this]
    exact ih

/-- The steps one by one. -/
theorem steps_all (addr : Nat → Nat) (script : Nat → List Act) (P : Machine → Prop) :
    ∀ (k : Nat) (m : Machine), (∃ m', steps addr script k m = .running m' ∧ m'.stack = []) →
    (∀ j ≤ k, ∀ m', steps addr script j m = .running m' → P m') → ∀ n m', steps addr script n m = .running m' → P m'
  | 0, m, ⟨m', h1, h2⟩, h, n, m'', hn => by
    cases h1
    rw [steps_end addr script h2] at hn
    cases hn
    exact h 0 (Nat.le_refl _) m rfl
  | k + 1, m, ⟨m', h1, h2⟩, h, n, m'', hn => by
    cases n with
    | zero => exact h 0 (Nat.zero_le _) m'' hn
    | succ n =>
      rw [steps] at h1 hn
      cases hx : next addr script m with
      | ub => rw [hx] at h1; cases h1
      | stuck => rw [hx] at h1; cases h1
      | running m₁ =>
        rw [hx] at h1 hn
        refine steps_all addr script P k m₁ ⟨m', h1, h2⟩ (fun j hj m₂ hm => ?_) n m'' hn
        refine h (j + 1) (Nat.succ_le_succ hj) m₂ ?_
        rw [steps, hx]
        exact hm

end Ecl.SigSlots.Nested
