import Verif.Lemmas.SigSlots
import Mathlib.Tactic.ByContra

/-!
# Emission: helper lemmas
-/
set_option autoImplicit false
set_option linter.unusedSimpArgs false

namespace Ecl.SigSlots
open Ecl Ecl.Spec

theorem collect_ok {α : Type} (f : α → Outcome (List Nat)) (g : α → List Nat) (l : List α)
    (h : ∀ x ∈ l, f x = .ok (g x)) : collect f l = .ok (l.flatMap g) := by
  induction l with
  | nil => rfl
  | cons x l ih =>
    simp only [collect, h x (by simp), Outcome.bind_ok, ih (fun y hy => h y (by simp [hy])),
      List.flatMap_cons]

theorem collect_mem {α : Type} (f : α → Outcome (List Nat)) : ∀ (l : List α) (r : List Nat),
    collect f l = .ok r → (∀ x ∈ l, ∃ a, f x = .ok a) ∧
      ∀ y, y ∈ r ↔ ∃ x ∈ l, ∃ a, f x = .ok a ∧ y ∈ a := by
  intro l
  induction l with
  | nil => intro r h; simp only [collect, Outcome.ok.injEq] at h; subst h; simp
  | cons x l ih =>
    intro r h
    simp only [collect] at h
    cases hx : f x with
    | ok a =>
      rw [hx, Outcome.bind_ok] at h
      cases hl : collect f l with
      | ok b =>
        rw [hl, Outcome.bind_ok, Outcome.ok.injEq] at h
        obtain ⟨h1, h2⟩ := ih b hl
        subst h
        refine ⟨?_, ?_⟩
        · intro y hy
          rcases List.mem_cons.1 hy with rfl | hy
          · exact ⟨a, hx⟩
          · exact h1 y hy
        · intro y
          rw [List.mem_append, h2]
          constructor
          · rintro (h | ⟨z, hz, c, hc, hy⟩)
            · exact ⟨x, by simp, a, hx, h⟩
            · exact ⟨z, by simp [hz], c, hc, hy⟩
          · rintro ⟨z, hz, c, hc, hy⟩
            rcases List.mem_cons.1 hz with rfl | hz
            · rw [hx, Outcome.ok.injEq] at hc; subst hc; exact .inl hy
            · exact .inr ⟨z, hz, c, hc, hy⟩
      | throw _ => rw [hl] at h; simp at h
      | ub => rw [hl] at h; simp at h
    | throw _ => rw [hx] at h; simp at h
    | ub => rw [hx] at h; simp at h

theorem collect_all {α : Type} (f : α → Outcome (List Nat)) (l : List α)
    (h : ∀ x ∈ l, ∃ a, f x = .ok a) : ∃ r, collect f l = .ok r := by
  induction l with
  | nil => exact ⟨[], rfl⟩
  | cons x l ih =>
    obtain ⟨a, ha⟩ := h x (by simp)
    obtain ⟨b, hb⟩ := ih (fun y hy => h y (by simp [hy]))
    exact ⟨a ++ b, by simp only [collect, ha, hb, Outcome.bind_ok]⟩

variable {w : World} {g : Wiring}

theorem Rel.alive_of_sub (hR : Rel w g) {x : Nat} {t : String} (h : g.sub x t) : g.Alive x := by
  by_contra hc
  exact (hR.dead x hc t).2 h

theorem Rel.deref (hR : Rel w g) {e : Nat} {E : Endpoint} (hE : w.eps e = some E)
    {p : String × Nat} (hp : p ∈ E.publications) :
    ∃ T, w.topics p.1 = some T ∧ SigSlots.deref w p = .ok T.subs := by
  obtain ⟨-, -, -, -, -, -, h⟩ := hR.ep e E hE
  obtain ⟨T, hT, hu⟩ := h p hp
  exact ⟨T, hT, by simp only [SigSlots.deref, hT, hu, if_true]⟩

/-- No relay among the direct subscribers: the exact list of calls. -/
theorem Rel.emit_direct (hR : Rel w g) {e : Nat} (ha : g.Alive e)
    (hn : ∀ x, g.Edge e x → g.signal x = false) (n : Nat) :
    ∃ (evs : List Nat) (ts : List String), SigSlots.emit w (n + 1) e = .ok evs ∧ ts.Nodup ∧ (∀ t, t ∈ ts ↔ g.pub e t) ∧
      ∀ (x : Nat) (P : String → Bool), (∀ t, P t = true ↔ g.sub x t) → evs.count x = ts.countP P := by
  obtain ⟨E, hE⟩ := Option.isSome_iff_exists.1 ((hR.alive e).2 ha)
  obtain ⟨k1, k2, k3, k4, k5, k6, k7⟩ := hR.ep e E hE
  let subsOf : String × Nat → List Nat := fun p => ((w.topics p.1).map Topic.subs).getD []
  have hf : ∀ p ∈ E.publications, (do
      let subs ← SigSlots.deref w p
      collect (process w n) subs) = .ok (subsOf p) := by
    intro p hp
    obtain ⟨T, hT, hd⟩ := hR.deref hE hp
    have hpub : g.pub e p.1 := (k6 p.1).1 (List.mem_map_of_mem hp)
    have hproc : ∀ x ∈ T.subs, process w n x = .ok [x] := by
      intro x hx
      have hsub : g.sub x p.1 := ((hR.topic _ T hT).2.2.2.1 x).1 hx
      obtain ⟨X, hX⟩ := Option.isSome_iff_exists.1 ((hR.alive x).2 (hR.alive_of_sub hsub))
      have hrel := (hR.ep x X hX).1
      rw [hn x ⟨p.1, hpub, hsub⟩] at hrel
      unfold process
      simp only [hX, hrel, Bool.false_eq_true, if_false]
    rw [hd, Outcome.bind_ok, collect_ok _ (fun x => [x]) _ hproc]
    simp [subsOf, hT]
  refine ⟨E.publications.flatMap subsOf, E.publications.map Prod.fst, ?_, k5, k6, ?_⟩
  · unfold emit
    simp only [hE]
    exact collect_ok _ _ _ hf
  · intro x P hP
    rw [List.count_flatMap, List.countP_map]
    have hpt : ∀ p ∈ E.publications, (subsOf p).count x = if P p.1 = true then 1 else 0 := by
      intro p hp
      obtain ⟨T, hT, -⟩ := hR.deref hE hp
      obtain ⟨-, hnd, -, hs, -⟩ := hR.topic _ T hT
      have : subsOf p = T.subs := by simp [subsOf, hT]
      rw [this]
      by_cases hx : x ∈ T.subs
      · rw [List.count_eq_one_of_mem hnd hx, if_pos ((hP _).2 ((hs x).1 hx))]
      · rw [List.count_eq_zero.2 hx, if_neg (fun h => hx ((hs x).2 ((hP _).1 h)))]
    clear hf k5 k6 k7 hE
    generalize E.publications = l at hpt
    induction l with
    | nil => rfl
    | cons p ps ih =>
      rw [List.map_cons, List.sum_cons, ih (fun q hq => hpt q (by simp [hq])), List.countP_cons]
      have := hpt p (by simp)
      simp only [Function.comp] at this ⊢
      rw [this]
      omega

/-- Whatever an emission that ends has called is what can be reached. -/
theorem Rel.emit_reach (hR : Rel w g) : ∀ (n e : Nat) (evs : List Nat),
    SigSlots.emit w n e = .ok evs → ∀ x, x ∈ evs ↔ g.Reach e x := by
  intro n
  induction n with
  | zero => intro e evs h; unfold emit at h; cases h
  | succ n ih =>
    intro e evs h x
    unfold emit at h
    cases hE : w.eps e with
    | none => simp [hE] at h
    | some E =>
      simp only [hE] at h
      obtain ⟨k1, k2, k3, k4, k5, k6, k7⟩ := hR.ep e E hE
      obtain ⟨h1, h2⟩ := collect_mem _ _ _ h
      -- the calls made for one publication
      have hpub : ∀ p ∈ E.publications, ∀ a, (do
          let subs ← SigSlots.deref w p
          collect (process w n) subs) = .ok a →
          ∀ y, y ∈ a ↔ ∃ s, g.sub s p.1 ∧ (y = s ∨ (g.signal s = true ∧ g.Reach s y)) := by
        intro p hp a ha y
        obtain ⟨T, hT, hd⟩ := hR.deref hE hp
        rw [hd, Outcome.bind_ok] at ha
        obtain ⟨c1, c2⟩ := collect_mem _ _ _ ha
        have hs := (hR.topic _ T hT).2.2.2.1
        have hproc : ∀ s ∈ T.subs, ∀ b, process w n s = .ok b →
            (y ∈ b ↔ (y = s ∨ (g.signal s = true ∧ g.Reach s y))) := by
          intro s hsm b hb
          obtain ⟨X, hX⟩ := Option.isSome_iff_exists.1
            ((hR.alive s).2 (hR.alive_of_sub ((hs s).1 hsm)))
          have hrel := (hR.ep s X hX).1
          unfold process at hb
          simp only [hX, hrel] at hb
          by_cases hsig : g.signal s = true
          · simp only [hsig, if_true] at hb
            cases hem : SigSlots.emit w n s with
            | ok r =>
              rw [hem, Outcome.bind_ok, Outcome.ok.injEq] at hb
              subst hb
              rw [List.mem_cons, ih s r hem]
              simp [hsig]
            | throw _ => rw [hem] at hb; simp at hb
            | ub => rw [hem] at hb; simp at hb
          · rw [if_neg hsig, Outcome.ok.injEq] at hb
            subst hb
            simp [hsig]
        rw [c2]
        constructor
        · rintro ⟨s, hsm, b, hb, hy⟩
          exact ⟨s, (hs s).1 hsm, (hproc s hsm b hb).1 hy⟩
        · rintro ⟨s, hsm, hy⟩
          have hsm := (hs s).2 hsm
          obtain ⟨b, hb⟩ := c1 s hsm
          exact ⟨s, hsm, b, hb, (hproc s hsm b hb).2 hy⟩
      rw [h2]
      constructor
      · rintro ⟨p, hp, a, ha, hx⟩
        have hpt : g.pub e p.1 := (k6 p.1).1 (List.mem_map_of_mem hp)
        obtain ⟨s, hs, hy⟩ := (hpub p hp a ha x).1 hx
        rcases hy with rfl | ⟨hsig, hr⟩
        · exact .direct ⟨p.1, hpt, hs⟩
        · exact .relay ⟨p.1, hpt, hs⟩ hsig hr
      · intro hr
        have key : ∀ s, g.Edge e s → (x = s ∨ (g.signal s = true ∧ g.Reach s x)) →
            ∃ x_1 ∈ E.publications, ∃ a, (do
              let subs ← SigSlots.deref w x_1
              collect (process w n) subs) = .ok a ∧ x ∈ a := by
          rintro s ⟨t, hp, hs⟩ hy
          obtain ⟨p, hpm, rfl⟩ := List.mem_map.1 ((k6 t).2 hp)
          obtain ⟨a, ha⟩ := h1 p hpm
          exact ⟨p, hpm, a, ha, (hpub p hpm a ha x).2 ⟨s, hs, hy⟩⟩
        cases hr with
        | direct h => exact key x h (.inl rfl)
        | relay h hsig hr => exact key _ h (.inr ⟨hsig, hr⟩)

/-- Without cycles of relays an emission ends. -/
theorem Rel.emit_ends (hR : Rel w g) (rank : Nat → Nat)
    (hrank : ∀ a b, g.Edge a b → g.signal b = true → rank b < rank a) :
    ∀ (n e : Nat), g.Alive e → rank e < n → ∃ evs, SigSlots.emit w n e = .ok evs := by
  intro n
  induction n with
  | zero => intro e _ h; omega
  | succ n ih =>
    intro e ha hn
    obtain ⟨E, hE⟩ := Option.isSome_iff_exists.1 ((hR.alive e).2 ha)
    obtain ⟨k1, k2, k3, k4, k5, k6, k7⟩ := hR.ep e E hE
    unfold emit
    simp only [hE]
    refine collect_all _ _ ?_
    intro p hp
    obtain ⟨T, hT, hd⟩ := hR.deref hE hp
    have hpub : g.pub e p.1 := (k6 p.1).1 (List.mem_map_of_mem hp)
    rw [hd, Outcome.bind_ok]
    refine collect_all _ _ ?_
    intro s hs
    have hsub : g.sub s p.1 := ((hR.topic _ T hT).2.2.2.1 s).1 hs
    have hal := hR.alive_of_sub hsub
    obtain ⟨X, hX⟩ := Option.isSome_iff_exists.1 ((hR.alive s).2 hal)
    have hrel := (hR.ep s X hX).1
    unfold process
    simp only [hX, hrel]
    by_cases hsig : g.signal s = true
    · obtain ⟨r, hr⟩ := ih s hal (by have := hrank e s ⟨p.1, hpub, hsub⟩ hsig; omega)
      exact ⟨s :: r, by simp only [hsig, if_true, hr, Outcome.bind_ok]⟩
    · exact ⟨[s], by simp only [hsig, if_false, Bool.false_eq_true]⟩

/-- A cycle of relays exhausts any stack. -/
theorem Rel.emit_cycle (hR : Rel w g) (C : Nat → Prop)
    (hC : ∀ a, C a → ∃ b, g.Edge a b ∧ g.signal b = true ∧ C b) :
    ∀ (n e : Nat), C e → ∀ evs, SigSlots.emit w n e ≠ .ok evs := by
  intro n
  induction n with
  | zero => intro e _ evs h; unfold emit at h; cases h
  | succ n ih =>
    intro e he evs h
    unfold emit at h
    cases hE : w.eps e with
    | none => simp [hE] at h
    | some E =>
      simp only [hE] at h
      obtain ⟨k1, k2, k3, k4, k5, k6, k7⟩ := hR.ep e E hE
      obtain ⟨s, ⟨t, hp, hs⟩, hsig, hCs⟩ := hC e he
      obtain ⟨p, hpm, rfl⟩ := List.mem_map.1 ((k6 t).2 hp)
      obtain ⟨a, ha⟩ := (collect_mem _ _ _ h).1 p hpm
      obtain ⟨T, hT, hd⟩ := hR.deref hE hpm
      rw [hd, Outcome.bind_ok] at ha
      obtain ⟨b, hb⟩ := (collect_mem _ _ _ ha).1 s (((hR.topic _ T hT).2.2.2.1 s).2 hs)
      obtain ⟨X, hX⟩ := Option.isSome_iff_exists.1 ((hR.alive s).2 (hR.alive_of_sub hs))
      have hrel := (hR.ep s X hX).1
      unfold process at hb
      simp only [hX, hrel, hsig, if_true] at hb
      cases hem : SigSlots.emit w n s with
      | ok r => exact ih s hCs r hem
      | throw _ => rw [hem] at hb; simp at hb
      | ub => rw [hem] at hb; simp at hb

end Ecl.SigSlots
