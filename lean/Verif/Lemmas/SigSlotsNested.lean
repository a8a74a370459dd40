import Verif.Lemmas.SigSlots
import Verif.Spec.Delivery

/-! # Lemmas about deliveries while connections change -/
set_option autoImplicit false
set_option linter.unusedSimpArgs false

namespace Ecl.SigSlots.Nested
open Ecl.Spec Ecl.SigSlots

/-! ## What a call leaves alone -/

theorem alive_after {g : Wiring} {B : Nat → Prop} {o : Op} (hs : Spares g B o) {x : Nat} (hB : B x)
    (ha : g.Alive x) : (g.after o).Alive x := by
  obtain ⟨k, hk⟩ := ha
  cases o with
  | newSignal h => exact ⟨k, List.mem_append_left _ hk⟩
  | newSlot h => exact ⟨k, List.mem_append_left _ hk⟩
  | copy h k' => exact ⟨k, List.mem_append_left _ hk⟩
  | assign h k' => exact ⟨k, hk⟩
  | connect h t => exact ⟨k, hk⟩
  | subscribe h t => exact ⟨k, hk⟩
  | disconnect h => exact ⟨k, hk⟩
  | destroy h =>
    have : ∃ k, g.At k x ∧ k ≠ h := by
      by_contra hc
      push Not at hc
      have hkh := hc k hk
      subst hkh
      exact hs x hk hc hB
    obtain ⟨k, hk, hne⟩ := this
    exact ⟨k, List.mem_filter.2 ⟨hk, by simpa using hne⟩⟩

theorem sub_after {g : Wiring} {B : Nat → Prop} {o : Op} (hs : Spares g B o) {x : Nat} (hB : B x)
    (ha : g.Alive x) {t : String} (h : g.sub x t) : (g.after o).sub x t := by
  have hal := alive_after hs hB ha
  cases o with
  | subscribe h' t' => exact .inl h
  | disconnect h' => exact ⟨h, fun hat => hs x hat hB⟩
  | destroy h' => exact ⟨h, fun hn => hn hal⟩
  | _ => exact h

theorem pub_after {g : Wiring} {B : Nat → Prop} {o : Op} (hs : Spares g B o) {x : Nat} (hB : B x)
    (ha : g.Alive x) {t : String} (h : g.pub x t) : (g.after o).pub x t := by
  have hal := alive_after hs hB ha
  cases o with
  | connect h' t' => exact .inl h
  | disconnect h' => exact ⟨h, fun hat => hs x hat hB⟩
  | destroy h' => exact ⟨h, fun hn => hn hal⟩
  | _ => exact h

theorem disconnectTopic_eps {e : Nat} {w w' : World} {t : String} (h : disconnectTopic e w t = .ok w') :
    w'.eps = w.eps := by
  unfold disconnectTopic at h
  cases hT : w.topics t with
  | none => rw [hT] at h; cases h
  | some T =>
    rw [hT] at h
    simp only [Outcome.ok.injEq] at h
    rw [← h]

theorem disconnectList_eps {e : Nat} : ∀ {ts : List String} {w w' : World}, disconnectList e w ts = .ok w' →
    w'.eps = w.eps := by
  intro ts
  induction ts with
  | nil => intro w w' h; unfold disconnectList at h; cases h; rfl
  | cons t ts ih =>
    intro w w' h
    unfold disconnectList at h
    cases h1 : disconnectTopic e w t with
    | ok w1 =>
      rw [h1] at h
      exact (ih h).trans (disconnectTopic_eps h1)
    | throw f => rw [h1] at h; cases h
    | ub => rw [h1] at h; cases h

theorem disconnect_eps {w w' : World} {e : Nat} (h : disconnect w e = .ok w') {y : Nat} (hy : y ≠ e) :
    w'.eps y = w.eps y := by
  unfold disconnect at h
  cases hE : w.eps e with
  | none => rw [hE] at h; cases h
  | some E =>
    rw [hE] at h
    simp only at h
    cases h1 : disconnectList e w E.subscriptions with
    | throw f => rw [h1] at h; cases h
    | ub => rw [h1] at h; cases h
    | ok w1 =>
      rw [h1] at h
      simp only [Outcome.bind_ok] at h
      cases h2 : disconnectList e w1 (E.publications.map Prod.fst) with
      | throw f => rw [h2] at h; cases h
      | ub => rw [h2] at h; cases h
      | ok w2 =>
        rw [h2] at h
        simp only [Outcome.bind_ok, Outcome.ok.injEq] at h
        rw [← h]
        simp only [upd, if_neg hy]
        rw [disconnectList_eps h2, disconnectList_eps h1]

/-- A spared endpoint keeps its publications, with the same pointers. -/
theorem keeps_publications {w w' : World} {g : Wiring} (hR : Rel w g) {B : Nat → Prop} {o : Op}
    (hl : g.Legal o) (hs : Spares g B o) (h : step w o = .ok w') {e : Nat} (hB : B e) {E : Endpoint}
    (hE : w.eps e = some E) {p : String × Nat} (hp : p ∈ E.publications) :
    ∃ E', w'.eps e = some E' ∧ p ∈ E'.publications := by
  have hlt : e < w.nextEp := by
    have : g.Alive e := (hR.alive e).1 (by rw [hE]; rfl)
    obtain ⟨k, hk⟩ := this
    rw [hR.created]
    exact hR.bound _ hk
  cases o with
  | newSignal h' =>
    simp only [step, Outcome.ok.injEq] at h
    rw [← h]
    refine ⟨E, ?_, hp⟩
    simp only [create, upd, if_neg (Nat.ne_of_lt hlt), hE]
  | newSlot h' =>
    simp only [step, Outcome.ok.injEq] at h
    rw [← h]
    refine ⟨E, ?_, hp⟩
    simp only [create, upd, if_neg (Nat.ne_of_lt hlt), hE]
  | copy h' k =>
    obtain ⟨-, x, hx⟩ := hl
    obtain ⟨h1, X, hX⟩ := hR.at_handle hx
    simp only [step, copy, h1, hX, Outcome.ok.injEq] at h
    rw [← h]
    by_cases hex : e = x
    · subst hex
      rw [hE] at hX
      cases hX
      exact ⟨_, if_pos rfl, hp⟩
    · exact ⟨E, by simp only [upd, if_neg hex, hE], hp⟩
  | assign h' k =>
    obtain ⟨x, hx, hy⟩ := hl
    obtain ⟨h1, -⟩ := hR.at_handle hx
    obtain ⟨h2, -⟩ := hR.at_handle hy
    simp only [step, assign, h1, h2, Outcome.ok.injEq] at h
    rw [← h]
    exact ⟨E, hE, hp⟩
  | destroy h' =>
    obtain ⟨x, hx, -⟩ := hl
    obtain ⟨h1, X, hX⟩ := hR.at_handle hx
    simp only [step, destroy, h1, hX] at h
    by_cases hn : (if X.handles = 0 then 4294967295 else X.handles - 1) = 0
    · have hX1 : X.handles = 1 := by
        by_cases h0 : X.handles = 0
        · rw [if_pos h0] at hn; omega
        · rw [if_neg h0] at hn; omega
      have hex : e ≠ x := by
        rintro rfl
        refine hs e hx ?_ hB
        intro k hk
        by_contra hne
        have hc := (hR.ep e X hX).2.1
        rw [hX1] at hc
        have h2 : 2 ≤ g.handles.countP (fun p => p.2 = e) := by
          have hmem1 : (h', e) ∈ g.handles := hx
          have hmem2 : (k, e) ∈ g.handles := hk
          rw [List.countP_eq_length_filter]
          have hsub : [(h', e), (k, e)].Subperm (g.handles.filter (fun p => p.2 = e)) := by
            apply List.subperm_of_subset
            · simp [Ne.symm hne]
            · intro q hq
              simp only [List.mem_cons, List.not_mem_nil, or_false] at hq
              rcases hq with rfl | rfl
              · simp [hmem1]
              · simp [hmem2]
          exact hsub.length_le
        omega
      rw [if_pos hn] at h
      unfold delete at h
      cases hd : disconnect { w with
          handles := w.handles.filter fun p => p.1 ≠ h'
          eps := upd w.eps x (some { X with handles := if X.handles = 0 then 4294967295 else X.handles - 1 }) } x with
      | throw f => rw [hd] at h; cases h
      | ub => rw [hd] at h; cases h
      | ok w1 =>
        rw [hd] at h
        simp only [Outcome.bind_ok, Outcome.ok.injEq] at h
        rw [← h]
        refine ⟨E, ?_, hp⟩
        simp only [upd, if_neg hex]
        rw [disconnect_eps hd hex]
        simp only [upd, if_neg hex, hE]
    · rw [if_neg hn] at h
      simp only [Outcome.ok.injEq] at h
      rw [← h]
      by_cases hex : e = x
      · subst hex
        rw [hE] at hX
        cases hX
        exact ⟨_, if_pos rfl, hp⟩
      · exact ⟨E, by simp only [upd, if_neg hex, hE], hp⟩
  | connect h' t =>
    obtain ⟨x, hx⟩ := hl
    obtain ⟨h1, X, hX⟩ := hR.at_handle hx
    simp only [step, onHandle, h1, connectSignal, hX, Outcome.ok.injEq] at h
    rw [← h]
    by_cases hex : e = x
    · subst hex
      rw [hE] at hX
      cases hX
      refine ⟨_, if_pos rfl, ?_⟩
      simp only
      split
      · exact hp
      · exact List.mem_append_left _ hp
    · exact ⟨E, by simp only [upd, if_neg hex, hE], hp⟩
  | subscribe h' t =>
    obtain ⟨x, hx⟩ := hl
    obtain ⟨h1, X, hX⟩ := hR.at_handle hx
    simp only [step, onHandle, h1, connectSlot, hX] at h
    by_cases ht : t ∈ X.subscriptions
    · rw [if_pos ht] at h
      simp only [Outcome.ok.injEq] at h
      rw [← h]
      exact ⟨E, hE, hp⟩
    · rw [if_neg ht] at h
      simp only [Outcome.ok.injEq] at h
      rw [← h]
      by_cases hex : e = x
      · subst hex
        rw [hE] at hX
        cases hX
        exact ⟨_, if_pos rfl, hp⟩
      · exact ⟨E, by simp only [upd, if_neg hex, hE], hp⟩
  | disconnect h' =>
    obtain ⟨x, hx, -⟩ := hl
    obtain ⟨h1, X, hX⟩ := hR.at_handle hx
    simp only [step, onHandle, h1] at h
    have hex : e ≠ x := by rintro rfl; exact hs e hx hB
    exact ⟨E, by rw [disconnect_eps h hex, hE], hp⟩

/-! ## The next element -/

theorem nextSub_some {addr : Nat → Nat} {after : Option Nat} {l : List Nat} {x : Nat}
    (h : nextSub addr after l = some x) :
    x ∈ l ∧ (∀ c, after = some c → addr c < addr x) ∧
      ∀ y ∈ l, (∀ c, after = some c → addr c < addr y) → addr x ≤ addr y := by
  unfold nextSub at h
  have hm := List.argmin_mem h
  rw [List.mem_filter] at hm
  refine ⟨hm.1, ?_, ?_⟩
  · rintro c rfl
    simpa using hm.2
  · intro y hy hc
    refine List.le_of_mem_argmin ?_ h
    rw [List.mem_filter]
    refine ⟨hy, ?_⟩
    cases after with
    | none => rfl
    | some c => simpa using hc c rfl

theorem nextSub_none {addr : Nat → Nat} {after : Option Nat} {l : List Nat}
    (h : nextSub addr after l = none) : ∀ y ∈ l, ∃ c, after = some c ∧ addr y ≤ addr c := by
  unfold nextSub at h
  rw [List.argmin_eq_none, List.filter_eq_nil_iff] at h
  intro y hy
  have := h y hy
  cases after with
  | none => simp at this
  | some c => exact ⟨c, rfl, by simpa using this⟩

theorem nextKey_some {after : Option String} {l : List String} {x : String} (h : nextKey after l = some x) :
    x ∈ l ∧ (∀ c, after = some c → c < x) ∧ ∀ y ∈ l, (∀ c, after = some c → c < y) → x ≤ y := by
  unfold nextKey at h
  have hm := List.argmin_mem h
  rw [List.mem_filter] at hm
  refine ⟨hm.1, ?_, ?_⟩
  · rintro c rfl
    simpa using hm.2
  · intro y hy hc
    refine List.le_of_mem_argmin (f := id) ?_ h
    rw [List.mem_filter]
    refine ⟨hy, ?_⟩
    cases after with
    | none => rfl
    | some c => simpa using hc c rfl

theorem nextKey_none {after : Option String} {l : List String} (h : nextKey after l = none) :
    ∀ y ∈ l, ∃ c, after = some c ∧ y ≤ c := by
  unfold nextKey at h
  rw [List.argmin_eq_none, List.filter_eq_nil_iff] at h
  intro y hy
  have := h y hy
  cases after with
  | none => simp at this
  | some c => exact ⟨c, rfl, not_lt.1 fun hlt => this (decide_eq_true hlt)⟩

end Ecl.SigSlots.Nested
