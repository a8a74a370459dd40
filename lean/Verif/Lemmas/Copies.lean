import Verif.Spec.Copies
import Mathlib.Data.List.Basic
import Mathlib.Data.List.Nodup
import Mathlib.Tactic.ByContra
import Mathlib.Tactic.Common

/-! # Lemmas about copies of devices -/
set_option autoImplicit false
set_option linter.unusedSimpArgs false
set_option linter.unusedVariables false

namespace Ecl.Copies
open Ecl.Spec.Holders

theorem run_append (a b : List HOp) (h : Heap) : run h (a ++ b) = (run h a).bind fun h => run h b := by
  induction a generalizing h with
  | nil => rfl
  | cons x a ih =>
    show (step h x).bind _ = ((step h x).bind _).bind _
    cases step h x with
    | ok h' => exact ih h'
    | throw e => rfl
    | ub => rfl

theorem step_ne_throw (h : Heap) (x : HOp) (e : Flag) : step h x ≠ .throw e := by
  cases x <;> simp only [step] <;> (try split) <;> (try split) <;> simp

theorem run_ne_throw (xs : List HOp) (h : Heap) (e : Flag) : run h xs ≠ .throw e := by
  induction xs generalizing h with
  | nil => simp [run]
  | cons x xs ih =>
    show (step h x).bind _ ≠ _
    cases hs : step h x with
    | ok h' => exact ih h'
    | throw e' => exact absurd hs (step_ne_throw _ _ _)
    | ub => simp [Outcome.bind]

/-- Numbers are given out once. -/
structure Fresh (h : Heap) : Prop where
  nodup : h.live.Nodup
  live : ∀ r ∈ h.live, r < h.next
  obj : ∀ o r, h.obj o = some (some r) → r < h.next

theorem Fresh.empty : Fresh Heap.empty := ⟨by simp [Heap.empty], by simp [Heap.empty], by simp [Heap.empty]⟩

theorem set_same (f : Nat → Option (Option Nat)) (o : Nat) (v : Option (Option Nat)) : set f o v o = v := by
  simp [set]

theorem set_other (f : Nat → Option (Option Nat)) {o x : Nat} (v : Option (Option Nat)) (h : x ≠ o) :
    set f o v x = f x := by simp [set, h]

theorem Fresh.step {h h' : Heap} (F : Fresh h) {x : HOp} (hs : step h x = .ok h') : Fresh h' := by
  cases x with
  | make o =>
    simp only [Copies.step] at hs
    split at hs
    · cases hs
    · cases hs
      refine ⟨F.nodup, F.live, fun o' r ho => ?_⟩
      simp only at ho ⊢
      by_cases he : o' = o
      · subst he; rw [set_same] at ho; cases ho
      · rw [set_other _ _ he] at ho; exact F.obj _ _ ho
  | acquire o =>
    simp only [Copies.step] at hs
    cases hs
    refine ⟨List.nodup_cons.2 ⟨fun hm => absurd (F.live _ hm) (Nat.lt_irrefl _), F.nodup⟩, ?_, fun o' r ho => ?_⟩
    · intro r hr
      rcases List.mem_cons.1 hr with rfl | hr
      · exact Nat.lt_succ_self _
      · exact Nat.lt_succ_of_lt (F.live r hr)
    · simp only at ho ⊢
      by_cases he : o' = o
      · subst he; rw [set_same] at ho; cases ho; exact Nat.lt_succ_self _
      · rw [set_other _ _ he] at ho; exact Nat.lt_succ_of_lt (F.obj _ _ ho)
  | copy p o =>
    simp only [Copies.step] at hs
    cases ho : h.obj o with
    | none => rw [ho] at hs; cases hs
    | some v =>
      rw [ho] at hs
      simp only at hs
      split at hs
      · cases hs
      · cases hs
        refine ⟨F.nodup, F.live, fun o' r ho' => ?_⟩
        simp only at ho' ⊢
        by_cases he : o' = p
        · subst he; rw [set_same] at ho'; cases ho'; exact F.obj _ _ ho
        · rw [set_other _ _ he] at ho'; exact F.obj _ _ ho'
  | assign p o =>
    simp only [Copies.step] at hs
    cases ho : h.obj o with
    | none => rw [ho] at hs; cases hs
    | some v =>
      rw [ho] at hs
      simp only at hs
      split at hs
      · cases hs
        refine ⟨F.nodup, F.live, fun o' r ho' => ?_⟩
        simp only at ho' ⊢
        by_cases he : o' = p
        · subst he; rw [set_same] at ho'; cases ho'; exact F.obj _ _ ho
        · rw [set_other _ _ he] at ho'; exact F.obj _ _ ho'
      · cases hs
  | use o =>
    simp only [Copies.step] at hs
    split at hs
    · cases hs
    · cases hs; exact F
    · split at hs
      · cases hs; exact F
      · cases hs
  | renew o =>
    simp only [Copies.step] at hs
    split at hs
    · cases hs
    · cases hs; exact F
    · split at hs
      · cases hs
        refine ⟨List.nodup_cons.2 ⟨fun hm => absurd (F.live _ (List.mem_of_mem_erase hm)) (Nat.lt_irrefl _),
          F.nodup.erase _⟩, ?_, fun o' r ho => ?_⟩
        · intro r hr
          rcases List.mem_cons.1 hr with rfl | hr
          · exact Nat.lt_succ_self _
          · exact Nat.lt_succ_of_lt (F.live r (List.mem_of_mem_erase hr))
        · simp only at ho ⊢
          by_cases he : o' = o
          · subst he; rw [set_same] at ho; cases ho; exact Nat.lt_succ_self _
          · rw [set_other _ _ he] at ho; exact Nat.lt_succ_of_lt (F.obj _ _ ho)
      · cases hs
  | close o =>
    simp only [Copies.step] at hs
    split at hs
    · cases hs
    · cases hs; exact F
    · split at hs
      · cases hs
        refine ⟨F.nodup.erase _, fun r hr => F.live r (List.mem_of_mem_erase hr), fun o' r ho => ?_⟩
        simp only at ho ⊢
        by_cases he : o' = o
        · subst he; rw [set_same] at ho; cases ho
        · rw [set_other _ _ he] at ho; exact F.obj _ _ ho
      · cases hs
  | destroy o =>
    have key : ∀ o' r, set h.obj o none o' = some (some r) → r < h.next := by
      intro o' r ho
      by_cases he : o' = o
      · subst he; rw [set_same] at ho; cases ho
      · rw [set_other _ _ he] at ho; exact F.obj _ _ ho
    simp only [Copies.step] at hs
    split at hs
    · cases hs
    · cases hs; exact ⟨F.nodup, F.live, key⟩
    · split at hs
      · cases hs
        exact ⟨F.nodup.erase _, fun r hr => F.live r (List.mem_of_mem_erase hr), key⟩
      · cases hs

theorem Fresh.run : ∀ {xs : List HOp} {h h' : Heap}, Fresh h → run h xs = .ok h' → Fresh h'
  | [], h, h', F, hr => by cases hr; exact F
  | x :: xs, h, h', F, hr => by
    have hr' : (Copies.step h x).bind (fun h => Copies.run h xs) = .ok h' := hr
    cases hs : Copies.step h x with
    | ok h1 => rw [hs] at hr'; exact (F.step hs).run hr'
    | throw e => rw [hs] at hr'; cases hr'
    | ub => rw [hs] at hr'; cases hr'

/-- Something released stays released, and an object that is not concerned keeps its pointer. -/
theorem gone_step {h h' : Heap} (F : Fresh h) {x : HOp} (hs : step h x = .ok h') {r : Nat} (hr : r < h.next)
    (hd : r ∉ h.live) : r ∉ h'.live ∧ r < h'.next := by
  cases x <;> simp only [step] at hs <;> (try split at hs) <;> (try split at hs) <;> cases hs <;>
    first
    | exact ⟨hd, hr⟩
    | exact ⟨fun hm => by
        rcases List.mem_cons.1 hm with rfl | hm
        · exact Nat.lt_irrefl _ hr
        · first | exact hd hm | exact hd (List.mem_of_mem_erase hm), Nat.lt_succ_of_lt hr⟩
    | exact ⟨fun hm => hd (List.mem_of_mem_erase hm), hr⟩

theorem kept_step {h h' : Heap} {x : HOp} (hs : step h x = .ok h') {o : Nat} (ho : ¬ Concerns o x) :
    h'.obj o = h.obj o := by
  cases x <;> simp only [step] at hs <;> (try split at hs) <;> (try split at hs) <;> cases hs <;>
    simp only [Concerns] at ho <;> first
      | rfl
      | exact set_other _ _ (fun e => ho e.symm)
      | exact set_other _ _ (fun e => ho (.inl e.symm))

theorem gone_run : ∀ {xs : List HOp} {h h' : Heap} (_ : Fresh h) (_ : run h xs = .ok h') {r : Nat} (_ : r < h.next)
    (_ : r ∉ h.live) {o : Nat} (_ : ∀ x ∈ xs, ¬ Concerns o x), r ∉ h'.live ∧ h'.obj o = h.obj o
  | [], h, h', F, hr, r, hn, hd, o, hc => by cases hr; exact ⟨hd, rfl⟩
  | x :: xs, h, h', F, hr, r, hn, hd, o, hc => by
    have hr' : (step h x).bind (fun h => run h xs) = .ok h' := hr
    cases hs : step h x with
    | ok h1 =>
      rw [hs] at hr'
      obtain ⟨h2, h3⟩ := gone_step F hs hn hd
      have := gone_run (F.step hs) hr' h3 h2 (o := o) fun y hy => hc y (List.mem_cons_of_mem _ hy)
      rw [kept_step hs (hc x List.mem_cons_self)] at this
      exact this
    | throw e => rw [hs] at hr'; cases hr'
    | ub => rw [hs] at hr'; cases hr'

/-- What no object points to is never released. -/
def Lost (h : Heap) (r : Nat) : Prop := r ∈ h.live ∧ r < h.next ∧ ∀ o, h.obj o ≠ some (some r)

theorem Lost.step {h h' : Heap} {x : HOp} (hs : step h x = .ok h') {r : Nat} (L : Lost h r) : Lost h' r := by
  obtain ⟨h1, h2, h3⟩ := L
  have hset : ∀ o v, v ≠ some (some r) → ∀ o', set h.obj o v o' ≠ some (some r) := by
    intro o v hv o'
    unfold set
    split
    · exact hv
    · exact h3 o'
  have hne : ∀ {o r'}, h.obj o = some (some r') → r ≠ r' := by
    rintro o r' ho rfl
    exact h3 o ho
  have hnx : some (some h.next) ≠ some (some r) := by
    intro e
    cases e
    exact Nat.lt_irrefl _ h2
  cases x with
  | make o =>
    simp only [Copies.step] at hs
    split at hs <;> cases hs
    exact ⟨h1, h2, hset o _ (by simp)⟩
  | acquire o =>
    simp only [Copies.step] at hs
    cases hs
    exact ⟨List.mem_cons_of_mem _ h1, Nat.lt_succ_of_lt h2, hset o _ hnx⟩
  | copy p o =>
    simp only [Copies.step] at hs
    cases ho : h.obj o with
    | none => rw [ho] at hs; cases hs
    | some v =>
      rw [ho] at hs
      simp only at hs
      split at hs <;> cases hs
      exact ⟨h1, h2, hset p _ (by rw [← ho]; exact h3 o)⟩
  | assign p o =>
    simp only [Copies.step] at hs
    cases ho : h.obj o with
    | none => rw [ho] at hs; cases hs
    | some v =>
      rw [ho] at hs
      simp only at hs
      split at hs <;> cases hs
      exact ⟨h1, h2, hset p _ (by rw [← ho]; exact h3 o)⟩
  | use o =>
    simp only [Copies.step] at hs
    split at hs
    · cases hs
    · cases hs; exact ⟨h1, h2, h3⟩
    · split at hs <;> cases hs
      exact ⟨h1, h2, h3⟩
  | renew o =>
    simp only [Copies.step] at hs
    split at hs
    · cases hs
    · cases hs; exact ⟨h1, h2, h3⟩
    · rename_i r' ho
      split at hs <;> cases hs
      exact ⟨List.mem_cons_of_mem _ ((List.mem_erase_of_ne (hne ho)).2 h1), Nat.lt_succ_of_lt h2, hset o _ hnx⟩
  | close o =>
    simp only [Copies.step] at hs
    split at hs
    · cases hs
    · cases hs; exact ⟨h1, h2, h3⟩
    · rename_i r' ho
      split at hs <;> cases hs
      exact ⟨(List.mem_erase_of_ne (hne ho)).2 h1, h2, hset o _ (by simp)⟩
  | destroy o =>
    simp only [Copies.step] at hs
    split at hs
    · cases hs
    · cases hs; exact ⟨h1, h2, hset o _ (by simp)⟩
    · rename_i r' ho
      split at hs <;> cases hs
      exact ⟨(List.mem_erase_of_ne (hne ho)).2 h1, h2, hset o _ (by simp)⟩

theorem Lost.run : ∀ {xs : List HOp} {h h' : Heap} {r : Nat}, Lost h r → run h xs = .ok h' → Lost h' r
  | [], h, h', r, L, hr => by cases hr; exact L
  | x :: xs, h, h', r, L, hr => by
    have hr' : (Copies.step h x).bind (fun h => Copies.run h xs) = .ok h' := hr
    cases hs : Copies.step h x with
    | ok h1 => rw [hs] at hr'; exact (L.step hs).run hr'
    | throw e => rw [hs] at hr'; cases hr'
    | ub => rw [hs] at hr'; cases hr'

/-- Each thing alive is held by one object, each object that holds something holds one thing alive. -/
structure Owns (h : Heap) (f : Status) : Prop where
  fresh : Fresh h
  status : ∀ o, f o = (h.obj o).map Option.isSome
  alive : ∀ o r, h.obj o = some (some r) → r ∈ h.live
  one : ∀ o o' r, h.obj o = some (some r) → h.obj o' = some (some r) → o = o'
  held : ∀ r ∈ h.live, ∃ o, h.obj o = some (some r)

theorem Owns.empty : Owns Heap.empty none_ :=
  ⟨Fresh.empty, fun _ => rfl, by simp [Heap.empty], by simp [Heap.empty], by simp [Heap.empty]⟩

theorem put_status {h : Heap} {f : Status} (hf : ∀ o, f o = (h.obj o).map Option.isSome) (p : Nat)
    (v : Option (Option Nat)) (o : Nat) : put f p (v.map Option.isSome) o = (set h.obj p v o).map Option.isSome := by
  unfold put set
  split
  · rfl
  · exact hf o

/-- An object that held nothing changes to something that holds nothing. -/
theorem Owns.idle {h : Heap} {f : Status} (W : Owns h f) {p : Nat} (hp : ∀ r, h.obj p ≠ some (some r))
    {v : Option (Option Nat)} (hv : ∀ r, v ≠ some (some r)) :
    (∀ o r, set h.obj p v o = some (some r) → r ∈ h.live) ∧
    (∀ o o' r, set h.obj p v o = some (some r) → set h.obj p v o' = some (some r) → o = o') ∧
    (∀ r ∈ h.live, ∃ o, set h.obj p v o = some (some r)) := by
  have key : ∀ o r, set h.obj p v o = some (some r) → h.obj o = some (some r) := by
    intro o r ho
    unfold set at ho
    split at ho
    · exact absurd ho (hv r)
    · exact ho
  refine ⟨fun o r ho => W.alive o r (key o r ho), fun o o' r h1 h2 => W.one o o' r (key _ _ h1) (key _ _ h2), ?_⟩
  intro r hr
  obtain ⟨o, ho⟩ := W.held r hr
  refine ⟨o, ?_⟩
  rw [set_other]
  · exact ho
  · rintro rfl
    exact hp r ho

/-- An object gets something new. -/
theorem Owns.fill {h : Heap} {f : Status} (W : Owns h f) {p : Nat} (hp : ∀ r, h.obj p ≠ some (some r)) :
    (∀ o r, set h.obj p (some (some h.next)) o = some (some r) → r ∈ h.next :: h.live) ∧
    (∀ o o' r, set h.obj p (some (some h.next)) o = some (some r) → set h.obj p (some (some h.next)) o' = some (some r) → o = o') ∧
    (∀ r ∈ h.next :: h.live, ∃ o, set h.obj p (some (some h.next)) o = some (some r)) := by
  refine ⟨?_, ?_, ?_⟩
  · intro o r ho
    unfold set at ho
    split at ho
    · cases ho; exact List.mem_cons_self
    · exact List.mem_cons_of_mem _ (W.alive _ _ ho)
  · intro o o' r h1 h2
    unfold set at h1 h2
    split at h1 <;> split at h2
    · rw [‹o = p›, ‹o' = p›]
    · cases h1; exact absurd (W.fresh.obj _ _ h2) (Nat.lt_irrefl _)
    · cases h2; exact absurd (W.fresh.obj _ _ h1) (Nat.lt_irrefl _)
    · exact W.one _ _ _ h1 h2
  · intro r hr
    rcases List.mem_cons.1 hr with rfl | hr
    · exact ⟨p, set_same _ _ _⟩
    · obtain ⟨o, ho⟩ := W.held r hr
      refine ⟨o, ?_⟩
      rw [set_other]
      · exact ho
      · rintro rfl
        exact hp r ho

/-- An object gives up what it holds. -/
theorem Owns.drop {h : Heap} {f : Status} (W : Owns h f) {p r : Nat} (hp : h.obj p = some (some r))
    {v : Option (Option Nat)} (hv : ∀ r, v ≠ some (some r)) :
    (∀ o s, set h.obj p v o = some (some s) → s ∈ h.live.erase r) ∧
    (∀ o o' s, set h.obj p v o = some (some s) → set h.obj p v o' = some (some s) → o = o') ∧
    (∀ s ∈ h.live.erase r, ∃ o, set h.obj p v o = some (some s)) := by
  have key : ∀ o s, set h.obj p v o = some (some s) → o ≠ p ∧ h.obj o = some (some s) := by
    intro o s ho
    unfold set at ho
    split at ho
    · exact absurd ho (hv s)
    · exact ⟨‹_›, ho⟩
  refine ⟨?_, fun o o' s h1 h2 => W.one o o' s (key _ _ h1).2 (key _ _ h2).2, ?_⟩
  · intro o s ho
    obtain ⟨h1, h2⟩ := key o s ho
    refine (List.mem_erase_of_ne ?_).2 (W.alive o s h2)
    rintro rfl
    exact h1 (W.one _ _ _ h2 hp)
  · intro s hs
    have hne : s ≠ r := by
      rintro rfl
      exact (W.fresh.nodup.not_mem_erase) hs
    obtain ⟨o, ho⟩ := W.held s (List.mem_of_mem_erase hs)
    refine ⟨o, ?_⟩
    rw [set_other]
    · exact ho
    · rintro rfl
      rw [hp] at ho
      cases ho
      exact hne rfl

theorem Owns.step {h : Heap} {f : Status} (W : Owns h f) {x : HOp} (hx : Single f x) :
    ∃ h', step h x = .ok h' ∧ Owns h' (after f x) := by
  have nohold : ∀ {o}, f o ≠ some true → ∀ r, h.obj o ≠ some (some r) := by
    intro o ho r hr
    apply ho
    rw [W.status o, hr]
    rfl
  have exi : ∀ {o}, f o ≠ none → ∃ v, h.obj o = some v := by
    intro o ho
    cases hh : h.obj o with
    | none => exact absurd (by rw [W.status o, hh]; rfl) ho
    | some v => exact ⟨v, rfl⟩
  have idle : ∀ {o}, f o = some false → h.obj o = some none := by
    intro o ho
    obtain ⟨v, hv⟩ := exi (o := o) (by rw [ho]; simp)
    cases v with
    | none => exact hv
    | some r => exact absurd hv (nohold (by rw [ho]; simp) r)
  have absent : ∀ {o}, f o = none → h.obj o = none := by
    intro o ho
    rw [W.status o] at ho
    exact Option.map_eq_none_iff.1 ho
  cases x with
  | make o =>
    have ho := absent hx
    have hs : Copies.step h (.make o) = .ok { h with obj := set h.obj o (some none) } := by
      simp [Copies.step, ho]
    have hI := W.idle (p := o) (v := some none) (by rw [ho]; simp) (by simp)
    exact ⟨_, hs, W.fresh.step hs, put_status W.status o (some none), hI.1, hI.2.1, hI.2.2⟩
  | acquire o =>
    have hs : Copies.step h (.acquire o) = .ok ⟨set h.obj o (some (some h.next)), h.next :: h.live, h.next + 1⟩ := rfl
    have hI := W.fill (p := o) (nohold hx)
    exact ⟨_, hs, W.fresh.step hs, put_status W.status o (some (some h.next)), hI.1, hI.2.1, hI.2.2⟩
  | copy p o =>
    have hp := absent hx.1
    have ho := idle hx.2
    have hs : Copies.step h (.copy p o) = .ok { h with obj := set h.obj p (some none) } := by
      simp [Copies.step, ho, hp]
    have hI := W.idle (p := p) (v := some none) (by rw [hp]; simp) (by simp)
    refine ⟨_, hs, W.fresh.step hs, ?_, hI.1, hI.2.1, hI.2.2⟩
    show ∀ x, put f p (f o) x = _
    rw [hx.2]
    exact put_status W.status p (some none)
  | assign p o =>
    have hp := idle hx.1
    have ho := idle hx.2
    have hs : Copies.step h (.assign p o) = .ok { h with obj := set h.obj p (some none) } := by
      simp [Copies.step, ho, hp]
    have hI := W.idle (p := p) (v := some none) (by rw [hp]; simp) (by simp)
    refine ⟨_, hs, W.fresh.step hs, ?_, hI.1, hI.2.1, hI.2.2⟩
    show ∀ x, put f p (f o) x = _
    rw [hx.2]
    exact put_status W.status p (some none)
  | use o =>
    obtain ⟨v, hv⟩ := exi hx
    refine ⟨h, ?_, W⟩
    cases v with
    | none => simp [Copies.step, hv]
    | some r => simp [Copies.step, hv, W.alive _ _ hv]
  | renew o =>
    obtain ⟨v, hv⟩ := exi hx
    cases v with
    | none => exact ⟨h, by simp [Copies.step, hv], W⟩
    | some r =>
      have hs : Copies.step h (.renew o) = .ok ⟨set h.obj o (some (some h.next)), h.next :: h.live.erase r, h.next + 1⟩ := by
        simp [Copies.step, hv, W.alive _ _ hv]
      have hD := W.drop (p := o) hv (v := none) (by simp)
      have hset : ∀ v, set (set h.obj o none) o v = set h.obj o v := by
        intro v
        funext x
        unfold set
        split <;> rfl
      refine ⟨_, hs, W.fresh.step hs, ?_, ?_, ?_, ?_⟩
      · intro x
        show f x = _
        have := put_status W.status o (some (some h.next)) x
        rw [← this]
        unfold put
        split
        · rename_i e
          rw [e, W.status o, hv]
          rfl
        · rfl
      · intro x s hxs
        simp only at hxs ⊢
        by_cases e : x = o
        · subst e; rw [set_same] at hxs; cases hxs; exact List.mem_cons_self
        · rw [set_other _ _ e] at hxs
          exact List.mem_cons_of_mem _ (hD.1 x s (by rw [set_other _ _ e]; exact hxs))
      · intro x x' s h1 h2
        simp only at h1 h2
        by_cases e : x = o <;> by_cases e' : x' = o
        · rw [e, e']
        · subst e
          rw [set_same] at h1
          rw [set_other _ _ e'] at h2
          cases h1
          exact absurd (W.fresh.obj _ _ h2) (Nat.lt_irrefl _)
        · subst e'
          rw [set_same] at h2
          rw [set_other _ _ e] at h1
          cases h2
          exact absurd (W.fresh.obj _ _ h1) (Nat.lt_irrefl _)
        · rw [set_other _ _ e] at h1
          rw [set_other _ _ e'] at h2
          exact W.one _ _ _ h1 h2
      · intro s hs
        simp only at hs ⊢
        rcases List.mem_cons.1 hs with rfl | hs
        · exact ⟨o, set_same _ _ _⟩
        · obtain ⟨x, hx⟩ := hD.2.2 s hs
          have e : x ≠ o := by
            rintro rfl
            rw [set_same] at hx
            cases hx
          rw [set_other _ _ e] at hx
          exact ⟨x, by rw [set_other _ _ e]; exact hx⟩
  | close o =>
    obtain ⟨v, hv⟩ := exi hx
    cases v with
    | none =>
      refine ⟨h, by simp [Copies.step, hv], W.fresh, ?_, W.alive, W.one, W.held⟩
      intro x
      show put f o (some false) x = _
      unfold put
      split
      · rename_i e; rw [e, hv]; rfl
      · exact W.status x
    | some r =>
      have hs : Copies.step h (.close o) = .ok ⟨set h.obj o (some none), h.live.erase r, h.next⟩ := by
        simp [Copies.step, hv, W.alive _ _ hv]
      have hI := W.drop (p := o) hv (v := some none) (by simp)
      exact ⟨_, hs, W.fresh.step hs, put_status W.status o (some none), hI.1, hI.2.1, hI.2.2⟩
  | destroy o =>
    obtain ⟨v, hv⟩ := exi hx
    cases v with
    | none =>
      have hs : Copies.step h (.destroy o) = .ok { h with obj := set h.obj o none } := by
        simp [Copies.step, hv]
      have hI := W.idle (p := o) (v := none) (by rw [hv]; simp) (by simp)
      exact ⟨_, hs, W.fresh.step hs, put_status W.status o none, hI.1, hI.2.1, hI.2.2⟩
    | some r =>
      have hs : Copies.step h (.destroy o) = .ok ⟨set h.obj o none, h.live.erase r, h.next⟩ := by
        simp [Copies.step, hv, W.alive _ _ hv]
      have hI := W.drop (p := o) hv (v := none) (by simp)
      exact ⟨_, hs, W.fresh.step hs, put_status W.status o none, hI.1, hI.2.1, hI.2.2⟩

theorem Owns.run : ∀ {xs : List HOp} {h : Heap} {f : Status}, Owns h f → AllSingle f xs →
    ∃ h', run h xs = .ok h' ∧ Owns h' (Spec.Holders.status f xs)
  | [], h, f, W, _ => ⟨h, rfl, W⟩
  | x :: xs, h, f, W, hx => by
    obtain ⟨h1, h2, W1⟩ := W.step hx.1
    obtain ⟨h3, h4, W3⟩ := W1.run hx.2
    exact ⟨h3, by show (Copies.step h x).bind _ = _; rw [h2]; exact h4, W3⟩

end Ecl.Copies
