import Mathlib.Data.List.Nodup
import Mathlib.Data.Fintype.Card
import Verif.Spec.ThreadCopies

/-!
# C145: copies of threads
-/
set_option autoImplicit false

namespace Ecl.Props.C145
open Ecl Ecl.Handles Ecl.Spec.Handles

/-- The members of an object agree with its stage. -/
def Fits (s : Option Stage) (d : Option Obj) : Prop :=
  match s with
  | none => d = none
  | some .fresh => d = some ⟨none, false⟩
  | some .responsible => ∃ t, d = some ⟨some t, false⟩
  | some .joined => ∃ t, d = some ⟨some t, true⟩

/-- The threads are as the stages of the objects say. -/
structure Inv (f : Nat → Option Stage) (w : World) : Prop where
  fits : ∀ o, Fits (f o) (w.obj o)
  bound : ∀ o t, w.obj o = some ⟨some t, false⟩ → t < w.next ∧ t ∉ w.released
  apart : ∀ o p t, w.obj o = some ⟨some t, false⟩ → w.obj p = some ⟨some t, false⟩ → o = p
  spent : ∀ o t, w.obj o = some ⟨some t, true⟩ → t ∈ w.released
  nodup : w.released.Nodup
  below : ∀ t ∈ w.released, t < w.next
  all : ∀ t, t < w.next → t ∈ w.released ∨ ∃ o, w.obj o = some ⟨some t, false⟩

theorem nobody_inv : Inv nobody World.empty :=
  ⟨fun _ => rfl, by simp [World.empty], by simp [World.empty], by simp [World.empty], by simp [World.empty],
    by simp [World.empty], by simp [World.empty]⟩

theorem upd_same (f : Nat → Option Obj) (o : Nat) (v : Option Obj) : upd f o v o = v := by simp [upd]

theorem upd_other (f : Nat → Option Obj) {o x : Nat} (v : Option Obj) (h : x ≠ o) : upd f o v x = f x := by
  simp [upd, h]

theorem put_same (f : Nat → Option Stage) (o : Nat) (v : Option Stage) : put f o v o = v := by simp [put]

theorem put_other (f : Nat → Option Stage) {o x : Nat} (v : Option Stage) (h : x ≠ o) : put f o v x = f x := by
  simp [put, h]

theorem fits_upd {f : Nat → Option Stage} {w : World} (h : ∀ o, Fits (f o) (w.obj o)) (o : Nat) (s : Option Stage)
    (d : Option Obj) (hs : Fits s d) : ∀ x, Fits (put f o s x) (upd w.obj o d x) := by
  intro x
  by_cases e : x = o
  · subst e; rw [put_same, upd_same]; exact hs
  · rw [put_other _ _ e, upd_other _ _ e]; exact h x

theorem spent_upd {w : World} {l : List Nat} (h : ∀ o t, w.obj o = some ⟨some t, true⟩ → t ∈ l) (o : Nat)
    (d : Option Obj) (hd : ∀ t, d = some ⟨some t, true⟩ → t ∈ l) :
    ∀ x t, upd w.obj o d x = some ⟨some t, true⟩ → t ∈ l := by
  intro x t e
  by_cases k : x = o
  · subst k; rw [upd_same] at e; exact hd t e
  · rw [upd_other _ _ k] at e; exact h x t e

/-- An object that is responsible for nothing changes into another one. -/
theorem replace {f : Nat → Option Stage} {w : World} (h : Inv f w) (o : Nat) (s : Option Stage) (d : Option Obj)
    (hs : Fits s d) (hn : s ≠ some .responsible) (ho : f o ≠ some .responsible)
    (hd : ∀ t, d = some ⟨some t, true⟩ → t ∈ w.released) :
    Inv (put f o s) { w with obj := upd w.obj o d } := by
  have no : ∀ t, w.obj o ≠ some ⟨some t, false⟩ := by
    intro t e
    have := h.fits o
    rw [e] at this
    cases k : f o with
    | none => rw [k] at this; cases this
    | some s =>
      rw [k] at this
      cases s with
      | fresh => simp [Fits] at this
      | responsible => exact ho k
      | joined => simp [Fits] at this
  have nd : ∀ t, d ≠ some ⟨some t, false⟩ := by
    rintro t rfl
    cases s with
    | none => cases hs
    | some s =>
      cases s with
      | fresh => simp [Fits] at hs
      | responsible => exact hn rfl
      | joined => simp [Fits] at hs
  have key : ∀ x t, upd w.obj o d x = some ⟨some t, false⟩ → w.obj x = some ⟨some t, false⟩ := by
    intro x t e
    by_cases k : x = o
    · subst k; rw [upd_same] at e; exact absurd e (nd t)
    · rwa [upd_other _ _ k] at e
  refine ⟨fits_upd h.fits o s d hs, fun x t e => h.bound x t (key x t e),
    fun x y t e1 e2 => h.apart x y t (key x t e1) (key y t e2), spent_upd h.spent o d hd, h.nodup, h.below, ?_⟩
  intro t ht
  rcases h.all t ht with k | ⟨x, k⟩
  · exact .inl k
  · refine .inr ⟨x, ?_⟩
    have : x ≠ o := fun e => no t (e ▸ k)
    simpa only [upd_other _ _ this] using k

/-- An object gives its thread back. -/
theorem giveBack {f : Nat → Option Stage} {w : World} (h : Inv f w) (o t : Nat)
    (ht : w.obj o = some ⟨some t, false⟩) (s : Option Stage) (d : Option Obj) (hs : Fits s d)
    (hn : s ≠ some .responsible) (hd : ∀ u, d = some ⟨some u, true⟩ → u ∈ t :: w.released) :
    Inv (put f o s) { w with obj := upd w.obj o d, released := t :: w.released } := by
  obtain ⟨b1, b2⟩ := h.bound o t ht
  have nd : ∀ t, d ≠ some ⟨some t, false⟩ := by
    rintro t rfl
    cases s with
    | none => cases hs
    | some s =>
      cases s with
      | fresh => simp [Fits] at hs
      | responsible => exact hn rfl
      | joined => simp [Fits] at hs
  have key : ∀ x u, upd w.obj o d x = some ⟨some u, false⟩ → x ≠ o ∧ w.obj x = some ⟨some u, false⟩ := by
    intro x u e
    by_cases k : x = o
    · subst k; rw [upd_same] at e; exact absurd e (nd u)
    · rw [upd_other _ _ k] at e; exact ⟨k, e⟩
  refine ⟨fits_upd h.fits o s d hs, ?_, fun x y u e1 e2 => h.apart x y u (key x u e1).2 (key y u e2).2,
    spent_upd (fun x u e => List.mem_cons_of_mem _ (h.spent x u e)) o d hd, ?_, ?_, ?_⟩
  · intro x u e
    obtain ⟨k1, k2⟩ := key x u e
    obtain ⟨c1, c2⟩ := h.bound x u k2
    refine ⟨c1, ?_⟩
    simp only [List.mem_cons, not_or]
    exact ⟨fun e => k1 (h.apart x o u k2 (e ▸ ht)), c2⟩
  · exact List.nodup_cons.2 ⟨b2, h.nodup⟩
  · intro u hu
    rcases List.mem_cons.1 hu with rfl | hu
    · exact b1
    · exact h.below u hu
  · intro u hu
    rcases h.all u hu with k | ⟨x, k⟩
    · exact .inl (List.mem_cons_of_mem _ k)
    · by_cases e : x = o
      · subst e
        rw [ht] at k
        simp only [Option.some.injEq, Obj.mk.injEq, and_true] at k
        exact .inl (k ▸ List.mem_cons_self)
      · exact .inr ⟨x, by simpa only [upd_other _ _ e] using k⟩

/-- One call of that kind. -/
theorem step_inv {f : Nat → Option Stage} {w : World} (h : Inv f w) (x : Op) (hx : Single f x) (r : Outcome World)
    (hr : step w x = some r) : ∃ w', r = .ok w' ∧ Inv (next f x) w' ∧ w'.next = w.next + starts f [x] := by
  cases x with
  | make o =>
    have e : w.obj o = none := by have := h.fits o; rwa [show f o = none from hx] at this
    simp only [step, e, Option.isSome_none, Bool.false_eq_true, if_false, Option.some.injEq] at hr
    subst hr
    exact ⟨_, rfl, replace h o _ _ rfl (by simp) (by rw [show f o = none from hx]; simp) (by simp), by simp [starts]⟩
  | start o =>
    have k := h.fits o
    cases hf : f o with
    | none => exact absurd hf hx
    | some s =>
      rw [hf] at k
      cases s with
      | fresh =>
        have k : w.obj o = some ⟨none, false⟩ := k
        simp only [step, k, Option.some.injEq] at hr
        subst hr
        refine ⟨_, rfl, ?_, by simp [starts, hf]⟩
        simp only [next, hf, if_true]
        have key : ∀ x u, upd w.obj o (some ⟨some w.next, false⟩) x = some ⟨some u, false⟩ →
            (x = o ∧ u = w.next) ∨ (x ≠ o ∧ w.obj x = some ⟨some u, false⟩) := by
          intro x u e
          by_cases k : x = o
          · subst k
            simp only [upd_same, Option.some.injEq, Obj.mk.injEq, and_true] at e
            exact .inl ⟨rfl, e.symm⟩
          · rw [upd_other _ _ k] at e; exact .inr ⟨k, e⟩
        refine ⟨fits_upd h.fits o _ _ ⟨_, rfl⟩, ?_, ?_,
          spent_upd h.spent o _ (by simp), h.nodup, fun u hu => Nat.lt_succ_of_lt (h.below u hu), ?_⟩
        · intro x u e
          rcases key x u e with ⟨_, e⟩ | ⟨_, e⟩
          · rw [e]; exact ⟨Nat.lt_succ_self _, fun m => Nat.lt_irrefl _ (h.below _ m)⟩
          · exact ⟨Nat.lt_succ_of_lt (h.bound x u e).1, (h.bound x u e).2⟩
        · intro x y u e1 e2
          rcases key x u e1 with ⟨rfl, h1⟩ | ⟨_, g1⟩ <;> rcases key y u e2 with ⟨rfl, h2⟩ | ⟨_, g2⟩
          · rfl
          · exact absurd (h1 ▸ (h.bound y _ g2).1) (Nat.lt_irrefl _)
          · exact absurd (h2 ▸ (h.bound x _ g1).1) (Nat.lt_irrefl _)
          · exact h.apart x y u g1 g2
        · intro u hu
          rcases Nat.lt_succ_iff_lt_or_eq.1 hu with hu | hu
          · rcases h.all u hu with m | ⟨x, m⟩
            · exact .inl m
            · have : x ≠ o := fun e => by rw [e, k] at m; simp at m
              exact .inr ⟨x, by simpa only [upd_other _ _ this] using m⟩
          · exact .inr ⟨o, by simp only [upd_same, hu]⟩
      | responsible =>
        obtain ⟨t, k⟩ := k
        simp only [step, k, Option.some.injEq] at hr
        subst hr
        exact ⟨w, rfl, by simpa [next, hf] using h, by simp [starts, hf]⟩
      | joined =>
        obtain ⟨t, k⟩ := k
        simp only [step, k, Option.some.injEq] at hr
        subst hr
        exact ⟨w, rfl, by simpa [next, hf] using h, by simp [starts, hf]⟩
  | copy p o =>
    obtain ⟨h1, h2, h3⟩ := hx
    have e : w.obj p = none := by have := h.fits p; rwa [h3] at this
    have k := h.fits o
    cases ho : w.obj o with
    | none =>
      rw [ho] at k
      cases hf : f o with
      | none => exact absurd hf h1
      | some s => rw [hf] at k; cases s <;> simp [Fits] at k
    | some d =>
      simp only [step, ho, e, Option.isSome_none, Bool.false_eq_true, if_false, Option.some.injEq] at hr
      subst hr
      exact ⟨_, rfl, replace h p _ _ (ho ▸ k) h2 (by rw [h3]; simp) (fun t e => h.spent o t (ho.trans e)), by simp [starts]⟩
  | assign p o =>
    obtain ⟨⟨h1, h2⟩, h3, h4⟩ := hx
    have k := h.fits o
    have q : (w.obj p).isSome = true := by
      have := h.fits p
      cases hf : f p with
      | none => exact absurd hf h3
      | some s =>
        rw [hf] at this
        cases s with
        | fresh => rw [show w.obj p = some _ from this]; rfl
        | responsible => obtain ⟨t, e⟩ := this; rw [e]; rfl
        | joined => obtain ⟨t, e⟩ := this; rw [e]; rfl
    cases ho : w.obj o with
    | none =>
      rw [ho] at k
      cases hf : f o with
      | none => exact absurd hf h1
      | some s => rw [hf] at k; cases s <;> simp [Fits] at k
    | some d =>
      simp only [step, ho, q, if_true, Option.some.injEq] at hr
      subst hr
      exact ⟨_, rfl, replace h p _ _ (ho ▸ k) h2 h4 (fun t e => h.spent o t (ho.trans e)), by simp [starts]⟩
  | join o =>
    have k := h.fits o
    rw [show f o = some .responsible from hx] at k
    obtain ⟨t, k⟩ := k
    simp only [step, k, (h.bound o t k).2, if_false] at hr
    by_cases e : t ∈ w.ended
    · simp only [e, if_true, Option.some.injEq] at hr
      subst hr
      exact ⟨_, rfl, giveBack h o t k _ _ ⟨t, rfl⟩ (by simp) (by simp), by simp [starts]⟩
    · simp [e] at hr
  | destroy o =>
    have k := h.fits o
    cases hf : f o with
    | none => exact absurd hf hx
    | some s =>
      rw [hf] at k
      cases s with
      | fresh =>
        have k : w.obj o = some ⟨none, false⟩ := k
        simp only [step, k, Option.some.injEq] at hr
        subst hr
        exact ⟨_, rfl, replace h o _ _ rfl (by simp) (by rw [hf]; simp) (by simp), by simp [starts]⟩
      | responsible =>
        obtain ⟨t, k⟩ := k
        simp only [step, k, (h.bound o t k).2, if_false, Option.some.injEq] at hr
        subst hr
        exact ⟨_, rfl, giveBack h o t k _ _ rfl (by simp) (by simp), by simp [starts]⟩
      | joined =>
        obtain ⟨t, k⟩ := k
        simp only [step, k, Option.some.injEq] at hr
        subst hr
        exact ⟨_, rfl, replace h o _ _ rfl (by simp) (by rw [hf]; simp) (by simp), by simp [starts]⟩
  | finish t =>
    simp only [step] at hr
    split at hr
    · simp only [Option.some.injEq] at hr
      subst hr
      exact ⟨_, rfl, ⟨h.fits, h.bound, h.apart, h.spent, h.nodup, h.below, h.all⟩, by simp [starts]⟩
    · cases hr

theorem starts_cons (f : Nat → Option Stage) (x : Op) (ops : List Op) :
    starts f (x :: ops) = starts f [x] + starts (next f x) ops := by
  cases x <;> simp [starts]

/-- A history of such calls. -/
theorem run_inv : ∀ (ops : List Op) (f : Nat → Option Stage) (w : World), Inv f w → AllSingle f ops →
    ∀ r, run w ops = some r →
      ∃ w', r = .ok w' ∧ Inv (ops.foldl next f) w' ∧ w'.next = w.next + starts f ops
  | [], f, w, h, _, r, hr => by
    simp only [run, Option.some.injEq] at hr
    exact ⟨w, hr.symm, h, by simp [starts]⟩
  | x :: ops, f, w, h, hc, r, hr => by
    cases e : step w x with
    | none => simp [run, e] at hr
    | some o =>
      obtain ⟨w1, rfl, h1, n1⟩ := step_inv h x hc.1 o e
      simp only [run, e] at hr
      obtain ⟨w2, e2, h2, n2⟩ := run_inv ops _ w1 h1 hc.2 r hr
      exact ⟨w2, e2, h2, by rw [n2, n1, starts_cons f x ops, Nat.add_assoc]⟩

theorem run_append : ∀ (xs ys : List Op) (w : World),
    run w (xs ++ ys) = match run w xs with
      | some (.ok w) => run w ys
      | r => r
  | [], ys, w => rfl
  | x :: xs, ys, w => by
    simp only [List.cons_append, run]
    cases step w x with
    | none => rfl
    | some r => cases r with
      | ok w => exact run_append xs ys w
      | throw e => rfl
      | ub => rfl

/-- What is true of a state and kept by the calls is true after a history. -/
theorem run_keeps (P : World → Prop) (ok : Op → Prop)
    (h : ∀ w x w', P w → ok x → step w x = some (.ok w') → P w') :
    ∀ (ops : List Op) (w w' : World), P w → (∀ x ∈ ops, ok x) → run w ops = some (.ok w') → P w'
  | [], w, w', hp, _, e => by
    simp only [run, Option.some.injEq, Outcome.ok.injEq] at e
    exact e ▸ hp
  | x :: ops, w, w', hp, ho, e => by
    cases es : step w x with
    | none => simp [run, es] at e
    | some r => cases r with
      | ok w1 =>
        simp only [run, es] at e
        exact run_keeps P ok h ops w1 w' (h w x w1 hp (ho x (by simp)) es) (fun y hy => ho y (by simp [hy])) e
      | throw f => simp [run, es] at e
      | ub => simp [run, es] at e

/-- The object keeps its thread, which was given back. -/
theorem spent_kept (o t : Nat) : ∀ w x w', (w.obj o = some ⟨some t, false⟩ ∧ t ∈ w.released) → ¬ Touches o x →
    step w x = some (.ok w') → (w'.obj o = some ⟨some t, false⟩ ∧ t ∈ w'.released) := by
  rintro w x w' ⟨h1, h2⟩ hx e
  cases x with
  | make x =>
    have hx : o ≠ x := fun k => hx k.symm
    simp only [step, Option.some.injEq] at e
    split at e
    · cases e
    · cases e; exact ⟨by simpa only [upd_other _ _ hx] using h1, h2⟩
  | start x =>
    have hx : o ≠ x := fun k => hx k.symm
    simp only [step] at e
    split at e
    · cases e
    · cases e; exact ⟨h1, h2⟩
    · cases e; exact ⟨by simpa only [upd_other _ _ hx] using h1, h2⟩
  | copy p x =>
    have hx : o ≠ p := fun k => hx k.symm
    simp only [step] at e
    split at e
    · cases e
    · simp only [Option.some.injEq] at e
      split at e
      · cases e
      · cases e; exact ⟨by simpa only [upd_other _ _ hx] using h1, h2⟩
  | assign p x =>
    have hx : o ≠ p := fun k => hx k.symm
    simp only [step] at e
    split at e
    · cases e
    · simp only [Option.some.injEq] at e
      split at e
      · cases e; exact ⟨by simpa only [upd_other _ _ hx] using h1, h2⟩
      · cases e
  | join x =>
    have hx : o ≠ x := fun k => hx k.symm
    simp only [step] at e
    split at e
    · cases e
    · cases e; exact ⟨by simpa only [upd_other _ _ hx] using h1, h2⟩
    · split at e
      · cases e
      · split at e
        · cases e; exact ⟨by simpa only [upd_other _ _ hx] using h1, List.mem_cons_of_mem _ h2⟩
        · cases e
  | destroy x =>
    have hx : o ≠ x := fun k => hx k.symm
    simp only [step] at e
    split at e
    · cases e
    · split at e
      · cases e
      · cases e; exact ⟨by simpa only [upd_other _ _ hx] using h1, List.mem_cons_of_mem _ h2⟩
    · cases e; exact ⟨by simpa only [upd_other _ _ hx] using h1, h2⟩
  | finish t =>
    simp only [step] at e
    split at e
    · cases e; exact ⟨h1, h2⟩
    · cases e

/-- Nobody has the thread, and it was not given back. -/
def Lost (t : Nat) (w : World) : Prop := (∀ o a, w.obj o ≠ some ⟨some t, a⟩) ∧ t ∉ w.released ∧ t < w.next

theorem lost_upd {t : Nat} {w : World} (h : ∀ o a, w.obj o ≠ some ⟨some t, a⟩) (o : Nat) (d : Option Obj)
    (hd : ∀ a, d ≠ some ⟨some t, a⟩) : ∀ x a, upd w.obj o d x ≠ some ⟨some t, a⟩ := by
  intro x a
  by_cases e : x = o
  · subst e; rw [upd_same]; exact hd a
  · rw [upd_other _ _ e]; exact h x a

theorem lost_kept (t : Nat) : ∀ w x w', Lost t w → True → step w x = some (.ok w') → Lost t w' := by
  rintro w x w' ⟨h1, h2, h3⟩ - e
  cases x with
  | make x =>
    simp only [step, Option.some.injEq] at e
    split at e
    · cases e
    · cases e; exact ⟨lost_upd h1 _ _ (by simp), h2, h3⟩
  | start x =>
    simp only [step] at e
    split at e
    · cases e
    · cases e; exact ⟨h1, h2, h3⟩
    · cases e
      exact ⟨lost_upd h1 _ _ (by simp; omega), h2, Nat.lt_succ_of_lt h3⟩
  | copy p x =>
    simp only [step] at e
    split at e
    · cases e
    · rename_i d hd
      simp only [Option.some.injEq] at e
      split at e
      · cases e
      · cases e; exact ⟨lost_upd h1 _ _ (hd ▸ h1 x), h2, h3⟩
  | assign p x =>
    simp only [step] at e
    split at e
    · cases e
    · rename_i d hd
      simp only [Option.some.injEq] at e
      split at e
      · cases e; exact ⟨lost_upd h1 _ _ (hd ▸ h1 x), h2, h3⟩
      · cases e
  | join x =>
    simp only [step] at e
    split at e
    · cases e
    · cases e; exact ⟨lost_upd h1 _ _ (by simp), h2, h3⟩
    · rename_i u a hu
      have hut : u ≠ t := fun k => h1 x a (k ▸ hu)
      split at e
      · cases e
      · split at e
        · cases e
          exact ⟨lost_upd h1 _ _ (by simpa using hut), by simp [h2, hut.symm], h3⟩
        · cases e
  | destroy x =>
    simp only [step] at e
    split at e
    · cases e
    · rename_i u hu
      have hut : u ≠ t := fun k => h1 x false (k ▸ hu)
      split at e
      · cases e
      · cases e
        exact ⟨lost_upd h1 _ _ (by simp), by simp [h2, hut.symm], h3⟩
    · cases e; exact ⟨lost_upd h1 _ _ (by simp), h2, h3⟩
  | finish u =>
    simp only [step] at e
    split at e
    · cases e; exact ⟨h1, h2, h3⟩
    · cases e

/-- A list of different numbers below a bound is no longer than the bound. -/
theorem nodup_length {l : List Nat} {n : Nat} (h : l.Nodup) (hl : ∀ t ∈ l, t < n) : l.length ≤ n := by
  have := (List.nodup_range (n := n))
  have s : l ⊆ List.range n := fun t ht => List.mem_range.2 (hl t ht)
  simpa using (h.subperm s).length_le

end Ecl.Props.C145

namespace Ecl.Props
open Ecl Ecl.Handles Ecl.Spec.Handles C145

/-- **C145** (partial): objects are copied and assigned only while they are responsible for no thread, and joined only while they
are: no call is undefined, no thread is given back to the system twice, and once no object is responsible for a thread, all
that were started have been. -/
theorem C145_single_partial (ops : List Op) (h : AllSingle nobody ops) (r : Outcome World)
    (hr : run World.empty ops = some r) :
    ∃ w, r = .ok w ∧ w.next = starts nobody ops ∧ w.released.Nodup ∧ w.released.length ≤ starts nobody ops ∧
      ((∀ o, stages ops o ≠ some .responsible) → w.released.length = starts nobody ops) := by
  obtain ⟨w, e, hi, hn⟩ := C145.run_inv ops nobody World.empty nobody_inv h r hr
  have hn : w.next = starts nobody ops := by simpa [World.empty] using hn
  have le : w.released.length ≤ starts nobody ops := hn ▸ nodup_length hi.nodup hi.below
  refine ⟨w, e, hn, hi.nodup, le, fun hs => Nat.le_antisymm le ?_⟩
  rw [← hn]
  have sub : List.range w.next ⊆ w.released := by
    intro t ht
    rcases hi.all t (List.mem_range.1 ht) with k | ⟨o, k⟩
    · exact k
    · have := hi.fits o
      rw [k] at this
      cases hf : ops.foldl next nobody o with
      | none => rw [hf] at this; cases this
      | some s =>
        rw [hf] at this
        cases s with
        | fresh => simp [Fits] at this
        | responsible => exact absurd hf (hs o)
        | joined => simp [Fits] at this
  simpa using (List.nodup_range.subperm sub).length_le

example : AllSingle nobody [.make 0, .copy 1 0, .start 1, .start 0, .finish 0, .join 1, .copy 2 1, .assign 1 2, .destroy 1,
    .destroy 0, .destroy 2, .finish 1] ∧
    ∃ w, run World.empty [.make 0, .copy 1 0, .start 1, .start 0, .finish 0, .join 1, .copy 2 1, .assign 1 2, .destroy 1,
      .destroy 0, .destroy 2, .finish 1] = some (.ok w) ∧ w.released = [1, 0] := by
  refine ⟨by simp [AllSingle, Single, next, put, nobody], _, rfl, rfl⟩

/-- **C145** fails: an object that is responsible for a thread is copied, and the copy destroyed or joined.  Whatever happens to
other objects meanwhile, destroying or joining the original is then undefined (if it is reached at all). -/
theorem C145_fails_copy (ops : List Op) (h : AllSingle nobody ops) (o p : Nat) (ho : stages ops o = some .responsible)
    (hp : stages ops p = none) (first last : Op) (hf : first = .destroy p ∨ first = .join p) (mid : List Op)
    (hm : ∀ x ∈ mid, ¬ Touches o x) (hl : last = .destroy o ∨ last = .join o) (w : World)
    (hw : run World.empty (ops ++ [.copy p o, first] ++ mid) = some (.ok w)) : step w last = some .ub := by
  have hop : o ≠ p := by rintro rfl; rw [ho] at hp; cases hp
  rw [run_append, run_append] at hw
  cases e0 : run World.empty ops with
  | none => simp [e0] at hw
  | some r =>
    obtain ⟨w0, rfl, hi, _⟩ := C145.run_inv ops nobody World.empty nobody_inv h r e0
    have k := hi.fits o
    rw [show ops.foldl next nobody o = some .responsible from ho] at k
    obtain ⟨t, k⟩ := k
    have q : w0.obj p = none := by have := hi.fits p; rwa [show ops.foldl next nobody p = none from hp] at this
    simp only [e0] at hw
    have spent : ∀ w1, run w0 [.copy p o, first] = some (.ok w1) →
        w1.obj o = some ⟨some t, false⟩ ∧ t ∈ w1.released := by
      intro w1 e1
      rcases hf with rfl | rfl
      · simp [run, step, k, q, upd_same, (hi.bound o t k).2] at e1
        subst e1
        exact ⟨by simp [upd, hop, k], by simp⟩
      · simp only [run, step, k, q, upd_same, (hi.bound o t k).2, Option.isSome_none, Bool.false_eq_true, if_false] at e1
        by_cases he : t ∈ w0.ended
        · simp [he] at e1
          subst e1
          exact ⟨by simp [upd, hop, k], by simp⟩
        · simp [he] at e1
    cases e1 : run w0 [.copy p o, first] with
    | none => simp [e1] at hw
    | some r1 =>
      cases r1 with
      | throw f => simp [e1] at hw
      | ub => simp [e1] at hw
      | ok w1 =>
        simp only [e1] at hw
        obtain ⟨s1, s2⟩ := run_keeps _ _ (spent_kept o t) mid w1 w (spent w1 e1) hm hw
        rcases hl with rfl | rfl <;> simp [step, s1, s2]

example : ∃ w, run World.empty ([.make 0, .start 0] ++ [.copy 1 0, .destroy 1] ++ [.finish 0, .make 1]) = some (.ok w) ∧
    step w (.join 0) = some .ub := ⟨_, rfl, rfl⟩

/-- **C145** fails: assigning to an object that is responsible for a thread: whatever follows, that thread is never given back
to the system. -/
theorem C145_fails_assign (ops : List Op) (h : AllSingle nobody ops) (o p : Nat) (hop : o ≠ p)
    (ho : stages ops o = some .responsible) (rest : List Op) (w : World)
    (hw : run World.empty (ops ++ [.assign o p] ++ rest) = some (.ok w)) :
    ∃ t, t < w.next ∧ t ∉ w.released ∧ ∀ x a, w.obj x ≠ some ⟨some t, a⟩ := by
  rw [run_append, run_append] at hw
  cases e0 : run World.empty ops with
  | none => simp [e0] at hw
  | some r =>
    obtain ⟨w0, rfl, hi, _⟩ := C145.run_inv ops nobody World.empty nobody_inv h r e0
    have k := hi.fits o
    rw [show ops.foldl next nobody o = some .responsible from ho] at k
    obtain ⟨t, k⟩ := k
    obtain ⟨b1, b2⟩ := hi.bound o t k
    simp only [e0] at hw
    cases q : w0.obj p with
    | none => simp [run, step, q] at hw
    | some d =>
      simp only [run, step, q, k, Option.isSome_some, if_true] at hw
      have lost : Lost t { w0 with obj := upd w0.obj o (some d) } := by
        refine ⟨?_, b2, b1⟩
        intro x a
        by_cases e : x = o
        · subst e
          simp only [upd_same, ne_eq, Option.some.injEq]
          rintro rfl
          cases a with
          | true => exact b2 (hi.spent p t q)
          | false => exact hop (hi.apart x p t k q)
        · simp only [upd_other _ _ e]
          intro hx
          cases a with
          | true => exact b2 (hi.spent x t hx)
          | false => exact e (hi.apart x o t hx k)
      obtain ⟨l1, l2, l3⟩ := run_keeps _ (fun _ => True) (lost_kept t) rest _ w lost (by simp) hw
      exact ⟨t, l3, l2, l1⟩

example : ∃ w, run World.empty ([.make 0, .start 0, .make 1] ++ [.assign 0 1] ++ [.finish 0, .destroy 0, .destroy 1]) =
    some (.ok w) ∧ w.next = 1 ∧ w.released = [] := ⟨_, rfl, rfl, rfl⟩

end Ecl.Props
