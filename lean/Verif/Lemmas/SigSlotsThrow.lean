import Verif.Lemmas.SigSlotsEmit
import Verif.Spec.SlotCalls

/-! # Lemmas about slots whose functions throw -/
set_option autoImplicit false

namespace Ecl.SigSlotsThrow
open Ecl.SigSlots Ecl.Spec Ecl.Spec.SlotCalls

theorem calls_append (a b : List Event) : calls (a ++ b) = calls a ++ calls b := by
  induction a with
  | nil => rfl
  | cons e a ih => cases e <;> simp [calls, ih]

theorem noneThrew_nil (throws : List Event → Nat → Bool) (P : Nat → Prop) (before : List Event) :
    NoneThrew throws P before [] := by
  intro l x r h
  simp at h

theorem noneThrew_append {throws : List Event → Nat → Bool} {P : Nat → Prop} {before a b : List Event}
    (ha : NoneThrew throws P before a) (hb : NoneThrew throws P (before ++ a) b) :
    NoneThrew throws P before (a ++ b) := by
  intro l x r h hx
  rcases List.append_eq_append_iff.1 h with ⟨c, rfl, hc⟩ | ⟨c, rfl, hc⟩
  · have := hb c x r hc hx
    simpa using this
  · cases c with
    | nil =>
      simp only [List.nil_append] at hc
      have := hb [] x r hc.symm hx
      simpa using this
    | cons e c =>
      simp only [List.cons_append, List.cons.injEq] at hc
      obtain ⟨rfl, rfl⟩ := hc
      exact ha l x c rfl hx

theorem noneThrew_back {throws : List Event → Nat → Bool} {P : Nat → Prop} {before : List Event} (x : Nat) :
    NoneThrew throws P before [.back x] := by
  intro l y r h
  cases l with
  | nil => simp at h
  | cons e l => simp at h

/-- The count and the mutex say what the log says. -/
def Inv (b : Busy) : Prop :=
  ∀ x, b.log.count (.call x) = b.log.count (.back x) + b.count x ∧ (b.locked x = true ↔ 0 < b.count x)

theorem Inv.idle : Inv Busy.idle := by
  intro x
  simp [Busy.idle]

theorem Inv.enter {b : Busy} (h : Inv b) (x : Nat) : Inv (enter b x) := by
  intro y
  obtain ⟨h1, h2⟩ := h y
  by_cases hy : y = x
  · subst hy
    constructor
    · simp [SigSlotsThrow.enter, upd, List.count_append, List.count_singleton, h1, Nat.add_assoc]
    · simp [SigSlotsThrow.enter, upd]
  · constructor
    · simp [SigSlotsThrow.enter, upd, List.count_append, List.count_singleton, h1, hy, Ne.symm hy]
    · simp [SigSlotsThrow.enter, upd, hy, h2]

theorem Inv.leave {b : Busy} (h : Inv b) (x : Nat) (hx : 0 < b.count x) : Inv (leave b x) := by
  intro y
  obtain ⟨h1, h2⟩ := h y
  by_cases hy : y = x
  · subst hy
    constructor
    · simp only [SigSlotsThrow.leave, upd, List.count_append, List.count_singleton, h1]
      simp
      omega
    · simp only [SigSlotsThrow.leave, upd]
      split
      · rename_i h3; simp [h3, upd]
      · rename_i h3; simp only [if_true, h2]; omega
  · constructor
    · simp [SigSlotsThrow.leave, upd, List.count_append, List.count_singleton, h1, hy, Ne.symm hy]
    · simp only [SigSlotsThrow.leave, upd, if_neg hy, ← h2]
      split <;> simp [hy, upd]

/-- What `f` does: it calls `evs`, or it throws after the first few of them. -/
def Good (throws : List Event → Nat → Bool) (P : Nat → Prop) (C : List Nat → Prop) (f : Busy → Ending)
    (evs : List Nat) : Prop :=
  ∀ b, Inv b →
    (∃ b' seen, f b = .returned b' ∧ b'.log = b.log ++ seen ∧ calls seen = evs ∧ b'.count = b.count ∧ Inv b' ∧
      NoneThrew throws P b.log seen) ∨
    (∃ b' l x way, f b = .threw b' ∧ b'.log = b.log ++ (l ++ [.call x]) ∧ calls (l ++ [.call x]) <+: evs ∧
      (∀ y, b'.count y = b.count y + way.count y) ∧ C way ∧ way.getLast? = some x ∧ Inv b' ∧
      throws (b.log ++ (l ++ [.call x])) x = true ∧ NoneThrew throws P b.log l)

variable {throws : List Event → Nat → Bool} {P : Nat → Prop} {C : List Nat → Prop}

theorem Good.mono {f : Busy → Ending} {evs : List Nat} {D : List Nat → Prop} (h : Good throws P C f evs)
    (hCD : ∀ way, C way → D way) : Good throws P D f evs := by
  intro b hb
  rcases h b hb with h | ⟨b1, l1, x1, way, e1, h1, c1, m1, w1, g1, i1, t1, q1⟩
  · exact .inl h
  · exact .inr ⟨b1, l1, x1, way, e1, h1, c1, m1, hCD _ w1, g1, i1, t1, q1⟩

theorem Good.loop {α : Type} (f : α → Busy → Ending) (g : α → List Nat) : ∀ (xs : List α),
    (∀ x ∈ xs, Good throws P C (f x) (g x)) → Good throws P C (SigSlotsThrow.loop f xs) (xs.flatMap g)
  | [], _ => fun b hb => .inl ⟨b, [], rfl, by simp, rfl, rfl, hb, noneThrew_nil _ _ _⟩
  | x :: xs, h => by
    intro b hb
    have ih := Good.loop f g xs (fun y hy => h y (by simp [hy]))
    simp only [SigSlotsThrow.loop, List.flatMap_cons]
    rcases h x (by simp) b hb with
      ⟨b1, s1, e1, l1, c1, n1, i1, q1⟩ | ⟨b1, l1, x1, way, e1, h1, c1, m1, w1, g1, i1, t1, q1⟩
    · rw [e1]
      simp only
      rcases ih b1 i1 with
        ⟨b2, s2, e2, l2, c2, n2, i2, q2⟩ | ⟨b2, l2, x2, way, e2, h2, c2, m2, w2, g2, i2, t2, q2⟩
      · refine .inl ⟨b2, s1 ++ s2, e2, by rw [l2, l1, List.append_assoc], by rw [calls_append, c1, c2],
          n2.trans n1, i2, noneThrew_append q1 (l1 ▸ q2)⟩
      · refine .inr ⟨b2, s1 ++ l2, x2, way, e2, by rw [h2, l1]; simp, ?_, fun y => by rw [← n1]; exact m2 y, w2, g2,
          i2, by rw [l1] at t2; simpa using t2, noneThrew_append q1 (l1 ▸ q2)⟩
        rw [List.append_assoc, calls_append, c1]
        exact (List.prefix_append_right_inj _).2 c2
    · rw [e1]
      exact .inr ⟨b1, l1, x1, way, rfl, h1, c1.trans (List.prefix_append _ _), m1, w1, g1, i1, t1, q1⟩

/-- The pieces of a collection. -/
theorem collect_pieces {α : Type} (f : α → Outcome (List Nat)) : ∀ (l : List α) (r : List Nat),
    SigSlots.collect f l = .ok r →
    r = l.flatMap (fun x => match f x with | .ok a => a | _ => []) ∧ ∀ x ∈ l, ∃ a, f x = .ok a
  | [], r, h => by
    simp only [SigSlots.collect, Outcome.ok.injEq] at h
    subst h
    exact ⟨rfl, by simp⟩
  | x :: xs, r, h => by
    simp only [SigSlots.collect] at h
    cases hx : f x with
    | ub => rw [hx] at h; simp at h
    | throw e => rw [hx] at h; simp at h
    | ok a =>
      rw [hx, Outcome.bind_ok] at h
      cases hxs : SigSlots.collect f xs with
      | ub => rw [hxs] at h; simp at h
      | throw e => rw [hxs] at h; simp at h
      | ok c =>
        rw [hxs, Outcome.bind_ok, Outcome.ok.injEq] at h
        obtain ⟨h1, h2⟩ := collect_pieces f xs c hxs
        subst h
        refine ⟨by rw [List.flatMap_cons, hx, ← h1], fun y hy => ?_⟩
        rcases List.mem_cons.1 hy with rfl | hy
        · exact ⟨a, hx⟩
        · exact h2 y hy

theorem enter_count (b : Busy) (x : Nat) : (enter b x).count x = b.count x + 1 := by
  simp [enter, upd]

theorem enter_le (b : Busy) (x y : Nat) : b.count y ≤ (enter b x).count y := by
  simp only [enter, upd]
  split
  · rename_i h; subst h; omega
  · exact Nat.le_refl _

theorem enter_count_all (b : Busy) (x y : Nat) :
    (enter b x).count y = b.count y + if y = x then 1 else 0 := by
  simp only [enter, upd]
  split
  · rename_i h; subst h; rfl
  · rfl

/-- The ways on from an endpoint that is called. -/
def From (g : Wiring) (x : Nat) (way : List Nat) : Prop :=
  (way = [x] ∧ g.signal x = false) ∨ ∃ r, way = x :: r ∧ g.signal x = true ∧ Route g x r

theorem leave_enter {b c : Busy} (x : Nat) (h : c.count = (enter b x).count) : (leave c x).count = b.count := by
  funext y
  simp only [leave, upd, h, enter]
  by_cases hy : y = x
  · simp [hy]
  · simp [hy]

theorem good {w : World} {g : Wiring} (hR : Rel w g) : ∀ n : Nat,
    (∀ e evs, SigSlots.emit w n e = .ok evs →
      Good throws (fun x => g.signal x = false) (Route g e) (emit throws w n e) evs) ∧
    (∀ x evs, SigSlots.process w n x = .ok evs →
      Good throws (fun x => g.signal x = false) (From g x) (process throws w n x) evs) := by
  intro n
  -- from emissions to calls of functions
  have key : ∀ m, (∀ e evs, SigSlots.emit w m e = .ok evs →
      Good throws (fun x => g.signal x = false) (Route g e) (emit throws w m e) evs) →
      ∀ x evs, SigSlots.process w m x = .ok evs →
      Good throws (fun x => g.signal x = false) (From g x) (process throws w m x) evs := by
    intro m hm x evs h b hb
    rw [SigSlots.process] at h
    rw [process]
    cases hE : w.eps x with
    | none => rw [hE] at h; simp at h
    | some E =>
      rw [hE] at h
      simp only at h ⊢
      have hsig : g.signal x = E.relay := (hR.ep x E hE).1.symm
      cases hr : E.relay with
      | true =>
        rw [hr] at h
        simp only [if_true] at h ⊢
        cases he : SigSlots.emit w m x with
        | ub => rw [he] at h; simp at h
        | throw e => rw [he] at h; simp at h
        | ok r =>
          rw [he, Outcome.bind_ok, Outcome.ok.injEq] at h
          subst h
          have hen : NoneThrew throws (fun x => g.signal x = false) b.log [.call x] := by
            intro l y q hl hy
            cases l with
            | nil =>
              simp only [List.nil_append, List.cons.injEq, Event.call.injEq] at hl
              obtain ⟨rfl, -⟩ := hl
              rw [hsig, hr] at hy
              cases hy
            | cons e l => simp at hl
          have hlog : (enter b x).log = b.log ++ [.call x] := rfl
          rcases hm x r he (enter b x) (hb.enter x) with
            ⟨b1, s1, e1, l1, c1, n1, i1, q1⟩ | ⟨b1, l1, x1, way, e1, h1, c1, m1, w1, g1, i1, t1, q1⟩
          · rw [e1]
            refine .inl ⟨leave b1 x, .call x :: (s1 ++ [.back x]), rfl, ?_, ?_, leave_enter x n1, ?_, ?_⟩
            · simp only [leave]; rw [l1, hlog]; simp
            · simp [calls, calls_append, c1]
            · apply i1.leave
              rw [n1, enter_count]
              omega
            · have h2 := noneThrew_append hen (b := s1 ++ [.back x])
                (noneThrew_append (hlog ▸ q1) (noneThrew_back x))
              simpa using h2
          · rw [e1]
            refine .inr ⟨b1, .call x :: l1, x1, x :: way, rfl, by rw [h1, hlog]; simp, ?_, fun y => ?_,
              .inr ⟨way, rfl, by rw [hsig, hr], w1⟩, ?_, i1, ?_, ?_⟩
            · simp only [List.cons_append, calls]
              exact List.cons_prefix_cons.2 ⟨rfl, c1⟩
            · rw [m1 y, enter_count_all, List.count_cons]
              by_cases hy : y = x
              · simp [hy]; omega
              · simp [hy, Ne.symm hy]
            · cases way with
              | nil => simp at g1
              | cons a way => rw [List.getLast?_cons_cons]; exact g1
            · rw [hlog] at t1; simpa using t1
            · have h2 := noneThrew_append hen (hlog ▸ q1)
              simpa using h2
      | false =>
        rw [hr] at h
        simp only [Bool.false_eq_true, if_false, Outcome.ok.injEq] at h ⊢
        subst h
        have hlog : (enter b x).log = b.log ++ [.call x] := rfl
        by_cases ht : throws (enter b x).log x = true
        · rw [if_pos ht]
          refine .inr ⟨enter b x, [], x, [x], rfl, by simp [hlog], by simp [calls], fun y => ?_,
            .inl ⟨rfl, by rw [hsig, hr]⟩, rfl, hb.enter x, by rw [hlog] at ht; simpa using ht, noneThrew_nil _ _ _⟩
          rw [enter_count_all, List.count_singleton]
          by_cases hy : y = x
          · simp [hy]
          · simp [hy, Ne.symm hy]
        · rw [if_neg ht]
          refine .inl ⟨leave (enter b x) x, [.call x, .back x], rfl, by simp [leave, hlog], by simp [calls],
            leave_enter x rfl, ?_, ?_⟩
          · apply (hb.enter x).leave
            rw [enter_count]
            omega
          · intro l y q hl hy
            cases l with
            | nil =>
              simp only [List.nil_append, List.cons.injEq, Event.call.injEq] at hl
              obtain ⟨rfl, -⟩ := hl
              rw [hlog] at ht
              simpa using ht
            | cons e l =>
              cases l with
              | nil => simp at hl
              | cons e l => simp at hl
  induction n with
  | zero =>
    have h0 : ∀ e evs, SigSlots.emit w 0 e = .ok evs →
        Good throws (fun x => g.signal x = false) (Route g e) (emit throws w 0 e) evs := by
      intro e evs h
      simp [SigSlots.emit] at h
    exact ⟨h0, key 0 h0⟩
  | succ n ih =>
    have h1 : ∀ e evs, SigSlots.emit w (n + 1) e = .ok evs →
        Good throws (fun x => g.signal x = false) (Route g e) (emit throws w (n + 1) e) evs := by
      intro e evs h b hb
      rw [SigSlots.emit] at h
      rw [emit]
      cases hE : w.eps e with
      | none => rw [hE] at h; simp at h
      | some E =>
        rw [hE] at h
        simp only at h ⊢
        obtain ⟨hev, hall⟩ := collect_pieces _ _ _ h
        subst hev
        refine Good.loop _ _ _ (fun p hp => ?_) b hb
        obtain ⟨a, ha⟩ := hall p hp
        rw [ha]
        cases hd : deref w p with
        | ub => rw [hd] at ha; simp at ha
        | throw e => rw [hd] at ha; simp at ha
        | ok subs =>
          rw [hd, Outcome.bind_ok] at ha
          obtain ⟨hs, hsall⟩ := collect_pieces _ _ _ ha
          simp only
          rw [hs]
          refine Good.loop _ _ _ (fun x hx => ?_)
          obtain ⟨c, hc⟩ := hsall x hx
          rw [hc]
          refine (ih.2 x c hc).mono (fun way hway => ?_)
          have hedge : g.Edge e x := by
            obtain ⟨k1, k2, k3, k4, k5, k6, k7⟩ := hR.ep e E hE
            obtain ⟨T, hT, hu⟩ := k7 p hp
            refine ⟨p.1, (k6 p.1).1 (List.mem_map_of_mem hp), ?_⟩
            have : deref w p = .ok T.subs := by simp [deref, hT, hu]
            rw [this, Outcome.ok.injEq] at hd
            subst hd
            exact ((hR.topic p.1 T hT).2.2.2.1 x).1 hx
          rcases hway with ⟨rfl, h1⟩ | ⟨r, rfl, h1, h2⟩
          · exact .slot hedge h1
          · exact .relay hedge h1 h2
    exact ⟨h1, key (n + 1) h1⟩

/-- Whatever happens, the counts say what the log says, and only grow. -/
def Keeps (f : Busy → Ending) : Prop :=
  ∀ b, Inv b → (∀ b', f b = .returned b' → Inv b' ∧ b'.count = b.count) ∧
    ∀ b', f b = .threw b' → Inv b' ∧ ∀ y, b.count y ≤ b'.count y

theorem Keeps.loop {α : Type} (f : α → Busy → Ending) (hf : ∀ x, Keeps (f x)) : ∀ xs : List α,
    Keeps (SigSlotsThrow.loop f xs)
  | [] => by
    intro b hb
    constructor
    · intro b' h
      simp only [SigSlotsThrow.loop, Ending.returned.injEq] at h
      subst h
      exact ⟨hb, rfl⟩
    · intro b' h
      simp [SigSlotsThrow.loop] at h
  | x :: xs => by
    intro b hb
    have ih := Keeps.loop f hf xs
    obtain ⟨h1, h2⟩ := hf x b hb
    simp only [SigSlotsThrow.loop]
    cases hx : f x b with
    | ub => simp
    | threw b1 =>
      simp only [reduceCtorEq, false_implies, implies_true, true_and, Ending.threw.injEq]
      rintro b' rfl
      exact h2 _ hx
    | returned b1 =>
      obtain ⟨i1, c1⟩ := h1 _ hx
      obtain ⟨h3, h4⟩ := ih b1 i1
      simp only
      refine ⟨fun b' h => ?_, fun b' h => ?_⟩
      · obtain ⟨i2, c2⟩ := h3 b' h
        exact ⟨i2, c2.trans c1⟩
      · obtain ⟨i2, c2⟩ := h4 b' h
        exact ⟨i2, fun y => by rw [← c1]; exact c2 y⟩

theorem keeps (throws : List Event → Nat → Bool) (w : World) : ∀ n : Nat,
    (∀ e, Keeps (emit throws w n e)) ∧ ∀ x, Keeps (process throws w n x) := by
  have key : ∀ m, (∀ e, Keeps (emit throws w m e)) → ∀ x, Keeps (process throws w m x) := by
    intro m hm x b hb
    rw [process]
    cases hE : w.eps x with
    | none => simp
    | some E =>
      simp only
      obtain ⟨h1, h2⟩ := hm x (enter b x) (hb.enter x)
      have hc := enter_count b x
      split
      · cases he : emit throws w m x (enter b x) with
        | ub => simp
        | threw b1 =>
          simp only [reduceCtorEq, false_implies, implies_true, true_and, Ending.threw.injEq]
          rintro b' rfl
          obtain ⟨i2, c2⟩ := h2 _ he
          exact ⟨i2, fun y => Nat.le_trans (enter_le b x y) (c2 y)⟩
        | returned b1 =>
          simp only [reduceCtorEq, false_implies, implies_true, and_true, Ending.returned.injEq]
          rintro b' rfl
          obtain ⟨i2, c2⟩ := h1 _ he
          exact ⟨i2.leave x (by rw [c2, hc]; omega), leave_enter x c2⟩
      · split
        · simp only [reduceCtorEq, false_implies, implies_true, true_and, Ending.threw.injEq]
          rintro b' rfl
          exact ⟨hb.enter x, enter_le b x⟩
        · simp only [reduceCtorEq, false_implies, implies_true, and_true, Ending.returned.injEq]
          rintro b' rfl
          exact ⟨(hb.enter x).leave x (by rw [hc]; omega), leave_enter x rfl⟩
  intro n
  induction n with
  | zero =>
    have h0 : ∀ e, Keeps (emit throws w 0 e) := by
      intro e b hb
      simp [emit]
    exact ⟨h0, key 0 h0⟩
  | succ n ih =>
    have h1 : ∀ e, Keeps (emit throws w (n + 1) e) := by
      intro e b hb
      rw [emit]
      cases hE : w.eps e with
      | none => simp
      | some E =>
        simp only
        refine Keeps.loop _ (fun p => ?_) _ b hb
        cases deref w p with
        | ok subs => exact Keeps.loop _ ih.2 _
        | ub => intro b hb; simp
        | throw e => intro b hb; simp
    exact ⟨h1, key (n + 1) h1⟩

theorem last_iff {hs : List (Nat × Nat)} (hn : (hs.map Prod.fst).Nodup) {h e : Nat} (hat : (h, e) ∈ hs) :
    hs.countP (fun p => p.2 = e) = 1 ↔ ∀ k, (k, e) ∈ hs → k = h := by
  have h1 := countP_filter_key hs hn h e e hat
  have h2 := (countP_alive hs e).2 ⟨h, hat⟩
  have h3 := countP_alive (hs.filter fun p => p.1 ≠ h) e
  rw [if_pos rfl] at h1
  constructor
  · intro h4 k hk
    by_contra hc
    have : 0 < (hs.filter fun p => p.1 ≠ h).countP (fun p => p.2 = e) :=
      h3.2 ⟨k, List.mem_filter.2 ⟨hk, by simpa using hc⟩⟩
    omega
  · intro h4
    by_contra hc
    have : 0 < (hs.filter fun p => p.1 ≠ h).countP (fun p => p.2 = e) := by omega
    obtain ⟨k, hk⟩ := h3.1 this
    obtain ⟨h5, h6⟩ := List.mem_filter.1 hk
    simp only [ne_eq, decide_eq_true_eq] at h6
    exact h6 (h4 k h5)

/-- The endpoint a call deletes is the one whose last handle it destroys. -/
theorem deletes_iff {w : World} {g : Wiring} (hR : Rel w g) (op : SigSlots.Op) (e : Nat) :
    deletes w op = some e ↔ ∃ h, op = .destroy h ∧ g.At h e ∧ ∀ k, g.At k e → k = h := by
  cases op with
  | destroy h =>
    simp only [deletes, SigSlots.Op.destroy.injEq, exists_eq_left']
    constructor
    · intro hd
      cases hh : handle h w.handles with
      | none => rw [hh] at hd; simp at hd
      | some e' =>
        rw [hh] at hd
        simp only at hd
        cases hE : w.eps e' with
        | none => rw [hE] at hd; simp at hd
        | some E =>
          rw [hE] at hd
          simp only at hd
          split at hd
          · rename_i h1
            rw [Option.some.injEq] at hd
            subst hd
            have hat : g.At h e' := (handle_iff h e' _ hR.keys).1 (hR.handles ▸ hh)
            refine ⟨hat, fun k hk => ?_⟩
            rw [(hR.ep e' E hE).2.1] at h1
            exact (last_iff hR.keys hat).1 h1 k hk
          · simp at hd
    · rintro ⟨hat, hlast⟩
      obtain ⟨h1, E, hE⟩ := hR.at_handle hat
      rw [h1]
      simp only [hE]
      have h2 : E.handles = 1 := by
        rw [(hR.ep e E hE).2.1]
        exact (last_iff hR.keys hat).2 hlast
      rw [if_pos h2]
  | _ => simp [deletes]

theorem Inv.unanswered {b : Busy} (h : Inv b) (x : Nat) : Unanswered b.log x ↔ 0 < b.count x := by
  have := (h x).1
  simp only [Unanswered]
  omega

/-- What a call that ends leaves behind. -/
theorem step_ok {depth : Nat} {s t : State} {g : Wiring} {op : Op} (hR : Rel s.w g) (hi : Inv s.busy)
    (hl : g.AllLegal (wires [op])) (h : step depth s op = .ok t) :
    SigSlots.run s.w (wires [op]) = .ok t.w ∧ Rel t.w (g.run (wires [op])) ∧ Inv t.busy ∧
      (∀ x, s.busy.count x ≤ t.busy.count x) ∧
      ∀ e, 0 < s.busy.count e → g.Alive e → (g.run (wires [op])).Alive e := by
  cases op with
  | wire op =>
    obtain ⟨w', h1, h2⟩ := hR.step op hl.1
    simp only [step, h1] at h
    have ht : t = ⟨w', s.busy⟩ := by
      revert h
      split
      · split
        · simp
        · simp only [Result.ok.injEq]; exact fun h => h.symm
      · simp only [Result.ok.injEq]; exact fun h => h.symm
    have hd : ∀ e, 0 < s.busy.count e → deletes s.w op ≠ some e := by
      intro e he hd
      rw [hd] at h
      simp only [((hi e).2).2 he, if_true, reduceCtorEq] at h
    subst ht
    refine ⟨by simp [wires, SigSlots.run, h1], h2, hi, fun x => Nat.le_refl _, fun e he ha => ?_⟩
    have h4 := fun hh => hd e he ((deletes_iff hR op e).2 hh)
    show (g.after op).Alive e
    obtain ⟨k, hk⟩ := ha
    cases op with
    | destroy h' =>
      by_cases hkh : k = h'
      · subst hkh
        have : ∃ m, g.At m e ∧ m ≠ k := by
          by_contra hc
          exact h4 ⟨k, rfl, hk, fun m hm => by by_contra hm2; exact hc ⟨m, hm, hm2⟩⟩
        obtain ⟨m, hm, hmk⟩ := this
        exact ⟨m, List.mem_filter.2 ⟨hm, by simpa using hmk⟩⟩
      · exact ⟨k, List.mem_filter.2 ⟨hk, by simpa using hkh⟩⟩
    | newSignal _ => exact ⟨k, List.mem_append_left _ hk⟩
    | newSlot _ => exact ⟨k, List.mem_append_left _ hk⟩
    | copy _ _ => exact ⟨k, List.mem_append_left _ hk⟩
    | assign _ _ => exact ⟨k, hk⟩
    | connect _ _ => exact ⟨k, hk⟩
    | subscribe _ _ => exact ⟨k, hk⟩
    | disconnect _ => exact ⟨k, hk⟩
  | emit h' throws =>
    simp only [step] at h
    cases hh : handle h' s.w.handles with
    | none => rw [hh] at h; simp at h
    | some e =>
      rw [hh] at h
      simp only at h
      obtain ⟨k1, k2⟩ := (keeps throws s.w depth).1 e s.busy hi
      cases he : emit throws s.w depth e s.busy with
      | ub => rw [he] at h; simp at h
      | returned b =>
        rw [he] at h
        simp only [Result.ok.injEq] at h
        subst h
        obtain ⟨i1, c1⟩ := k1 _ he
        exact ⟨rfl, hR, i1, fun x => by simp only [c1]; exact Nat.le_refl _, fun e _ ha => ha⟩
      | threw b =>
        rw [he] at h
        simp only [Result.ok.injEq] at h
        subst h
        obtain ⟨i1, c1⟩ := k2 _ he
        exact ⟨rfl, hR, i1, c1, fun e _ ha => ha⟩

theorem run_ok {depth : Nat} : ∀ (ops : List Op) {s t : State} {g : Wiring}, Rel s.w g → Inv s.busy →
    g.AllLegal (wires ops) → run depth s ops = .ok t →
    SigSlots.run s.w (wires ops) = .ok t.w ∧ Rel t.w (g.run (wires ops)) ∧ Inv t.busy ∧
      (∀ x, s.busy.count x ≤ t.busy.count x) ∧
      ∀ e, 0 < s.busy.count e → g.Alive e → (g.run (wires ops)).Alive e
  | [], s, t, g, hR, hi, _, h => by
    simp only [run, Result.ok.injEq] at h
    subst h
    exact ⟨rfl, hR, hi, fun _ => Nat.le_refl _, fun _ _ ha => ha⟩
  | op :: ops, s, t, g, hR, hi, hl, h => by
    simp only [run] at h
    cases hs : step depth s op with
    | stuck => rw [hs] at h; simp at h
    | ub => rw [hs] at h; simp at h
    | ok u =>
      rw [hs] at h
      simp only at h
      have hl1 : g.AllLegal (wires [op]) ∧ (g.run (wires [op])).AllLegal (wires ops) := by
        cases op with
        | wire op => exact ⟨⟨hl.1, trivial⟩, hl.2⟩
        | emit _ _ => exact ⟨trivial, hl⟩
      obtain ⟨a1, a2, a3, a4, a5⟩ := step_ok hR hi hl1.1 hs
      obtain ⟨b1, b2, b3, b4, b5⟩ := run_ok ops a2 a3 hl1.2 h
      have hg : (g.run (wires [op])).run (wires ops) = g.run (wires (op :: ops)) := by
        cases op <;> rfl
      rw [hg] at b2 b5
      refine ⟨?_, b2, b3, fun x => Nat.le_trans (a4 x) (b4 x), fun e he ha => b5 e (Nat.lt_of_lt_of_le he (a4 e)) (a5 e he ha)⟩
      cases op with
      | wire op =>
        simp only [wires, SigSlots.run] at a1 ⊢
        cases hw : SigSlots.step s.w op with
        | ub => rw [hw] at a1; simp at a1
        | throw e => rw [hw] at a1; simp at a1
        | ok w' =>
          rw [hw, Outcome.bind_ok, Outcome.ok.injEq] at a1
          rw [Outcome.bind_ok, a1]
          exact b1
      | emit _ _ =>
        simp only [wires, SigSlots.run, Outcome.ok.injEq] at a1
        simp only [wires]
        rw [a1]
        exact b1

end Ecl.SigSlotsThrow
