import Verif.Spec.Neighbours
import Verif.Props.C105_Descriptors

/-!
# C144: the devices of a program do not disturb each other
-/
set_option autoImplicit false

namespace Ecl.Props.C144
open Ecl Ecl.Near Ecl.Spec Ecl.Spec.Near

/-- The device `o` has the number `n`, open. -/
def Has (w : Proc) (o n : Nat) : Prop := ∃ c, w.obj o = some ⟨c, some n, true⟩

/-- The table is as the plan of the devices wants it. -/
structure Inv (f : Plan) (w : Proc) : Prop where
  absent : ∀ o, f o = none → w.obj o = none
  shut : ∀ o c, f o = some (c, none) → ∃ fd, w.obj o = some ⟨c, fd, false⟩
  leads : ∀ o c l, f o = some (c, some l) → ∃ n, w.obj o = some ⟨c, some n, true⟩ ∧ (n, l) ∈ w.table
  apart : ∀ o p n, Has w o n → Has w p n → o = p
  keys : (w.table.map Prod.fst).Nodup
  held : ∀ e ∈ w.table, ∃ o, Has w o e.1

theorem nobody_inv : Inv nobody Proc.empty :=
  ⟨fun _ _ => rfl, by simp [nobody], by simp [nobody], by simp [Has, Proc.empty], by simp [Proc.empty], by simp [Proc.empty]⟩

theorem upd_same (f : Nat → Option Dev) (o : Nat) (v : Option Dev) : upd f o v o = v := by simp [upd]

theorem upd_other (f : Nat → Option Dev) {o x : Nat} (v : Option Dev) (h : x ≠ o) : upd f o v x = f x := by simp [upd, h]

theorem put_same (f : Plan) (o : Nat) (v : Option (Cls × Option Nat)) : put f o v o = v := by simp [put]

theorem put_other (f : Plan) {o x : Nat} (v : Option (Cls × Option Nat)) (h : x ≠ o) : put f o v x = f x := by
  simp [put, h]

/-- A device that holds nothing takes another value that holds nothing. -/
theorem replace {f : Plan} {w : Proc} (h : Inv f w) (o : Nat) (hn : ∀ n, ¬ Has w o n) (v : Option Dev)
    (u : Option (Cls × Option Nat))
    (hv : (u = none ∧ v = none) ∨ ∃ c fd, u = some (c, none) ∧ v = some ⟨c, fd, false⟩) :
    Inv (put f o u) { w with obj := upd w.obj o v } := by
  have key : ∀ x n, Has { w with obj := upd w.obj o v } x n → x ≠ o ∧ Has w x n := by
    rintro x n ⟨c, e⟩
    by_cases hx : x = o
    · subst hx
      simp only [upd_same] at e
      rcases hv with ⟨_, rfl⟩ | ⟨c', fd, _, rfl⟩ <;> simp at e
    · exact ⟨hx, c, by simpa only [upd_other _ _ hx] using e⟩
  refine ⟨?_, ?_, ?_, fun x y n hx hy => h.apart x y n (key x n hx).2 (key y n hy).2, h.keys, ?_⟩
  · intro x hx
    by_cases e : x = o
    · subst e
      rw [put_same] at hx
      rcases hv with ⟨_, rfl⟩ | ⟨c', fd, e, _⟩
      · exact upd_same ..
      · rw [e] at hx; cases hx
    · rw [put_other _ _ e] at hx
      simpa only [upd_other _ _ e] using h.absent x hx
  · intro x c hx
    by_cases e : x = o
    · subst e
      rw [put_same] at hx
      rcases hv with ⟨e, _⟩ | ⟨c', fd, e, rfl⟩
      · rw [e] at hx; cases hx
      · rw [e] at hx
        cases hx
        exact ⟨fd, upd_same ..⟩
    · rw [put_other _ _ e] at hx
      simpa only [upd_other _ _ e] using h.shut x c hx
  · intro x c l hx
    by_cases e : x = o
    · subst e
      rw [put_same] at hx
      rcases hv with ⟨e, _⟩ | ⟨c', fd, e, _⟩ <;> · rw [e] at hx; cases hx
    · rw [put_other _ _ e] at hx
      simpa only [upd_other _ _ e] using h.leads x c l hx
  · intro e he
    obtain ⟨x, c, hx⟩ := h.held e he
    have : x ≠ o := fun k => hn e.1 (k ▸ ⟨c, hx⟩)
    exact ⟨x, c, by simpa only [upd_other _ _ this] using hx⟩

/-- Closing an open device: everything else stays. -/
theorem shut_open {f : Plan} {w : Proc} (h : Inv f w) (o : Nat) (c : Cls) (l : Nat) (ho : f o = some (c, some l)) :
    ∃ n t, w.obj o = some ⟨c, some n, true⟩ ∧ shutDown w.table ⟨c, some n, true⟩ = .ok (t, ⟨c, some n, false⟩) ∧
      Inv (put f o (some (c, none))) ⟨upd w.obj o (some ⟨c, some n, false⟩), t, w.got⟩ := by
  obtain ⟨n, hn, ht⟩ := h.leads o c l ho
  refine ⟨n, release w.table n, hn, by cases c <;> rfl, ?_⟩
  have key : ∀ x m, Has ⟨upd w.obj o (some ⟨c, some n, false⟩), release w.table n, w.got⟩ x m → x ≠ o ∧ Has w x m := by
    rintro x m ⟨c', e⟩
    by_cases hx : x = o
    · subst hx; simp [upd_same] at e
    · exact ⟨hx, c', by simpa only [upd_other _ _ hx] using e⟩
  refine ⟨?_, ?_, ?_, fun x y m hx hy => h.apart x y m (key x m hx).2 (key y m hy).2, ?_, ?_⟩
  · intro x hx
    by_cases e : x = o
    · subst e; simp [put_same] at hx
    · rw [put_other _ _ e] at hx
      simpa only [upd_other _ _ e] using h.absent x hx
  · intro x c' hx
    by_cases e : x = o
    · subst e
      rw [put_same] at hx
      cases hx
      exact ⟨some n, upd_same ..⟩
    · rw [put_other _ _ e] at hx
      simpa only [upd_other _ _ e] using h.shut x c' hx
  · intro x c' l' hx
    by_cases e : x = o
    · subst e; simp [put_same] at hx
    · rw [put_other _ _ e] at hx
      obtain ⟨m, h1, h2⟩ := h.leads x c' l' hx
      refine ⟨m, by simpa only [upd_other _ _ e] using h1, ?_⟩
      have : m ≠ n := fun k => e (h.apart x o m ⟨c', h1⟩ (k ▸ ⟨c, hn⟩))
      simp only [release, List.mem_filter]
      exact ⟨h2, by simpa using this⟩
  · exact h.keys.sublist (List.filter_sublist.map _)
  · intro e he
    simp only [release, List.mem_filter, decide_eq_true_eq, ne_eq] at he
    obtain ⟨x, c', hx⟩ := h.held e he.1
    have : x ≠ o := by
      rintro rfl
      rw [hn] at hx
      simp only [Option.some.injEq, Dev.mk.injEq] at hx
      exact he.2 hx.2.1.symm
    exact ⟨x, c', by simpa only [upd_other _ _ this] using hx⟩

/-- Opening a closed device. -/
theorem open_shut {alloc : List Nat → Nat} (ha : Fresh alloc) {f : Plan} {w : Proc} (h : Inv f w) (o : Nat) (c : Cls)
    (l : Nat) (ho : f o = some (c, none)) :
    Inv (put f o (some (c, some l))) ⟨upd w.obj o (some ⟨c, some (alloc (w.table.map Prod.fst)), true⟩),
      (alloc (w.table.map Prod.fst), l) :: w.table, w.got⟩ := by
  obtain ⟨fd, hfd⟩ := h.shut o c ho
  have hf := ha (w.table.map Prod.fst)
  generalize alloc (w.table.map Prod.fst) = n at hf
  have hno : ∀ m, ¬ Has w o m := by rintro m ⟨c', e⟩; rw [hfd] at e; simp at e
  have inTable : ∀ x m, Has w x m → m ≠ n := by
    rintro x m ⟨c', e⟩ rfl
    cases hx : f x with
    | none => rw [h.absent x hx] at e; cases e
    | some d =>
      obtain ⟨c1, l1⟩ := d
      cases l1 with
      | none => obtain ⟨fd', e'⟩ := h.shut x c1 hx; rw [e'] at e; simp at e
      | some l1 =>
        obtain ⟨k, e', hk⟩ := h.leads x c1 l1 hx
        rw [e'] at e
        simp only [Option.some.injEq, Dev.mk.injEq, and_true] at e
        exact hf (List.mem_map.2 ⟨_, hk, e.2⟩)
  have key : ∀ x m, Has ⟨upd w.obj o (some ⟨c, some n, true⟩), (n, l) :: w.table, w.got⟩ x m →
      (x = o ∧ m = n) ∨ (x ≠ o ∧ Has w x m) := by
    rintro x m ⟨c', e⟩
    by_cases hx : x = o
    · subst hx
      simp only [upd_same, Option.some.injEq, Dev.mk.injEq, and_true] at e
      exact .inl ⟨rfl, e.2.symm⟩
    · exact .inr ⟨hx, c', by simpa only [upd_other _ _ hx] using e⟩
  refine ⟨?_, ?_, ?_, ?_, ?_, ?_⟩
  · intro x hx
    by_cases e : x = o
    · subst e; simp [put_same] at hx
    · rw [put_other _ _ e] at hx
      simpa only [upd_other _ _ e] using h.absent x hx
  · intro x c' hx
    by_cases e : x = o
    · subst e; simp [put_same] at hx
    · rw [put_other _ _ e] at hx
      simpa only [upd_other _ _ e] using h.shut x c' hx
  · intro x c' l' hx
    by_cases e : x = o
    · subst e
      rw [put_same] at hx
      cases hx
      exact ⟨n, upd_same .., List.mem_cons_self⟩
    · rw [put_other _ _ e] at hx
      obtain ⟨m, h1, h2⟩ := h.leads x c' l' hx
      exact ⟨m, by simpa only [upd_other _ _ e] using h1, List.mem_cons_of_mem _ h2⟩
  · intro x y m hx hy
    rcases key x m hx with ⟨rfl, rfl⟩ | ⟨hx1, hx2⟩ <;> rcases key y m hy with ⟨rfl, h2⟩ | ⟨hy1, hy2⟩
    · rfl
    · exact absurd rfl (inTable y m hy2)
    · exact absurd h2 (inTable x m hx2)
    · exact h.apart x y m hx2 hy2
  · simp only [List.map_cons, List.nodup_cons]
    exact ⟨hf, h.keys⟩
  · intro e he
    rcases List.mem_cons.1 he with rfl | he
    · exact ⟨o, c, upd_same ..⟩
    · obtain ⟨x, c', hx⟩ := h.held e he
      have : x ≠ o := fun k => hno e.1 (k ▸ ⟨c', hx⟩)
      exact ⟨x, c', by simpa only [upd_other _ _ this] using hx⟩

/-- What is behind a number. -/
theorem lookup_mem {t : List (Nat × Nat)} (h : (t.map Prod.fst).Nodup) {n l : Nat} (hm : (n, l) ∈ t) :
    t.lookup n = some l := by
  induction t with
  | nil => cases hm
  | cons e t ih =>
    obtain ⟨m, k⟩ := e
    simp only [List.map_cons, List.nodup_cons] at h
    rcases List.mem_cons.1 hm with e | hm
    · cases e; simp [List.lookup]
    · have : n ≠ m := fun e => h.1 (List.mem_map.2 ⟨(n, l), by assumption, e⟩)
      rw [List.lookup, beq_false_of_ne this]
      exact ih h.2 hm

theorem put_put (f : Plan) (o : Nat) (u v : Option (Cls × Option Nat)) : put (put f o u) o v = put f o v := by
  funext x; by_cases h : x = o <;> simp [put, h]

theorem upd_upd (f : Nat → Option Dev) (o : Nat) (u v : Option Dev) : upd (upd f o u) o v = upd f o v := by
  funext x; by_cases h : x = o <;> simp [upd, h]

theorem shut_has {f : Plan} {w : Proc} (h : Inv f w) {o : Nat} (ho : f o = none ∨ ∃ c, f o = some (c, none)) (n : Nat) :
    ¬ Has w o n := by
  rintro ⟨c, e⟩
  rcases ho with ho | ⟨c', ho⟩
  · rw [h.absent o ho] at e; cases e
  · obtain ⟨fd, e'⟩ := h.shut o c' ho; rw [e'] at e; simp at e

/-- The system gives the number again that was just released. -/
theorem release_top {alloc : List Nat → Nat} (ha : Fresh alloc) (t : List (Nat × Nat)) (l : Nat) :
    release ((alloc (t.map Prod.fst), l) :: t) (alloc (t.map Prod.fst)) = t := by
  have hf := ha (t.map Prod.fst)
  simp only [release, List.filter_cons, ne_eq, not_true_eq_false, decide_false, Bool.false_eq_true, if_false]
  rw [List.filter_eq_self]
  intro k hk
  simp only [decide_eq_true_eq]
  intro e
  exact hf (e ▸ List.mem_map_of_mem hk)

/-- One considerate call. -/
theorem step_inv {alloc : List Nat → Nat} (ha : Fresh alloc) {f : Plan} {w : Proc} (h : Inv f w) (x : Op)
    (hx : Considerate f x) :
    ∃ w' r, step alloc w x = .ok (w', r) ∧ Inv (next f x) w' ∧ w'.got = w.got ++ arrives f [x] := by
  cases x with
  | make o c =>
    have e := h.absent o hx
    exact ⟨_, _, by simp only [step, e]; rfl,
      replace h o (shut_has h (.inl hx)) _ _ (.inr ⟨c, none, rfl, rfl⟩), by simp [arrives]⟩
  | «open» o l =>
    obtain ⟨d, hd⟩ := Option.ne_none_iff_exists'.1 hx
    obtain ⟨c, l0⟩ := d
    cases l0 with
    | none =>
      obtain ⟨fd, e⟩ := h.shut o c hd
      refine ⟨_, _, by simp only [step, e]; rfl, ?_, by simp [arrives]⟩
      simp only [next, hd, Option.map_some]
      exact open_shut ha h o c l hd
    | some l0 =>
      obtain ⟨n, t, e1, e2, e3⟩ := shut_open h o c l0 hd
      have := open_shut ha e3 o c l (put_same ..)
      simp only [put_put, upd_upd] at this
      refine ⟨_, _, by simp only [step, e1, if_true, e2]; rfl, ?_, by simp [arrives]⟩
      simp only [next, hd, Option.map_some]
      exact this
  | refuse o =>
    obtain ⟨d, hd⟩ := Option.ne_none_iff_exists'.1 hx
    obtain ⟨c, l0⟩ := d
    cases l0 with
    | none =>
      obtain ⟨fd, e⟩ := h.shut o c hd
      cases c with
      | client =>
        refine ⟨_, _, by simp only [step, e, release_top ha, Outcome.bind, if_false, Bool.false_eq_true]; rfl, ?_,
          by simp [arrives]⟩
        simp only [next, hd, Option.map_some]
        exact replace h o (shut_has h (.inr ⟨_, hd⟩)) _ _ (.inr ⟨_, _, rfl, rfl⟩)
      | serial =>
        refine ⟨_, _, by simp only [step, e, Outcome.bind, if_false, Bool.false_eq_true]; rfl, ?_, by simp [arrives]⟩
        simp only [next, hd, Option.map_some]
        exact replace h o (shut_has h (.inr ⟨_, hd⟩)) _ _ (.inr ⟨_, _, rfl, rfl⟩)
    | some l0 =>
      obtain ⟨n, t, e1, e2, e3⟩ := shut_open h o c l0 hd
      cases c with
      | client =>
        have := replace e3 o (shut_has e3 (.inr ⟨_, put_same ..⟩)) (some ⟨.client, some (alloc (t.map Prod.fst)), false⟩)
          (some (.client, none)) (.inr ⟨_, _, rfl, rfl⟩)
        simp only [put_put, upd_upd] at this
        refine ⟨_, _, by simp only [step, e1, e2, release_top ha, Outcome.bind, if_true]; rfl, ?_, by simp [arrives]⟩
        simp only [next, hd, Option.map_some]
        exact this
      | serial =>
        have := replace e3 o (shut_has e3 (.inr ⟨_, put_same ..⟩)) (some ⟨.serial, none, false⟩)
          (some (.serial, none)) (.inr ⟨_, _, rfl, rfl⟩)
        simp only [put_put, upd_upd] at this
        refine ⟨_, _, by simp only [step, e1, e2, Outcome.bind, if_true]; rfl, ?_, by simp [arrives]⟩
        simp only [next, hd, Option.map_some]
        exact this
  | copy p o =>
    obtain ⟨⟨c, ho⟩, hp⟩ := hx
    obtain ⟨fd, e⟩ := h.shut o c ho
    refine ⟨_, _, by simp only [step, e, h.absent p hp]; rfl, ?_, by simp [arrives]⟩
    exact replace h p (shut_has h (.inl hp)) _ _ (.inr ⟨c, fd, ho, rfl⟩)
  | assign p o =>
    obtain ⟨c, ho, hp⟩ := hx
    obtain ⟨fd, e⟩ := h.shut o c ho
    obtain ⟨fd', e'⟩ := h.shut p c hp
    refine ⟨_, _, by simp only [step, e, e', if_true]; rfl, ?_, by simp [arrives]⟩
    exact replace h p (shut_has h (.inr ⟨c, hp⟩)) _ _ (.inr ⟨c, fd, ho, rfl⟩)
  | write o bs =>
    obtain ⟨d, hd⟩ := Option.ne_none_iff_exists'.1 hx
    obtain ⟨c, l0⟩ := d
    cases l0 with
    | none =>
      obtain ⟨fd, e⟩ := h.shut o c hd
      exact ⟨_, _, by simp only [step, e]; rfl, h, by simp [arrives, hd]⟩
    | some l0 =>
      obtain ⟨n, e, hm⟩ := h.leads o c l0 hd
      refine ⟨_, _, by simp only [step, e, if_true, lookup_mem h.keys hm]; rfl, ?_, by simp [arrives, hd]⟩
      exact ⟨h.absent, h.shut, h.leads, h.apart, h.keys, h.held⟩
  | close o =>
    obtain ⟨d, hd⟩ := Option.ne_none_iff_exists'.1 hx.1
    obtain ⟨c, l0⟩ := d
    cases l0 with
    | none =>
      cases c with
      | client => exact absurd hd hx.2
      | serial =>
        obtain ⟨fd, e⟩ := h.shut o _ hd
        refine ⟨_, _, by simp only [step, e, shutDown, Outcome.bind]; rfl, ?_, by simp [arrives]⟩
        simp only [next, hd, Option.map_some]
        exact replace h o (shut_has h (.inr ⟨_, hd⟩)) _ _ (.inr ⟨_, fd, rfl, rfl⟩)
    | some l0 =>
      obtain ⟨n, t, e1, e2, e3⟩ := shut_open h o c l0 hd
      refine ⟨_, _, by simp only [step, e1, e2]; rfl, ?_, by simp [arrives]⟩
      simp only [next, hd, Option.map_some]
      exact e3
  | destroy o =>
    obtain ⟨d, hd⟩ := Option.ne_none_iff_exists'.1 hx.1
    obtain ⟨c, l0⟩ := d
    cases l0 with
    | none =>
      cases c with
      | client => exact absurd hd hx.2
      | serial =>
        obtain ⟨fd, e⟩ := h.shut o _ hd
        refine ⟨_, _, by simp only [step, e, shutDown, Outcome.bind]; rfl, ?_, by simp [arrives]⟩
        exact replace h o (shut_has h (.inr ⟨_, hd⟩)) _ _ (.inl ⟨rfl, rfl⟩)
    | some l0 =>
      obtain ⟨n, t, e1, e2, e3⟩ := shut_open h o c l0 hd
      have := replace e3 o (shut_has e3 (.inr ⟨c, put_same ..⟩)) none none (.inl ⟨rfl, rfl⟩)
      simp only [put_put, upd_upd] at this
      exact ⟨_, _, by simp only [step, e1, e2]; rfl, this, by simp [arrives]⟩

theorem arrives_cons (f : Plan) (x : Op) (ops : List Op) : arrives f (x :: ops) = arrives f [x] ++ arrives (next f x) ops := by
  cases x <;> simp [arrives]

/-- A considerate history. -/
theorem run_inv {alloc : List Nat → Nat} (ha : Fresh alloc) : ∀ (ops : List Op) (f : Plan) (w : Proc), Inv f w →
    AllConsiderate f ops →
    ∃ w', run alloc w ops = .ok w' ∧ Inv (ops.foldl next f) w' ∧ w'.got = w.got ++ arrives f ops
  | [], f, w, h, _ => ⟨w, rfl, h, by simp [arrives]⟩
  | x :: ops, f, w, h, hc => by
    obtain ⟨w1, r, e1, h1, g1⟩ := step_inv ha h x hc.1
    obtain ⟨w2, e2, h2, g2⟩ := run_inv ha ops _ w1 h1 hc.2
    refine ⟨w2, by simp only [run, e1, Outcome.bind, e2], h2, ?_⟩
    rw [g2, g1, arrives_cons f x ops, List.append_assoc]

theorem run_append (alloc : List Nat → Nat) : ∀ (xs ys : List Op) (w : Proc),
    run alloc w (xs ++ ys) = (run alloc w xs).bind fun w => run alloc w ys
  | [], ys, w => rfl
  | x :: xs, ys, w => by
    simp only [List.cons_append, run]
    cases step alloc w x with
    | ok r => exact run_append alloc xs ys r.1
    | throw e => rfl
    | ub => rfl

/-- A client is closed and destroyed later. -/
theorem run_stale {alloc : List Nat → Nat} (ha : Fresh alloc) (w : Proc) (a b c : Nat) (hab : a ≠ b) (hac : a ≠ c)
    (hbc : b ≠ c) (ea : w.obj a = none) (eb : w.obj b = none) (ec : w.obj c = none) (cb cc : Cls) (x y z : Nat)
    (bs : List Nat) :
    run alloc w [.make a .client, .open a x, .close a, .make b cb, .open b y, .destroy a, .make c cc, .open c z,
      .write b bs] = .ok ⟨upd (upd (upd (upd (upd (upd (upd (upd w.obj a (some ⟨.client, none, false⟩)) a
        (some ⟨.client, some (alloc (w.table.map Prod.fst)), true⟩)) a
        (some ⟨.client, some (alloc (w.table.map Prod.fst)), false⟩)) b (some ⟨cb, none, false⟩)) b
        (some ⟨cb, some (alloc (w.table.map Prod.fst)), true⟩)) a none) c (some ⟨cc, none, false⟩)) c
        (some ⟨cc, some (alloc (w.table.map Prod.fst)), true⟩), (alloc (w.table.map Prod.fst), z) :: w.table,
        w.got ++ [(z, bs)]⟩ := by
  simp [Outcome.bind, run, step, ea, eb, ec, upd, shutDown, release_top ha, hab, hac, hbc, hab.symm, hac.symm,
    hbc.symm, List.lookup]

/-- A client that was refused is destroyed later. -/
theorem run_refused {alloc : List Nat → Nat} (ha : Fresh alloc) (w : Proc) (a b c : Nat) (hab : a ≠ b) (hac : a ≠ c)
    (hbc : b ≠ c) (ea : w.obj a = none) (eb : w.obj b = none) (ec : w.obj c = none) (cb cc : Cls) (y z : Nat)
    (bs : List Nat) :
    run alloc w [.make a .client, .refuse a, .make b cb, .open b y, .destroy a, .make c cc, .open c z,
      .write b bs] = .ok ⟨upd (upd (upd (upd (upd (upd (upd w.obj a (some ⟨.client, none, false⟩)) a
        (some ⟨.client, some (alloc (w.table.map Prod.fst)), false⟩)) b (some ⟨cb, none, false⟩)) b
        (some ⟨cb, some (alloc (w.table.map Prod.fst)), true⟩)) a none) c (some ⟨cc, none, false⟩)) c
        (some ⟨cc, some (alloc (w.table.map Prod.fst)), true⟩), (alloc (w.table.map Prod.fst), z) :: w.table,
        w.got ++ [(z, bs)]⟩ := by
  simp [Outcome.bind, run, step, ea, eb, ec, upd, shutDown, release_top ha, hab, hac, hbc, hab.symm, hac.symm,
    hbc.symm, List.lookup]

/-- An open device is copied and the copy destroyed. -/
theorem run_copy {alloc : List Nat → Nat} (ha : Fresh alloc) (w : Proc) (a b : Nat) (hab : a ≠ b)
    (ea : w.obj a = none) (eb : w.obj b = none) (cb : Cls) (x : Nat) :
    run alloc w [.make b cb, .open b x, .copy a b, .destroy a] = .ok ⟨upd (upd (upd (upd w.obj b
        (some ⟨cb, none, false⟩)) b (some ⟨cb, some (alloc (w.table.map Prod.fst)), true⟩)) a
        (some ⟨cb, some (alloc (w.table.map Prod.fst)), true⟩)) a none, w.table, w.got⟩ := by
  cases cb <;> simp [Outcome.bind, run, step, ea, eb, upd, shutDown, release_top ha, hab, hab.symm]

end Ecl.Props.C144

namespace Ecl.Props
open Ecl Ecl.Near Ecl.Spec Ecl.Spec.Near C144

/-- **C144** (partial): in every considerate history, for every way in which the system chooses free numbers, no call is
undefined; what was written has arrived where the devices led that it was written to, in order, and nowhere else; and
when no device leads anywhere, the process has no descriptor left. -/
theorem C144_considerate_partial {alloc : List Nat → Nat} (ha : Fresh alloc) (ops : List Op)
    (h : AllConsiderate nobody ops) :
    ∃ w, run alloc Proc.empty ops = .ok w ∧ w.got = arrives nobody ops ∧
      ((∀ o c l, plan ops o ≠ some (c, some l)) → w.table = []) := by
  obtain ⟨w, e, hi, g⟩ := C144.run_inv ha ops nobody Proc.empty nobody_inv h
  refine ⟨w, e, by simpa [Proc.empty] using g, fun hn => ?_⟩
  rw [List.eq_nil_iff_forall_not_mem]
  intro x hx
  obtain ⟨o, c, ho⟩ := hi.held x hx
  cases hd : plan ops o with
  | none => rw [hi.absent o hd] at ho; cases ho
  | some d =>
    obtain ⟨c', l⟩ := d
    cases l with
    | none => obtain ⟨fd, k⟩ := hi.shut o c' hd; rw [k] at ho; simp at ho
    | some l => exact hn o c' l hd

/-- **C144**: what a write says: it says that it wrote everything exactly if the device leads somewhere. -/
theorem C144_write_partial {alloc : List Nat → Nat} (ha : Fresh alloc) (ops : List Op) (h : AllConsiderate nobody ops)
    (w : Proc) (hw : run alloc Proc.empty ops = .ok w) (o : Nat) (c : Cls) (l : Option Nat)
    (ho : plan ops o = some (c, l)) (bs : List Nat) :
    step alloc w (.write o bs) = .ok (match (generalizing := false) l with
      | some l => ({ w with got := w.got ++ [(l, bs)] }, .wrote bs.length)
      | none => (w, .shut)) := by
  obtain ⟨w', e, hi, _⟩ := C144.run_inv ha ops nobody Proc.empty nobody_inv h
  rw [hw] at e
  cases e
  cases l with
  | none =>
    obtain ⟨fd, k⟩ := hi.shut o c ho
    simp [step, k]
  | some l =>
    obtain ⟨n, k, hm⟩ := hi.leads o c l ho
    simp only [step, k, if_true, lookup_mem hi.keys hm]

example : AllConsiderate nobody [.make 1 .client, .make 2 .serial, .make 3 .client, .open 1 10, .open 2 20, .open 3 30,
    .write 1 [1, 2], .destroy 1, .write 2 [3], .close 2, .copy 4 2, .open 4 40, .write 4 [4], .open 3 31, .write 3 [5],
    .write 2 [6], .destroy 2, .refuse 3, .write 3 [7], .refuse 4] ∧
    arrives nobody [.make 1 .client, .make 2 .serial, .make 3 .client, .open 1 10, .open 2 20, .open 3 30,
    .write 1 [1, 2], .destroy 1, .write 2 [3], .close 2, .copy 4 2, .open 4 40, .write 4 [4], .open 3 31, .write 3 [5],
    .write 2 [6], .destroy 2, .refuse 3, .write 3 [7], .refuse 4] = [(10, [1, 2]), (20, [3]), (40, [4]), (31, [5])] := by
  simp [AllConsiderate, Considerate, next, put, nobody, arrives]

/-- **C144** fails, though nothing is copied: a client is closed and, after another device was opened, destroyed.  It closes
the descriptor of the other device, and what is written to that arrives where a third device leads. -/
theorem C144_fails_closed_client {alloc : List Nat → Nat} (ha : Fresh alloc) (ops : List Op)
    (h : AllConsiderate nobody ops) (a b c : Nat) (hab : a ≠ b) (hac : a ≠ c) (hbc : b ≠ c)
    (na : plan ops a = none) (nb : plan ops b = none) (nc : plan ops c = none) (cb cc : Cls) (x y z : Nat)
    (bs : List Nat) :
    ∃ w, run alloc Proc.empty (ops ++ [.make a .client, .open a x, .close a, .make b cb, .open b y, .destroy a,
      .make c cc, .open c z, .write b bs]) = .ok w ∧ w.got = arrives nobody ops ++ [(z, bs)] := by
  obtain ⟨w, e, hi, g⟩ := C144.run_inv ha ops nobody Proc.empty nobody_inv h
  have k := run_stale ha w a b c hab hac hbc (hi.absent a na) (hi.absent b nb) (hi.absent c nc) cb cc x y z bs
  refine ⟨_, by rw [run_append, e]; exact k, ?_⟩
  simpa [Proc.empty] using g

/-- **C144** fails, though nothing is closed: a client whose connection was refused is destroyed after another device was
opened.  It closes the descriptor of the other device, and what is written to that arrives where a third device leads. -/
theorem C144_fails_refused {alloc : List Nat → Nat} (ha : Fresh alloc) (ops : List Op)
    (h : AllConsiderate nobody ops) (a b c : Nat) (hab : a ≠ b) (hac : a ≠ c) (hbc : b ≠ c)
    (na : plan ops a = none) (nb : plan ops b = none) (nc : plan ops c = none) (cb cc : Cls) (y z : Nat)
    (bs : List Nat) :
    ∃ w, run alloc Proc.empty (ops ++ [.make a .client, .refuse a, .make b cb, .open b y, .destroy a,
      .make c cc, .open c z, .write b bs]) = .ok w ∧ w.got = arrives nobody ops ++ [(z, bs)] := by
  obtain ⟨w, e, hi, g⟩ := C144.run_inv ha ops nobody Proc.empty nobody_inv h
  have k := run_refused ha w a b c hab hac hbc (hi.absent a na) (hi.absent b nb) (hi.absent c nc) cb cc y z bs
  refine ⟨_, by rw [run_append, e]; exact k, ?_⟩
  simpa [Proc.empty] using g

/-- What a refused client or port says, and that nothing else is touched: the table, what arrived, the other devices. -/
theorem C144_refused {alloc : List Nat → Nat} (ha : Fresh alloc) (ops : List Op) (h : AllConsiderate nobody ops)
    (w : Proc) (hw : run alloc Proc.empty ops = .ok w) (o : Nat) (c : Cls) (ho : plan ops o = some (c, none)) :
    ∃ w', step alloc w (.refuse o) = .ok (w', .failed) ∧ w'.table = w.table ∧ w'.got = w.got ∧
      (∀ x, x ≠ o → w'.obj x = w.obj x) ∧ ∀ bs, step alloc w' (.write o bs) = .ok (w', .shut) := by
  obtain ⟨w', e, hi, _⟩ := C144.run_inv ha ops nobody Proc.empty nobody_inv h
  rw [hw] at e
  cases e
  obtain ⟨fd, k⟩ := hi.shut o c ho
  cases c with
  | client =>
    exact ⟨⟨upd w.obj o (some ⟨.client, some (alloc (w.table.map Prod.fst)), false⟩), w.table, w.got⟩,
      by simp only [step, k, release_top ha, Outcome.bind, if_false, Bool.false_eq_true], rfl, rfl,
      fun x hx => upd_other _ _ hx, fun bs => by simp [step, upd_same]⟩
  | serial =>
    exact ⟨⟨upd w.obj o (some ⟨.serial, none, false⟩), w.table, w.got⟩,
      by simp only [step, k, Outcome.bind, if_false, Bool.false_eq_true], rfl, rfl,
      fun x hx => upd_other _ _ hx, fun bs => by simp [step, upd_same]⟩

/-- **C144** fails: a device that leads somewhere is copied and the copy destroyed.  What is written to the device then is
refused, and once another device was opened arrives where that one leads. -/
theorem C144_fails_copy {alloc : List Nat → Nat} (ha : Fresh alloc) (ops : List Op)
    (h : AllConsiderate nobody ops) (a b c : Nat) (hab : a ≠ b) (hac : a ≠ c) (hbc : b ≠ c)
    (na : plan ops a = none) (nb : plan ops b = none) (nc : plan ops c = none) (cb cc : Cls) (x z : Nat)
    (bs : List Nat) :
    (∃ w, run alloc Proc.empty (ops ++ [.make b cb, .open b x, .copy a b, .destroy a]) = .ok w ∧
      step alloc w (.write b bs) = .ok (w, .failed)) ∧
    ∃ w, run alloc Proc.empty (ops ++ [.make b cb, .open b x, .copy a b, .destroy a, .make c cc, .open c z,
      .write b bs]) = .ok w ∧ w.got = arrives nobody ops ++ [(z, bs)] := by
  obtain ⟨w, e, hi, g⟩ := C144.run_inv ha ops nobody Proc.empty nobody_inv h
  have k := run_copy ha w a b hab (hi.absent a na) (hi.absent b nb) cb x
  refine ⟨⟨_, by rw [run_append, e]; exact k, ?_⟩, ?_⟩
  · have hl : w.table.lookup (alloc (w.table.map Prod.fst)) = none := by
      rw [List.lookup_eq_none_iff]
      intro p hp
      have := ha (w.table.map Prod.fst)
      simp only [bne_iff_ne, ne_eq]
      intro e
      exact this (e ▸ List.mem_map_of_mem hp)
    simp only [step, upd_other _ _ hab.symm, upd_same, if_true, hl]
  · refine ⟨⟨upd (upd (upd (upd (upd (upd w.obj b (some ⟨cb, none, false⟩)) b
        (some ⟨cb, some (alloc (w.table.map Prod.fst)), true⟩)) a
        (some ⟨cb, some (alloc (w.table.map Prod.fst)), true⟩)) a none) c (some ⟨cc, none, false⟩)) c
        (some ⟨cc, some (alloc (w.table.map Prod.fst)), true⟩), (alloc (w.table.map Prod.fst), z) :: w.table,
        w.got ++ [(z, bs)]⟩, ?_, ?_⟩
    · rw [show ops ++ [.make b cb, .open b x, .copy a b, .destroy a, .make c cc, .open c z, .write b bs] =
        ops ++ ([.make b cb, .open b x, .copy a b, .destroy a] ++ [.make c cc, .open c z, .write b bs]) from rfl,
        run_append, e]
      simp only [Outcome.bind]
      rw [run_append, k]
      simp [Outcome.bind, run, step, upd, hi.absent c nc, hac.symm, hbc, hbc.symm, hab.symm, List.lookup]
    · simpa [Proc.empty] using g

/-- **C144** fails: assigning to a port that leads somewhere: its descriptor is never released, though no device is left. -/
theorem C144_fails_assign {alloc : List Nat → Nat} (ha : Fresh alloc) (ops : List Op)
    (h : AllConsiderate nobody ops) (a b : Nat) (hab : a ≠ b)
    (na : plan ops a = none) (nb : plan ops b = none) (x : Nat) :
    ∃ w, run alloc Proc.empty (ops ++ [.make a .serial, .open a x, .make b .serial, .assign a b, .destroy a,
      .destroy b]) = .ok w ∧ w.table ≠ [] ∧ plan (ops ++ [.make a .serial, .open a x, .make b .serial, .assign a b,
        .destroy a, .destroy b]) = plan ops := by
  obtain ⟨w, e, hi, g⟩ := C144.run_inv ha ops nobody Proc.empty nobody_inv h
  refine ⟨⟨upd (upd (upd (upd (upd (upd w.obj a (some ⟨.serial, none, false⟩)) a
    (some ⟨.serial, some (alloc (w.table.map Prod.fst)), true⟩)) b (some ⟨.serial, none, false⟩)) a
    (some ⟨.serial, none, false⟩)) a none) b none, (alloc (w.table.map Prod.fst), x) :: w.table, w.got⟩, ?_, by simp, ?_⟩
  · rw [run_append, e]
    simp [Outcome.bind, run, step, upd, shutDown, hi.absent a na, hi.absent b nb, hab, hab.symm]
  · have na' := na
    have nb' := nb
    simp only [plan] at na' nb' ⊢
    rw [List.foldl_append]
    funext o
    simp only [List.foldl_cons, List.foldl_nil, next, put]
    by_cases h1 : o = b
    · simp [h1, nb']
    · by_cases h2 : o = a <;> simp [h1, h2, na']

end Ecl.Props
