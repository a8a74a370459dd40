import Verif.Spec.SigSlotWires
import Mathlib.Data.List.Basic
import Mathlib.Data.List.Nodup
import Mathlib.Tactic.Common

/-! # Interleaved programs that access different cells -/
set_option autoImplicit false
set_option linter.unusedSimpArgs false

namespace Ecl.SigSlots.Wires
open Ecl.Spec.Wiring

/-- The program, from `m`, writes only cells in `W` and reads only cells in `R`. -/
def Within (W R : Cell → Prop) : Prog → Mem → Prop
  | .ret _, _ => True
  | .put c v p, m => W c ∧ Within W R p (Function.update m c v)
  | .get c k, m => R c ∧ Within W R (k (m c)) m

theorem Within.mono {W R W' R' : Cell → Prop} (hW : ∀ c, W c → W' c) (hR : ∀ c, R c → R' c) :
    ∀ (p : Prog) (m : Mem), Within W R p m → Within W' R' p m := by
  intro p
  induction p with
  | ret r => intro _ _; trivial
  | put c v p ih => intro m h; exact ⟨hW c h.1, ih _ h.2⟩
  | get c k ih => intro m h; exact ⟨hR c h.1, ih _ _ h.2⟩

/-- Cells that are not written keep their values. -/
theorem Within.frame {W R : Cell → Prop} : ∀ (p : Prog) (m : Mem), Within W R p m → ∀ c, ¬ W c → (p.run m).2 c = m c := by
  intro p
  induction p with
  | ret r => intro m _ c _; rfl
  | put x v p ih =>
    intro m h c hc
    have hne : c ≠ x := by rintro rfl; exact hc h.1
    rw [Prog.run, ih _ h.2 c hc, Function.update_of_ne hne]
  | get x k ih => intro m h c hc; exact ih _ _ h.2 c hc

/-- Memories that agree on what is read. -/
theorem Within.agree {W R A : Cell → Prop} (hA : ∀ c, R c → A c) : ∀ (p : Prog) (m m' : Mem), Within W R p m →
    (∀ c, A c → m c = m' c) →
    Within W R p m' ∧ (p.run m').1 = (p.run m).1 ∧ ∀ c, A c → (p.run m).2 c = (p.run m').2 c := by
  intro p
  induction p with
  | ret r => intro m m' _ h; exact ⟨trivial, rfl, h⟩
  | put x v p ih =>
    intro m m' h hm
    obtain ⟨h1, h2, h3⟩ := ih (Function.update m x v) (Function.update m' x v) h.2 (by
      intro c hc
      by_cases e : c = x
      · subst e; simp
      · rw [Function.update_of_ne e, Function.update_of_ne e]; exact hm c hc)
    exact ⟨⟨h.1, h1⟩, h2, h3⟩
  | get x k ih =>
    intro m m' h hm
    have e : m x = m' x := hm x (hA x h.1)
    obtain ⟨h1, h2, h3⟩ := ih (m x) m m' h.2 hm
    refine ⟨⟨h.1, ?_⟩, ?_, ?_⟩
    · rw [← e]; exact h1
    · rw [Prog.run, Prog.run, ← e]; exact h2
    · rw [Prog.run, Prog.run, ← e]; exact h3

/-! ## The cells of a call -/

/-- What a call may write. -/
def Writes (m : Mem) (c : Call) : Cell → Prop
  | .topics => Rewires m c
  | .pubs t | .subs t => Rewires m c ∧ t ∈ topicsOf m c
  | .handles e | .subscriptions e | .publications e => e = endpoint c
  | .busy s => Reached m c s

/-- What it may read. -/
def Reads (m : Mem) (c : Call) : Cell → Prop
  | .topics => Rewires m c
  | .pubs t | .subs t => t ∈ topicsOf m c
  | .handles e | .subscriptions e | .publications e => e = endpoint c
  | .busy s => Reached m c s

theorem writes_reads {m : Mem} {c : Call} (x : Cell) (h : Writes m c x) : Reads m c x := by
  cases x <;> first | exact h.2 | exact h

/-- Separate calls do not meet. -/
theorem separate_writes {m m' : Mem} {c c' : Call} (h : Separate m c m' c') (x : Cell) (hw : Writes m c x) :
    ¬ Reads m' c' x := by
  obtain ⟨h1, h2, h3, h4⟩ := h
  cases x with
  | topics => intro hr; exact h2 ⟨hw, hr⟩
  | pubs t => intro hr; exact h3 (Or.inl hw.1) t hw.2 hr
  | subs t => intro hr; exact h3 (Or.inl hw.1) t hw.2 hr
  | handles e => intro hr; exact h1 (hw.symm.trans hr)
  | subscriptions e => intro hr; exact h1 (hw.symm.trans hr)
  | publications e => intro hr; exact h1 (hw.symm.trans hr)
  | busy s => intro hr; exact h4 s hw hr

theorem separate_symm {m m' : Mem} {c c' : Call} (h : Separate m c m' c') : Separate m' c' m c := by
  obtain ⟨h1, h2, h3, h4⟩ := h
  exact ⟨h1.symm, fun h => h2 h.symm, fun h t ht ht' => h3 h.symm t ht' ht, fun s a b => h4 s b a⟩

section
variable {W R : Cell → Prop} {k : Prog} {m : Mem}

theorem within_addTo {c : Cell} {x : Nat} (hr : R c) (hw : W c) (hk : ∀ m', (∀ d, d ≠ c → m' d = m d) → Within W R k m') :
    Within W R (addTo c x k) m := by
  refine ⟨hr, ?_⟩
  dsimp only
  split_ifs
  · exact hk m fun _ _ => rfl
  · exact ⟨hw, hk _ fun d hd => Function.update_of_ne hd _ _⟩

theorem within_removeFrom {c : Cell} {x : Nat} (hr : R c) (hw : W c)
    (hk : ∀ m', (∀ d, d ≠ c → m' d = m d) → Within W R k m') : Within W R (removeFrom c x k) m := by
  refine ⟨hr, ?_⟩
  dsimp only
  split_ifs
  · exact ⟨hw, hk _ fun d hd => Function.update_of_ne hd _ _⟩
  · exact hk m fun _ _ => rfl

/-- Cells other than those of the manager. -/
def Own : Cell → Prop
  | .topics | .pubs _ | .subs _ => False
  | _ => True

theorem within_insertTopic {t : Nat} (h0 : R .topics ∧ W .topics) (h1 : W (.pubs t)) (h2 : W (.subs t))
    (hk : ∀ m', (∀ d, Own d → m' d = m d) → Within W R k m') : Within W R (insertTopic t k) m := by
  refine ⟨h0.1, ?_⟩
  dsimp only
  split_ifs
  · exact hk m fun _ _ => rfl
  · refine ⟨h0.2, h1, h2, hk _ fun d hd => ?_⟩
    cases d <;> first | exact hd.elim | simp

theorem within_disconnectTopic {e t : Nat} (h0 : R .topics ∧ W .topics) (h1 : R (.pubs t) ∧ W (.pubs t))
    (h2 : R (.subs t) ∧ W (.subs t)) (hk : ∀ m', (∀ d, Own d → m' d = m d) → Within W R k m') :
    Within W R (disconnectTopic e t k) m := by
  refine ⟨h0.1, ?_⟩
  dsimp only
  split_ifs
  · refine within_removeFrom h1.1 h1.2 fun m1 hm1 => within_removeFrom h2.1 h2.2 fun m2 hm2 => ⟨h1.1, h2.1, ?_⟩
    dsimp only
    have h3 : ∀ d, Own d → m2 d = m d := by
      intro d hd
      cases d <;> first | exact hd.elim | exact (hm2 _ (by simp)).trans (hm1 _ (by simp))
    split_ifs
    · refine ⟨h0.2, hk _ fun d hd => ?_⟩
      rw [← h3 d hd]
      cases d <;> first | exact hd.elim | simp
    · exact hk _ h3
  · trivial

theorem within_disconnectLoop {e : Nat} : ∀ (ts : List Nat) (m : Mem), R .topics ∧ W .topics →
    (∀ t ∈ ts, (R (.pubs t) ∧ W (.pubs t)) ∧ (R (.subs t) ∧ W (.subs t))) →
    (∀ m', (∀ d, Own d → m' d = m d) → Within W R k m') → Within W R (disconnectLoop e k ts) m := by
  intro ts
  induction ts with
  | nil => intro m _ _ hk; exact hk m fun _ _ => rfl
  | cons t ts ih =>
    intro m h0 h1 hk
    have h2 := h1 t (by simp)
    refine within_disconnectTopic h0 h2.1 h2.2 fun m1 hm1 => ih m1 h0 (fun u hu => h1 u (by simp [hu])) ?_
    exact fun m' hm' => hk m' fun d hd => (hm' d hd).trans (hm1 d hd)

theorem within_disconnectAll {e : Nat} (h0 : R .topics ∧ W .topics)
    (h1 : ∀ t, t ∈ m (.subscriptions e) ∨ t ∈ m (.publications e) →
      (R (.pubs t) ∧ W (.pubs t)) ∧ (R (.subs t) ∧ W (.subs t)))
    (h2 : R (.subscriptions e) ∧ W (.subscriptions e)) (h3 : R (.publications e) ∧ W (.publications e))
    (hk : ∀ m', Within W R k m') : Within W R (disconnectAll e k) m := by
  refine ⟨h2.1, within_disconnectLoop _ _ h0 (fun t ht => h1 t (Or.inl ht)) fun m1 hm1 => ⟨h2.2, h3.1, ?_⟩⟩
  have e1 : Function.update m1 (.subscriptions e) [] (.publications e) = m (.publications e) := by
    rw [Function.update_of_ne (by simp)]
    exact hm1 _ trivial
  rw [e1]
  exact within_disconnectLoop _ _ h0 (fun t ht => h1 t (Or.inr ht)) fun m2 _ => ⟨h3.2, hk _⟩

theorem within_processAll {f : List Nat → Prog} : ∀ (ss log : List Nat) (m : Mem),
    (∀ s ∈ ss, R (.busy s) ∧ W (.busy s)) →
    (∀ m' log, (∀ t, m' (.subs t) = m (.subs t)) → Within W R (f log) m') → Within W R (processAll f ss log) m := by
  intro ss
  induction ss with
  | nil => intro log m _ hk; exact hk m log fun _ => rfl
  | cons s ss ih =>
    intro log m h hk
    have h1 := h s (by simp)
    refine ⟨h1.1, h1.2, h1.1, h1.2, ih _ _ (fun u hu => h u (by simp [hu])) ?_⟩
    refine fun m' log hm' => hk m' log fun t => (hm' t).trans ?_
    simp

theorem within_emitLoop : ∀ (ts log : List Nat) (m : Mem),
    (∀ t ∈ ts, R (.subs t) ∧ ∀ s ∈ m (.subs t), R (.busy s) ∧ W (.busy s)) → Within W R (emitLoop ts log) m := by
  intro ts
  induction ts with
  | nil => intro _ _ _; trivial
  | cons t ts ih =>
    intro log m h
    have h1 := h t (by simp)
    refine ⟨h1.1, within_processAll _ _ _ h1.2 fun m' log hm' => ih log m' fun u hu => ?_⟩
    rw [hm']
    exact h u (by simp [hu])

end

/-- Calls keep to their cells. -/
theorem within_call (m : Mem) (c : Call) : Within (Writes m c) (Reads m c) c.prog m := by
  have both (x : Cell) (h : Writes m c x) : Reads m c x ∧ Writes m c x := ⟨writes_reads x h, h⟩
  cases c with
  | create e => exact ⟨rfl, rfl, rfl, trivial⟩
  | copy e => exact ⟨rfl, rfl, trivial⟩
  | drop e =>
    refine ⟨rfl, rfl, rfl, ?_⟩
    simp only [Function.update_self]
    split_ifs with h
    · have h' : num (m (.handles e)) ≤ 1 := by
        simp only [num, List.headD_cons] at h ⊢
        omega
      refine within_disconnectAll (both .topics h') ?_ (both _ rfl) (both _ rfl) fun _ => trivial
      intro t ht
      rw [Function.update_of_ne (by simp), Function.update_of_ne (by simp)] at ht
      have ht' : t ∈ topicsOf m (.drop e) := by
        simp only [topicsOf, if_pos h', List.mem_append]
        exact ht
      exact ⟨both (.pubs t) ⟨h', ht'⟩, both (.subs t) ⟨h', ht'⟩⟩
    · trivial
  | connect e t =>
    have ht : t ∈ topicsOf m (.connect e t) := by simp [topicsOf]
    refine within_insertTopic (both .topics trivial) (⟨trivial, ht⟩ : Writes m (.connect e t) (.pubs t))
      (⟨trivial, ht⟩ : Writes m (.connect e t) (.subs t)) fun m1 _ => ?_
    have h1 := both (.pubs t) ⟨trivial, ht⟩
    refine within_addTo h1.1 h1.2 fun m2 _ => ?_
    have h2 := both (.publications e) rfl
    exact within_addTo h2.1 h2.2 fun _ _ => trivial
  | subscribe e t =>
    have ht : t ∈ topicsOf m (.subscribe e t) := by simp [topicsOf]
    refine ⟨rfl, ?_⟩
    dsimp only
    split_ifs
    · trivial
    · refine ⟨rfl, within_insertTopic (both .topics trivial) (⟨trivial, ht⟩ : Writes m (.subscribe e t) (.pubs t))
        (⟨trivial, ht⟩ : Writes m (.subscribe e t) (.subs t)) fun m1 _ => ?_⟩
      have h1 := both (.subs t) ⟨trivial, ht⟩
      exact within_addTo h1.1 h1.2 fun _ _ => trivial
  | disconnect e =>
    refine within_disconnectAll (both .topics trivial) ?_ (both _ rfl) (both _ rfl) fun _ => trivial
    intro t ht
    have ht' : t ∈ topicsOf m (.disconnect e) := by
      simp only [topicsOf, List.mem_append]
      exact ht
    exact ⟨both (.pubs t) ⟨trivial, ht'⟩, both (.subs t) ⟨trivial, ht'⟩⟩
  | emit e =>
    refine ⟨rfl, within_emitLoop _ _ _ fun t ht => ⟨ht, fun s hs => ?_⟩⟩
    exact both (.busy s) ⟨e, rfl, t, ht, hs⟩

/-! ## Interleavings -/

theorem serial_append (m : Mem) (cs : List Call) (c : Call) :
    serial m (cs ++ [c]) = ((serial m cs).1 ++ [(c.prog.run (serial m cs).2).1], (c.prog.run (serial m cs).2).2) := by
  induction cs generalizing m with
  | nil => rfl
  | cons d ds ih => simp only [List.cons_append, serial, ih]

theorem serial_length (m : Mem) (cs : List Call) : (serial m cs).1.length = cs.length := by
  induction cs generalizing m with
  | nil => rfl
  | cons d ds ih => simp only [serial, List.length_cons, ih]

/-- The state of an orderly history. -/
structure Inv (m0 : Mem) (s : State) : Prop where
  within : ∀ i a, s.th i = some a → Within (Writes a.tables a.call) (Reads a.tables a.call) a.rest s.mem
  apart : ∀ i j a b, i ≠ j → s.th i = some a → s.th j = some b → Separate a.tables a.call b.tables b.call
  writes : ∀ i a, s.th i = some a → ∀ x, Writes a.tables a.call x →
    (serial m0 s.begun).2 x = (a.rest.run s.mem).2 x
  others : ∀ x, (∀ i a, s.th i = some a → ¬ Writes a.tables a.call x) → (serial m0 s.begun).2 x = s.mem x
  active : ∀ i a, s.th i = some a → (serial m0 s.begun).1[a.number]? = some (a.rest.run s.mem).1
  over : ∀ n r, s.results n = some r → (serial m0 s.begun).1[n]? = some r

theorem Inv.init : Inv (fun _ => []) Wires.init where
  within := by intro i a h; simp [Wires.init] at h
  apart := by intro i j a b _ h; simp [Wires.init] at h
  writes := by intro i a h; simp [Wires.init] at h
  others := by intro x _; rfl
  active := by intro i a h; simp [Wires.init] at h
  over := by intro n r h; simp [Wires.init] at h

theorem upd_th {th : Nat → Option Active} {i j : Nat} {a : Option Active} {b : Active}
    (h : Function.update th i a j = some b) : (j = i ∧ a = some b) ∨ (j ≠ i ∧ th j = some b) := by
  by_cases e : j = i
  · subst e
    rw [Function.update_self] at h
    exact Or.inl ⟨rfl, h⟩
  · rw [Function.update_of_ne e] at h
    exact Or.inr ⟨e, h⟩

theorem Inv.start {m0 : Mem} {s : State} (h : Inv m0 s) {i : Nat} {c : Call} (hi : s.th i = none)
    (ho : ∀ j a, s.th j = some a → Separate a.tables a.call s.mem c) : Inv m0 (step s (.start i c)) := by
  have hs : step s (.start i c) =
      ⟨s.mem, Function.update s.th i (some ⟨c, s.mem, s.begun.length, c.prog⟩), s.begun ++ [c], s.results⟩ := by
    simp only [step, hi]
  rw [hs]
  have hw := within_call s.mem c
  -- on the cells of the new call, the serial memory is the real one
  have hagree : ∀ x, Reads s.mem c x → s.mem x = (serial m0 s.begun).2 x := by
    intro x hx
    refine (h.others x fun j a hj hwr => ?_).symm
    exact separate_writes (ho j a hj) x hwr hx
  obtain ⟨g1, g2, g3⟩ := Within.agree (A := Reads s.mem c) (fun _ h => h) _ _ _ hw hagree
  have hframe := Within.frame _ _ g1
  have hlen := serial_length m0 s.begun
  constructor
  · intro j a hj
    rcases upd_th hj with ⟨rfl, e⟩ | ⟨hne, e⟩
    · cases e; exact hw
    · exact h.within j a e
  · intro j k a b hjk hj hk
    rcases upd_th hj with ⟨rfl, e⟩ | ⟨hne, e⟩
    · rcases upd_th hk with ⟨rfl, e'⟩ | ⟨hne', e'⟩
      · exact absurd rfl hjk
      · cases e; exact separate_symm (ho k b e')
    · rcases upd_th hk with ⟨rfl, e'⟩ | ⟨hne', e'⟩
      · cases e'; exact ho j a e
      · exact h.apart j k a b hjk e e'
  · intro j a hj x hx
    simp only [serial_append]
    rcases upd_th hj with ⟨rfl, e⟩ | ⟨hne, e⟩
    · cases e
      exact (g3 x (writes_reads x hx)).symm
    · rw [hframe x fun hc => separate_writes (separate_symm (ho j a e)) x hc (writes_reads x hx)]
      exact h.writes j a e x hx
  · intro x hx
    simp only [serial_append]
    have hc : ¬ Writes s.mem c x := hx i _ (Function.update_self ..)
    rw [hframe x hc]
    refine h.others x fun j a hj => hx j a ?_
    exact (Function.update_of_ne (by rintro rfl; rw [hi] at hj; cases hj) _ _).trans hj
  · intro j a hj
    simp only [serial_append]
    rcases upd_th hj with ⟨rfl, e⟩ | ⟨hne, e⟩
    · cases e
      simp only
      rw [List.getElem?_append_right (by omega), hlen]
      simp [g2]
    · have := h.active j a e
      rw [List.getElem?_append_left]
      · exact this
      · exact (List.getElem?_eq_some_iff.1 this).1
  · intro n r hr
    simp only [serial_append]
    have := h.over n r hr
    rw [List.getElem?_append_left]
    · exact this
    · exact (List.getElem?_eq_some_iff.1 this).1

theorem Inv.proceed {m0 : Mem} {s : State} (h : Inv m0 s) (i : Nat) : Inv m0 (step s (.step i)) := by
  cases hi : s.th i with
  | none =>
    have hs : step s (.step i) = s := by simp only [step, hi]
    rw [hs]; exact h
  | some a =>
    obtain ⟨c, m, n, p⟩ := a
    have hw := h.within i _ hi
    cases p with
    | ret r =>
      have hs : step s (.step i) =
          ⟨s.mem, Function.update s.th i none, s.begun, Function.update s.results n (some r)⟩ := by
        simp only [step, hi]
      rw [hs]
      constructor
      · intro j b hj
        rcases upd_th hj with ⟨_, e⟩ | ⟨_, e⟩
        · cases e
        · exact h.within j b e
      · intro j k a b hjk hj hk
        rcases upd_th hj with ⟨_, e⟩ | ⟨_, e⟩
        · cases e
        · rcases upd_th hk with ⟨_, e'⟩ | ⟨_, e'⟩
          · cases e'
          · exact h.apart j k a b hjk e e'
      · intro j b hj
        rcases upd_th hj with ⟨_, e⟩ | ⟨_, e⟩
        · cases e
        · exact h.writes j b e
      · intro x hx
        by_cases hxw : Writes m c x
        · exact h.writes i _ hi x hxw
        · refine h.others x fun j b hj => ?_
          by_cases e : j = i
          · subst e
            rw [hi] at hj
            cases hj
            exact hxw
          · exact hx j b ((Function.update_of_ne e _ _).trans hj)
      · intro j b hj
        rcases upd_th hj with ⟨_, e⟩ | ⟨_, e⟩
        · cases e
        · exact h.active j b e
      · intro k q hk
        by_cases e : k = n
        · subst e
          simp only [Function.update_self, Option.some.injEq] at hk
          subst hk
          exact h.active i _ hi
        · simp only [Function.update_of_ne e] at hk
          exact h.over k q hk
    | get x k =>
      have hs : step s (.step i) =
          ⟨s.mem, Function.update s.th i (some ⟨c, m, n, k (s.mem x)⟩), s.begun, s.results⟩ := by
        simp only [step, hi]
      rw [hs]
      constructor
      · intro j b hj
        rcases upd_th hj with ⟨_, e⟩ | ⟨_, e⟩
        · cases e; exact hw.2
        · exact h.within j b e
      · intro j l a b hjk hj hk
        rcases upd_th hj with ⟨e0, e⟩ | ⟨_, e⟩
        · rcases upd_th hk with ⟨e1, e'⟩ | ⟨_, e'⟩
          · exact absurd (e0.trans e1.symm) hjk
          · cases e; subst e0; have q := h.apart _ l _ b hjk hi e'; exact q
        · rcases upd_th hk with ⟨e1, e'⟩ | ⟨_, e'⟩
          · cases e'; subst e1; have q := h.apart j _ a _ hjk e hi; exact q
          · exact h.apart j l a b hjk e e'
      · intro j b hj
        rcases upd_th hj with ⟨_, e⟩ | ⟨_, e⟩
        · cases e; have q := h.writes i _ hi; exact q
        · exact h.writes j b e
      · intro y hy
        refine h.others y fun j b hj => ?_
        by_cases e : j = i
        · subst e
          rw [hi] at hj
          cases hj
          exact hy j ⟨c, m, n, k (s.mem x)⟩ (Function.update_self ..)
        · exact hy j b ((Function.update_of_ne e _ _).trans hj)
      · intro j b hj
        rcases upd_th hj with ⟨_, e⟩ | ⟨_, e⟩
        · cases e; have q := h.active i _ hi; exact q
        · exact h.active j b e
      · exact h.over
    | put x v p =>
      have hs : step s (.step i) =
          ⟨Function.update s.mem x v, Function.update s.th i (some ⟨c, m, n, p⟩), s.begun, s.results⟩ := by
        simp only [step, hi]
      rw [hs]
      have hx : Writes m c x := hw.1
      -- other threads do not see the cell
      have key : ∀ j b, j ≠ i → s.th j = some b →
          Within (Writes b.tables b.call) (Reads b.tables b.call) b.rest (Function.update s.mem x v) ∧
          (b.rest.run (Function.update s.mem x v)).1 = (b.rest.run s.mem).1 ∧
          ∀ y, Reads b.tables b.call y → (b.rest.run s.mem).2 y = (b.rest.run (Function.update s.mem x v)).2 y := by
        intro j b hne hj
        refine Within.agree (fun _ h => h) _ _ _ (h.within j b hj) fun y hy => ?_
        have : y ≠ x := by
          rintro rfl
          exact separate_writes (h.apart i j _ b hne.symm hi hj) y hx hy
        rw [Function.update_of_ne this]
      constructor
      · intro j b hj
        rcases upd_th hj with ⟨_, e⟩ | ⟨hne, e⟩
        · cases e; exact hw.2
        · exact (key j b hne e).1
      · intro j l a b hjk hj hk
        rcases upd_th hj with ⟨e0, e⟩ | ⟨_, e⟩
        · rcases upd_th hk with ⟨e1, e'⟩ | ⟨_, e'⟩
          · exact absurd (e0.trans e1.symm) hjk
          · cases e; subst e0; have q := h.apart _ l _ b hjk hi e'; exact q
        · rcases upd_th hk with ⟨e1, e'⟩ | ⟨_, e'⟩
          · cases e'; subst e1; have q := h.apart j _ a _ hjk e hi; exact q
          · exact h.apart j l a b hjk e e'
      · intro j b hj y hy
        rcases upd_th hj with ⟨_, e⟩ | ⟨hne, e⟩
        · cases e; have q := h.writes i _ hi y hy; exact q
        · rw [h.writes j b e y hy]
          exact (key j b hne e).2.2 y (writes_reads y hy)
      · intro y hy
        have hyx : y ≠ x := by
          rintro rfl
          exact hy i _ (Function.update_self ..) hx
        simp only [Function.update_of_ne hyx]
        refine h.others y fun j b hj => ?_
        by_cases e : j = i
        · subst e
          rw [hi] at hj
          cases hj
          exact hy j ⟨c, m, n, p⟩ (Function.update_self ..)
        · exact hy j b ((Function.update_of_ne e _ _).trans hj)
      · intro j b hj
        rcases upd_th hj with ⟨_, e⟩ | ⟨hne, e⟩
        · cases e; have q := h.active i _ hi; exact q
        · rw [h.active j b e, (key j b hne e).2.1]
      · exact h.over

theorem Inv.exec {m0 : Mem} : ∀ (es : List Event) (s : State), Inv m0 s → AllOrderly s es → Inv m0 (exec s es) := by
  intro es
  induction es with
  | nil => intro s h _; exact h
  | cons e es ih =>
    intro s h ho
    refine ih _ ?_ ho.2
    cases e with
    | start i c =>
      cases hi : s.th i with
      | none => exact h.start hi (ho.1 hi)
      | some a =>
        have hs : Wires.step s (.start i c) = s := by simp only [Wires.step, hi]
        rw [hs]; exact h
    | step i => exact h.proceed i

theorem Inv.no_race {m0 : Mem} {s : State} (h : Inv m0 s) : ¬ Race s := by
  rintro ⟨i, j, a, b, x, v, p, hij, hi, hj, ha, hb⟩
  have h1 := h.within i a hi
  have h2 := h.within j b hj
  rw [ha] at h1
  refine separate_writes (h.apart i j a b hij hi hj) x h1.1 ?_
  rcases hb with ⟨v', p', e⟩ | ⟨k, e⟩
  · rw [e] at h2
    exact writes_reads x h2.1
  · rw [e] at h2
    exact h2.1

end Ecl.SigSlots.Wires
