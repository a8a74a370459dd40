import Verif.Lemmas.SigSlotWires
import Mathlib.Data.List.Count

/-! # The calls one after the other -/
set_option autoImplicit false
set_option linter.unusedSimpArgs false

namespace Ecl.SigSlots.Wires
open Ecl.Spec.Wiring

/-- The tables of the manager are in order: sets, and a topic is there exactly if somebody is connected to it. -/
structure Tidy (m : Mem) : Prop where
  topics : (m .topics).Nodup
  pubs : ∀ t, (m (.pubs t)).Nodup
  subs : ∀ t, (m (.subs t)).Nodup
  used : ∀ t, t ∈ m .topics ↔ m (.pubs t) ≠ [] ∨ m (.subs t) ≠ []

/-- The tables describe the net. -/
structure Noted (m : Mem) (g : Net) : Prop where
  tidy : Tidy m
  pubs : ∀ x t, x ∈ m (.pubs t) ↔ g.pub x t
  subs : ∀ x t, x ∈ m (.subs t) ↔ g.sub x t
  publications : ∀ x t, t ∈ m (.publications x) ↔ g.pub x t
  subscriptions : ∀ x t, t ∈ m (.subscriptions x) ↔ g.sub x t
  pnodup : ∀ x, (m (.publications x)).Nodup
  snodup : ∀ x, (m (.subscriptions x)).Nodup
  handles : ∀ x, num (m (.handles x)) = g.handles x

/-- And what is connected has handles. -/
structure Holds (m : Mem) (g : Net) : Prop extends Noted m g where
  alive : ∀ x t, g.pub x t ∨ g.sub x t → 0 < g.handles x

/-- Insertion into a set. -/
def ins (x : Nat) (l : List Nat) : List Nat := if x ∈ l then l else l ++ [x]

theorem mem_ins {x y : Nat} {l : List Nat} : y ∈ ins x l ↔ y ∈ l ∨ y = x := by
  unfold ins
  split_ifs with h
  · constructor
    · exact Or.inl
    · rintro (h1 | rfl)
      · exact h1
      · exact h
  · simp

theorem nodup_ins {x : Nat} {l : List Nat} (h : l.Nodup) : (ins x l).Nodup := by
  unfold ins
  split_ifs with hx
  · exact h
  · rw [List.nodup_append]
    refine ⟨h, by simp, ?_⟩
    rintro a ha b hb rfl
    simp at hb
    subst hb
    exact hx ha

theorem ins_ne_nil (x : Nat) (l : List Nat) : ins x l ≠ [] := by
  intro h
  have : x ∈ ins x l := mem_ins.2 (Or.inr rfl)
  rw [h] at this
  cases this

theorem addTo_run {c : Cell} {x : Nat} {k : Prog} {m : Mem} :
    (addTo c x k).run m = k.run (Function.update m c (ins x (m c))) := by
  simp only [addTo, Prog.run, ins]
  split_ifs with h
  · rw [Function.update_eq_self]
  · rfl

theorem removeFrom_run {c : Cell} {x : Nat} {k : Prog} {m : Mem} :
    (removeFrom c x k).run m = k.run (Function.update m c ((m c).erase x)) := by
  simp only [removeFrom, Prog.run]
  split_ifs with h
  · rfl
  · rw [List.erase_of_not_mem h, Function.update_eq_self]

theorem insertTopic_run {t : Nat} {k : Prog} {m : Mem} (h : Tidy m) :
    (insertTopic t k).run m = k.run (Function.update m .topics (ins t (m .topics))) := by
  simp only [insertTopic, Prog.run, ins]
  split_ifs with ht
  · rw [Function.update_eq_self]
  · have hn := ht
    rw [h.used, not_or, not_not, not_not] at hn
    simp only [Prog.run]
    congr 1
    funext d
    by_cases h1 : d = .subs t
    · subst h1; simp [hn.2]
    · rw [Function.update_of_ne h1]
      by_cases h2 : d = .pubs t
      · subst h2; simp [hn.1]
      · rw [Function.update_of_ne h2]

/-- One topic of an endpoint is left. -/
theorem disconnectTopic_run {e t : Nat} {k : Prog} {m : Mem} (h : Tidy m) (ht : t ∈ m .topics) :
    ∃ m', (disconnectTopic e t k).run m = k.run m' ∧ Tidy m' ∧ m' (.pubs t) = (m (.pubs t)).erase e ∧
      m' (.subs t) = (m (.subs t)).erase e ∧ (∀ u, u ≠ t → m' (.pubs u) = m (.pubs u) ∧ m' (.subs u) = m (.subs u)) ∧
      ∀ d, Own d → m' d = m d := by
  simp only [disconnectTopic, Prog.run, if_pos ht, removeFrom_run]
  generalize hm1 : Function.update m (.pubs t) ((m (.pubs t)).erase e) = m1
  have e1 : m1 (.subs t) = m (.subs t) := by rw [← hm1, Function.update_of_ne (by simp)]
  rw [e1]
  generalize hm2 : Function.update m1 (.subs t) ((m (.subs t)).erase e) = m2
  have p0 : m2 .topics = m .topics := by
    rw [← hm2, Function.update_of_ne (by simp), ← hm1, Function.update_of_ne (by simp)]
  have p1 : m2 (.pubs t) = (m (.pubs t)).erase e := by
    rw [← hm2, Function.update_of_ne (by simp), ← hm1, Function.update_self]
  have p2 : m2 (.subs t) = (m (.subs t)).erase e := by rw [← hm2, Function.update_self]
  have p3 : ∀ u, u ≠ t → m2 (.pubs u) = m (.pubs u) ∧ m2 (.subs u) = m (.subs u) := by
    intro u hu
    rw [← hm2, ← hm1]
    constructor
    · rw [Function.update_of_ne (by simp), Function.update_of_ne (by simpa using hu)]
    · rw [Function.update_of_ne (by simpa using hu), Function.update_of_ne (by simp)]
  have p4 : ∀ d, Own d → m2 d = m d := by
    intro d hd
    rw [← hm2, ← hm1]
    cases d <;> first | exact hd.elim | simp
  have nd1 : ∀ u, (m2 (.pubs u)).Nodup := by
    intro u
    by_cases hu : u = t
    · subst hu; rw [p1]; exact (h.pubs u).erase e
    · rw [(p3 u hu).1]; exact h.pubs u
  have nd2 : ∀ u, (m2 (.subs u)).Nodup := by
    intro u
    by_cases hu : u = t
    · subst hu; rw [p2]; exact (h.subs u).erase e
    · rw [(p3 u hu).2]; exact h.subs u
  clear hm1 hm2
  split_ifs with hc
  · refine ⟨Function.update m2 .topics ((m .topics).erase t), rfl, ⟨?_, ?_, ?_, ?_⟩, ?_, ?_, ?_, ?_⟩
    · simp only [Function.update_self]; exact h.topics.erase t
    · intro u; rw [Function.update_of_ne (by simp)]; exact nd1 u
    · intro u; rw [Function.update_of_ne (by simp)]; exact nd2 u
    · intro u
      rw [Function.update_self, Function.update_of_ne (by simp), Function.update_of_ne (by simp), h.topics.mem_erase_iff]
      by_cases hu : u = t
      · subst hu
        simp [hc.1, hc.2]
      · rw [(p3 u hu).1, (p3 u hu).2, ← h.used u]
        simp [hu]
    · rw [Function.update_of_ne (by simp)]; exact p1
    · rw [Function.update_of_ne (by simp)]; exact p2
    · intro u hu
      rw [Function.update_of_ne (by simp), Function.update_of_ne (by simp)]
      exact p3 u hu
    · intro d hd
      rw [← p4 d hd]
      cases d <;> first | exact hd.elim | simp
  · refine ⟨m2, rfl, ⟨by rw [p0]; exact h.topics, nd1, nd2, ?_⟩, p1, p2, p3, p4⟩
    intro u
    rw [p0]
    by_cases hu : u = t
    · subst hu
      refine ⟨fun _ => ?_, fun _ => ht⟩
      by_contra hcon
      rw [not_or, not_not, not_not] at hcon
      exact hc hcon
    · rw [(p3 u hu).1, (p3 u hu).2, ← h.used u]

theorem disconnectLoop_run {e : Nat} {k : Prog} : ∀ (ts : List Nat) (m : Mem), Tidy m → ts.Nodup →
    (∀ t ∈ ts, t ∈ m .topics) →
    ∃ m', (disconnectLoop e k ts).run m = k.run m' ∧ Tidy m' ∧
      (∀ t, m' (.pubs t) = if t ∈ ts then (m (.pubs t)).erase e else m (.pubs t)) ∧
      (∀ t, m' (.subs t) = if t ∈ ts then (m (.subs t)).erase e else m (.subs t)) ∧ ∀ d, Own d → m' d = m d := by
  intro ts
  induction ts with
  | nil => intro m h _ _; exact ⟨m, rfl, h, fun _ => by simp, fun _ => by simp, fun _ _ => rfl⟩
  | cons t ts ih =>
    intro m h hnd hts
    obtain ⟨m1, r1, h1, a1, b1, c1, d1⟩ := disconnectTopic_run (e := e) (k := disconnectLoop e k ts) h (hts t (by simp))
    have hnt : t ∉ ts := (List.nodup_cons.1 hnd).1
    obtain ⟨m2, r2, h2, a2, b2, d2⟩ := ih m1 h1 (List.nodup_cons.1 hnd).2 (by
      intro u hu
      have hut : u ≠ t := by rintro rfl; exact hnt hu
      rw [h1.used, (c1 u hut).1, (c1 u hut).2, ← h.used]
      exact hts u (by simp [hu]))
    refine ⟨m2, r1.trans r2, h2, ?_, ?_, fun d hd => (d2 d hd).trans (d1 d hd)⟩
    · intro u
      rw [a2]
      by_cases hu : u = t
      · subst hu; simp [hnt, a1]
      · simp [hu, (c1 u hu).1]
    · intro u
      rw [b2]
      by_cases hu : u = t
      · subst hu; simp [hnt, b1]
      · simp [hu, (c1 u hu).2]

/-- An endpoint that is not lonely is cut off. -/
theorem disconnectAll_run {e : Nat} {k : Prog} {m : Mem} {g : Net} (h : Noted m g) (hl : ¬ g.Lonely e) :
    ∃ m', (disconnectAll e k).run m = k.run m' ∧ Noted m' (g.cut e) := by
  obtain ⟨m1, r1, h1, a1, b1, d1⟩ := disconnectLoop_run (e := e)
    (k := .put (.subscriptions e) [] (.get (.publications e) fun q' => disconnectLoop e (.put (.publications e) [] k) q'))
    (m (.subscriptions e)) m h.tidy (h.snodup e) (by
      intro t ht
      rw [h.tidy.used]
      right
      intro hnil
      have : e ∈ m (.subs t) := (h.subs e t).2 ((h.subscriptions e t).1 ht)
      rw [hnil] at this
      cases this)
  generalize hm1' : Function.update m1 (.subscriptions e) [] = m1' at *
  have hpub : m1' (.publications e) = m (.publications e) := by
    rw [← hm1', Function.update_of_ne (by simp)]
    exact d1 _ trivial
  have hman : ∀ d, d ≠ .subscriptions e → m1' d = m1 d := by
    intro d hd
    rw [← hm1', Function.update_of_ne hd]
  have h1' : Tidy m1' := by
    refine ⟨?_, ?_, ?_, ?_⟩
    · rw [hman _ (by simp)]; exact h1.topics
    · intro t; rw [hman _ (by simp)]; exact h1.pubs t
    · intro t; rw [hman _ (by simp)]; exact h1.subs t
    · intro t; rw [hman _ (by simp), hman _ (by simp), hman _ (by simp)]; exact h1.used t
  obtain ⟨m2, r2, h2, a2, b2, d2⟩ := disconnectLoop_run (e := e) (k := .put (.publications e) [] k)
    (m (.publications e)) m1' h1' (h.pnodup e) (by
      intro t ht
      rw [hman _ (by simp), h1.used, a1, b1]
      have hp : g.pub e t := (h.publications e t).1 ht
      by_cases hs : g.sub e t
      · have : ∃ x, (g.pub x t ∨ g.sub x t) ∧ x ≠ e := by
          by_contra hcon
          exact hl ⟨t, hp, hs, fun x hx => by
            by_contra hne
            exact hcon ⟨x, hx, hne⟩⟩
        obtain ⟨x, hx, hne⟩ := this
        rw [if_pos ((h.subscriptions e t).2 hs), if_pos ((h.subscriptions e t).2 hs)]
        rcases hx with hx | hx
        · left
          exact List.ne_nil_of_mem ((List.mem_erase_of_ne hne).2 ((h.pubs x t).2 hx))
        · right
          exact List.ne_nil_of_mem ((List.mem_erase_of_ne hne).2 ((h.subs x t).2 hx))
      · rw [if_neg fun hc => hs ((h.subscriptions e t).1 hc)]
        left
        exact List.ne_nil_of_mem ((h.pubs e t).2 hp))
  refine ⟨Function.update m2 (.publications e) [], ?_, ?_⟩
  · simp only [disconnectAll, Prog.run]
    rw [r1]
    simp only [Prog.run, hm1', hpub]
    rw [r2]
    rfl
  · have own : ∀ d, Own d → d ≠ .subscriptions e → m2 d = m d := by
      intro d hd hne
      rw [d2 d hd, hman d hne, d1 d hd]
    have hsub : m2 (.subscriptions e) = [] := by
      rw [d2 (.subscriptions e) trivial, ← hm1', Function.update_self]
    have hp : ∀ x t, x ∈ m2 (.pubs t) ↔ g.pub x t ∧ x ≠ e := by
      intro x t
      rw [a2, hman _ (by simp), a1]
      have hnd := h.tidy.pubs t
      split_ifs with c1 c2 c2
      · rw [(hnd.erase e).mem_erase_iff, hnd.mem_erase_iff, h.pubs]; tauto
      · rw [hnd.mem_erase_iff, h.pubs]; tauto
      · rw [hnd.mem_erase_iff, h.pubs]; tauto
      · rw [h.pubs]
        refine ⟨fun hx => ⟨hx, ?_⟩, fun hx => hx.1⟩
        rintro rfl
        exact c1 ((h.publications _ t).2 hx)
    have hs : ∀ x t, x ∈ m2 (.subs t) ↔ g.sub x t ∧ x ≠ e := by
      intro x t
      rw [b2, hman _ (by simp), b1]
      have hnd := h.tidy.subs t
      split_ifs with c1 c2 c2
      · rw [(hnd.erase e).mem_erase_iff, hnd.mem_erase_iff, h.subs]; tauto
      · rw [hnd.mem_erase_iff, h.subs]; tauto
      · rw [hnd.mem_erase_iff, h.subs]; tauto
      · rw [h.subs]
        refine ⟨fun hx => ⟨hx, ?_⟩, fun hx => hx.1⟩
        rintro rfl
        exact c2 ((h.subscriptions _ t).2 hx)
    have up : ∀ d, d ≠ .publications e → Function.update m2 (.publications e) [] d = m2 d :=
      fun d hd => Function.update_of_ne hd _ _
    constructor
    · refine ⟨?_, ?_, ?_, ?_⟩
      · rw [up _ (by simp)]; exact h2.topics
      · intro t; rw [up _ (by simp)]; exact h2.pubs t
      · intro t; rw [up _ (by simp)]; exact h2.subs t
      · intro t; rw [up _ (by simp), up _ (by simp), up _ (by simp)]; exact h2.used t
    · intro x t; rw [up _ (by simp)]; exact hp x t
    · intro x t; rw [up _ (by simp)]; exact hs x t
    · intro x t
      by_cases hx : x = e
      · subst hx; simp [Net.cut]
      · rw [up _ (by simpa using hx), own (.publications x) trivial (by simp), h.publications]
        simp [Net.cut, hx]
    · intro x t
      rw [up _ (by simp)]
      by_cases hx : x = e
      · subst hx; simp [Net.cut, hsub]
      · rw [own (.subscriptions x) trivial (by simpa using hx), h.subscriptions]
        simp [Net.cut, hx]
    · intro x
      by_cases hx : x = e
      · subst hx; simp
      · rw [up _ (by simpa using hx), own (.publications x) trivial (by simp)]; exact h.pnodup x
    · intro x
      rw [up _ (by simp)]
      by_cases hx : x = e
      · subst hx; simp [hsub]
      · rw [own (.subscriptions x) trivial (by simpa using hx)]; exact h.snodup x
    · intro x
      rw [up _ (by simp), own (.handles x) trivial (by simp)]
      exact h.handles x

/-! ## Emission -/

theorem processAll_run {f : List Nat → Prog} : ∀ (ss log : List Nat) (m : Mem),
    ∃ m', (processAll f ss log).run m = (f (log ++ ss)).run m' ∧ ∀ d, (∀ s, d ≠ .busy s) → m' d = m d := by
  intro ss
  induction ss with
  | nil => intro log m; exact ⟨m, by simp [processAll], fun _ _ => rfl⟩
  | cons s ss ih =>
    intro log m
    simp only [processAll, process, Prog.run]
    obtain ⟨m', h1, h2⟩ := ih (log ++ [s]) (Function.update (Function.update m (.busy s) [num (m (.busy s)) + 1]) (.busy s)
      [num (Function.update m (.busy s) [num (m (.busy s)) + 1] (.busy s)) - 1])
    refine ⟨m', by rw [h1]; simp, fun d hd => ?_⟩
    rw [h2 d hd, Function.update_of_ne (hd s), Function.update_of_ne (hd s)]

theorem emitLoop_run : ∀ (ts log : List Nat) (m : Mem),
    ∃ m', (emitLoop ts log).run m = (.done (log ++ ts.flatMap fun t => m (.subs t)) false, m') ∧
      ∀ d, (∀ s, d ≠ .busy s) → m' d = m d := by
  intro ts
  induction ts with
  | nil => intro log m; exact ⟨m, by simp [emitLoop, Prog.run], fun _ _ => rfl⟩
  | cons t ts ih =>
    intro log m
    simp only [emitLoop, Prog.run]
    obtain ⟨m1, h1, h2⟩ := processAll_run (f := fun log => emitLoop ts log) (m (.subs t)) log m
    obtain ⟨m2, h3, h4⟩ := ih (log ++ m (.subs t)) m1
    refine ⟨m2, ?_, fun d hd => (h4 d hd).trans (h2 d hd)⟩
    rw [h1, h3]
    have : (ts.flatMap fun t => m1 (.subs t)) = ts.flatMap fun t => m (.subs t) := by
      congr 1
      funext u
      exact h2 _ (by simp)
    rw [this]
    simp

theorem count_flatMap' (x : Nat) (f : Nat → List Nat) (ts : List Nat) (hf : ∀ t, (f t).Nodup) (P : Nat → Bool)
    (hP : ∀ t, P t = true ↔ x ∈ f t) : (ts.flatMap f).count x = ts.countP P := by
  induction ts with
  | nil => rfl
  | cons t ts ih =>
    rw [List.flatMap_cons, List.count_append, ih, List.countP_cons]
    by_cases h : x ∈ f t
    · rw [List.count_eq_one_of_mem (hf t) h, if_pos ((hP t).2 h)]
      omega
    · rw [List.count_eq_zero_of_not_mem h, if_neg fun hc => h ((hP t).1 hc)]
      omega

/-! ## One call -/

theorem Holds.describes {m : Mem} {g : Net} (h : Holds m g) : Describes m g where
  handles := h.handles
  topics := ⟨h.tidy.topics, fun t => by
    rw [h.tidy.used]
    constructor
    · rintro (h1 | h1)
      · obtain ⟨x, hx⟩ := List.exists_mem_of_ne_nil _ h1
        exact ⟨x, Or.inl ((h.pubs x t).1 hx)⟩
      · obtain ⟨x, hx⟩ := List.exists_mem_of_ne_nil _ h1
        exact ⟨x, Or.inr ((h.subs x t).1 hx)⟩
    · rintro ⟨x, hx | hx⟩
      · exact Or.inl (List.ne_nil_of_mem ((h.pubs x t).2 hx))
      · exact Or.inr (List.ne_nil_of_mem ((h.subs x t).2 hx))⟩
  pubs := fun t => ⟨h.tidy.pubs t, fun x => h.pubs x t⟩
  subs := fun t => ⟨h.tidy.subs t, fun x => h.subs x t⟩
  publications := fun x => ⟨h.pnodup x, fun t => h.publications x t⟩
  subscriptions := fun x => ⟨h.snodup x, fun t => h.subscriptions x t⟩

theorem Holds.empty : Holds (fun _ => []) Net.empty := by
  refine ⟨?_, by simp [Net.empty]⟩
  constructor <;> first | (constructor <;> simp) | simp [Net.empty, num]

/-- Only the number of handles changes. -/
theorem Noted.setHandles {m : Mem} {g : Net} (h : Noted m g) (e n : Nat) :
    Noted (Function.update m (.handles e) [n]) (g.setHandles e n) := by
  have up : ∀ d, d ≠ .handles e → Function.update m (.handles e) [n] d = m d :=
    fun d hd => Function.update_of_ne hd _ _
  constructor
  · refine ⟨?_, ?_, ?_, ?_⟩
    · rw [up _ (by simp)]; exact h.tidy.topics
    · intro t; rw [up _ (by simp)]; exact h.tidy.pubs t
    · intro t; rw [up _ (by simp)]; exact h.tidy.subs t
    · intro t; rw [up _ (by simp), up _ (by simp), up _ (by simp)]; exact h.tidy.used t
  · intro x t; rw [up _ (by simp)]; exact h.pubs x t
  · intro x t; rw [up _ (by simp)]; exact h.subs x t
  · intro x t; rw [up _ (by simp)]; exact h.publications x t
  · intro x t; rw [up _ (by simp)]; exact h.subscriptions x t
  · intro x; rw [up _ (by simp)]; exact h.pnodup x
  · intro x; rw [up _ (by simp)]; exact h.snodup x
  · intro x
    by_cases hx : x = e
    · subst hx; simp [Net.setHandles, num]
    · rw [up _ (by simpa using hx), h.handles]
      simp [Net.setHandles, hx]

theorem Holds.setHandles {m : Mem} {g : Net} (h : Holds m g) (e n : Nat)
    (hn : n = 0 → ∀ t, ¬ g.pub e t ∧ ¬ g.sub e t) :
    Holds (Function.update m (.handles e) [n]) (g.setHandles e n) := by
  refine ⟨h.toNoted.setHandles e n, ?_⟩
  · intro x t hx
    have hx' : g.pub x t ∨ g.sub x t := hx
    by_cases he : x = e
    · subst he
      simp only [Net.setHandles, if_true]
      by_contra hcon
      have := hn (by omega) t
      tauto
    · simp only [Net.setHandles, if_neg he]
      exact h.alive x t hx'

/-- Cells that hold nothing of the net do not matter. -/
theorem Holds.congr {m m' : Mem} {g : Net} (h : Holds m g) (e : ∀ d, (∀ s, d ≠ .busy s) → m' d = m d) : Holds m' g := by
  refine ⟨⟨?_, ?_, ?_, ?_, ?_, ?_, ?_, ?_⟩, ?_⟩
  · refine ⟨?_, ?_, ?_, ?_⟩
    · rw [e _ (by simp)]; exact h.tidy.topics
    · intro t; rw [e _ (by simp)]; exact h.tidy.pubs t
    · intro t; rw [e _ (by simp)]; exact h.tidy.subs t
    · intro t; rw [e _ (by simp), e _ (by simp), e _ (by simp)]; exact h.tidy.used t
  · intro x t; rw [e _ (by simp)]; exact h.pubs x t
  · intro x t; rw [e _ (by simp)]; exact h.subs x t
  · intro x t; rw [e _ (by simp)]; exact h.publications x t
  · intro x t; rw [e _ (by simp)]; exact h.subscriptions x t
  · intro x; rw [e _ (by simp)]; exact h.pnodup x
  · intro x; rw [e _ (by simp)]; exact h.snodup x
  · intro x; rw [e _ (by simp)]; exact h.handles x
  · exact h.alive

theorem connect_run {e t : Nat} {m : Mem} {g : Net} (h : Holds m g) (he : 0 < g.handles e) :
    ∃ m', (Wires.connect e t).run m = (.done [] false, m') ∧ Holds m' (g.after (.connect e t)) := by
  simp only [Wires.connect, insertTopic_run h.tidy, addTo_run, Prog.run]
  refine ⟨_, rfl, ?_⟩
  have e1 : ∀ l, Function.update m .topics l (.pubs t) = m (.pubs t) := fun l => Function.update_of_ne (by simp) _ _
  rw [e1]
  have e2 : ∀ l l', Function.update (Function.update m .topics l) (.pubs t) l' (.publications e) = m (.publications e) :=
    fun l l' => by rw [Function.update_of_ne (by simp), Function.update_of_ne (by simp)]
  rw [e2]
  generalize hm : Function.update (Function.update (Function.update m .topics (ins t (m .topics))) (.pubs t)
    (ins e (m (.pubs t)))) (.publications e) (ins t (m (.publications e))) = m'
  have a0 : m' .topics = ins t (m .topics) := by
    rw [← hm, Function.update_of_ne (by simp), Function.update_of_ne (by simp), Function.update_self]
  have a1 : ∀ u, m' (.pubs u) = if u = t then ins e (m (.pubs t)) else m (.pubs u) := by
    intro u
    rw [← hm, Function.update_of_ne (by simp)]
    split_ifs with hu
    · subst hu; rw [Function.update_self]
    · rw [Function.update_of_ne (by simpa using hu), Function.update_of_ne (by simp)]
  have a2 : ∀ x, m' (.publications x) = if x = e then ins t (m (.publications e)) else m (.publications x) := by
    intro x
    rw [← hm]
    split_ifs with hu
    · subst hu; rw [Function.update_self]
    · rw [Function.update_of_ne (by simpa using hu), Function.update_of_ne (by simp), Function.update_of_ne (by simp)]
  have a3 : ∀ u, m' (.subs u) = m (.subs u) := by
    intro u
    rw [← hm, Function.update_of_ne (by simp), Function.update_of_ne (by simp), Function.update_of_ne (by simp)]
  have a4 : ∀ u, m' (.subscriptions u) = m (.subscriptions u) := by
    intro u
    rw [← hm, Function.update_of_ne (by simp), Function.update_of_ne (by simp), Function.update_of_ne (by simp)]
  have a5 : ∀ u, m' (.handles u) = m (.handles u) := by
    intro u
    rw [← hm, Function.update_of_ne (by simp), Function.update_of_ne (by simp), Function.update_of_ne (by simp)]
  clear hm e1 e2
  refine ⟨⟨?_, ?_, ?_, ?_, ?_, ?_, ?_, ?_⟩, ?_⟩
  · refine ⟨?_, ?_, ?_, ?_⟩
    · rw [a0]; exact nodup_ins h.tidy.topics
    · intro u; rw [a1]; split_ifs
      · exact nodup_ins (h.tidy.pubs t)
      · exact h.tidy.pubs u
    · intro u; rw [a3]; exact h.tidy.subs u
    · intro u
      rw [a0, a1, a3, mem_ins, h.tidy.used]
      split_ifs with hu
      · subst hu
        simp [ins_ne_nil]
      · simp [hu]
  · intro x u
    rw [a1]
    simp only [Net.after]
    split_ifs with hu
    · subst hu; rw [mem_ins, h.pubs]; simp
    · rw [h.pubs]; simp [hu]
  · intro x u; rw [a3]; exact h.subs x u
  · intro x u
    rw [a2]
    simp only [Net.after]
    split_ifs with hu
    · subst hu; rw [mem_ins, h.publications]; simp
    · rw [h.publications]; simp [hu]
  · intro x u; rw [a4]; exact h.subscriptions x u
  · intro x; rw [a2]; split_ifs
    · exact nodup_ins (h.pnodup e)
    · exact h.pnodup x
  · intro x; rw [a4]; exact h.snodup x
  · intro x; rw [a5]; exact h.handles x
  · rintro x u ((hx | ⟨rfl, rfl⟩) | hx)
    · exact h.alive x u (Or.inl hx)
    · exact he
    · exact h.alive x u (Or.inr hx)

theorem subscribe_run {e t : Nat} {m : Mem} {g : Net} (h : Holds m g) (he : 0 < g.handles e) :
    ∃ m', (Wires.subscribe e t).run m = (.done [] false, m') ∧ Holds m' (g.after (.subscribe e t)) := by
  simp only [Wires.subscribe, Prog.run]
  split_ifs with hq
  · refine ⟨m, rfl, ?_⟩
    have : g.after (.subscribe e t) = g := by
      simp only [Net.after]
      congr 1
      funext x u
      apply propext
      constructor
      · rintro (hx | ⟨rfl, rfl⟩)
        · exact hx
        · exact (h.subscriptions x u).1 hq
      · exact Or.inl
    rw [this]
    exact h
  · generalize hm1 : Function.update m (.subscriptions e) (m (.subscriptions e) ++ [t]) = m1
    have b : ∀ d, d ≠ .subscriptions e → m1 d = m d := fun d hd => by rw [← hm1, Function.update_of_ne hd]
    have b' : m1 (.subscriptions e) = ins t (m (.subscriptions e)) := by rw [← hm1, Function.update_self, ins, if_neg hq]
    have t1 : Tidy m1 := by
      refine ⟨?_, ?_, ?_, ?_⟩
      · rw [b _ (by simp)]; exact h.tidy.topics
      · intro t; rw [b _ (by simp)]; exact h.tidy.pubs t
      · intro t; rw [b _ (by simp)]; exact h.tidy.subs t
      · intro t; rw [b _ (by simp), b _ (by simp), b _ (by simp)]; exact h.tidy.used t
    simp only [Prog.run, hm1, insertTopic_run t1, addTo_run]
    refine ⟨_, rfl, ?_⟩
    have e1 : ∀ l, Function.update m1 .topics l (.subs t) = m1 (.subs t) := fun l => Function.update_of_ne (by simp) _ _
    rw [e1]
    generalize hm : Function.update (Function.update m1 .topics (ins t (m1 .topics))) (.subs t)
      (ins e (m1 (.subs t))) = m'
    have a0 : m' .topics = ins t (m .topics) := by
      rw [← hm, Function.update_of_ne (by simp), Function.update_self, b _ (by simp)]
    have a1 : ∀ u, m' (.subs u) = if u = t then ins e (m (.subs t)) else m (.subs u) := by
      intro u
      rw [← hm]
      split_ifs with hu
      · subst hu; rw [Function.update_self, b _ (by simp)]
      · rw [Function.update_of_ne (by simpa using hu), Function.update_of_ne (by simp), b _ (by simp)]
    have a2 : ∀ x, m' (.subscriptions x) = if x = e then ins t (m (.subscriptions e)) else m (.subscriptions x) := by
      intro x
      rw [← hm, Function.update_of_ne (by simp), Function.update_of_ne (by simp)]
      split_ifs with hu
      · subst hu; exact b'
      · exact b _ (by simpa using hu)
    have a3 : ∀ u, m' (.pubs u) = m (.pubs u) := by
      intro u
      rw [← hm, Function.update_of_ne (by simp), Function.update_of_ne (by simp), b _ (by simp)]
    have a4 : ∀ u, m' (.publications u) = m (.publications u) := by
      intro u
      rw [← hm, Function.update_of_ne (by simp), Function.update_of_ne (by simp), b _ (by simp)]
    have a5 : ∀ u, m' (.handles u) = m (.handles u) := by
      intro u
      rw [← hm, Function.update_of_ne (by simp), Function.update_of_ne (by simp), b _ (by simp)]
    clear hm hm1 e1 b b'
    refine ⟨⟨?_, ?_, ?_, ?_, ?_, ?_, ?_, ?_⟩, ?_⟩
    · refine ⟨?_, ?_, ?_, ?_⟩
      · rw [a0]; exact nodup_ins h.tidy.topics
      · intro u; rw [a3]; exact h.tidy.pubs u
      · intro u; rw [a1]; split_ifs
        · exact nodup_ins (h.tidy.subs t)
        · exact h.tidy.subs u
      · intro u
        rw [a0, a1, a3, mem_ins, h.tidy.used]
        split_ifs with hu
        · subst hu
          simp [ins_ne_nil]
        · simp [hu]
    · intro x u; rw [a3]; exact h.pubs x u
    · intro x u
      rw [a1]
      simp only [Net.after]
      split_ifs with hu
      · subst hu; rw [mem_ins, h.subs]; simp
      · rw [h.subs]; simp [hu]
    · intro x u; rw [a4]; exact h.publications x u
    · intro x u
      rw [a2]
      simp only [Net.after]
      split_ifs with hu
      · subst hu; rw [mem_ins, h.subscriptions]; simp
      · rw [h.subscriptions]; simp [hu]
    · intro x; rw [a4]; exact h.pnodup x
    · intro x; rw [a2]; split_ifs
      · exact nodup_ins (h.snodup e)
      · exact h.snodup x
    · intro x; rw [a5]; exact h.handles x
    · rintro x u (hx | (hx | ⟨rfl, rfl⟩))
      · exact h.alive x u (Or.inl hx)
      · exact h.alive x u (Or.inr hx)
      · exact he

/-- A legal call does what it should. -/
theorem call_run {m : Mem} {g : Net} (h : Holds m g) (c : Call) (hl : g.Legal c) :
    Expected g c (c.prog.run m).1 ∧ Holds (c.prog.run m).2 (g.after c) := by
  cases c with
  | create e =>
    have h0 : g.handles e = 0 := hl
    have hn : ∀ t, ¬ g.pub e t ∧ ¬ g.sub e t := fun t =>
      ⟨fun hc => by have := h.alive e t (Or.inl hc); omega, fun hc => by have := h.alive e t (Or.inr hc); omega⟩
    have n1 : m (.subscriptions e) = [] := List.eq_nil_iff_forall_not_mem.2 fun t ht => (hn t).2 ((h.subscriptions e t).1 ht)
    have n2 : m (.publications e) = [] := List.eq_nil_iff_forall_not_mem.2 fun t ht => (hn t).1 ((h.publications e t).1 ht)
    have hm : ((Call.create e).prog.run m) = (.done [] false, Function.update m (.handles e) [1]) := by
      simp only [Call.prog, Prog.run]
      congr 1
      funext d
      by_cases h1 : d = .publications e
      · subst h1; simp [n2]
      · rw [Function.update_of_ne h1]
        by_cases h2 : d = .subscriptions e
        · subst h2; simp [n1]
        · rw [Function.update_of_ne h2]
    rw [hm]
    exact ⟨rfl, h.setHandles e 1 (by simp)⟩
  | copy e =>
    refine ⟨rfl, ?_⟩
    have := h.setHandles e (g.handles e + 1) (by simp)
    simp only [Call.prog, Prog.run, h.handles]
    exact this
  | drop e =>
    obtain ⟨h0, h1⟩ := hl
    simp only [Call.prog, Prog.run, Function.update_self, h.handles]
    have hnum : num [g.handles e - 1] = g.handles e - 1 := rfl
    rw [hnum]
    by_cases hh : g.handles e = 1
    · rw [if_pos (by omega)]
      have hs : g.handles e - 1 = 0 := by omega
      rw [hs]
      obtain ⟨m1, r1, h2⟩ := disconnectAll_run (k := .ret (.done [] true)) (h.toNoted.setHandles e 0) (e := e) (h1 hh)
      rw [r1]
      refine ⟨⟨true, rfl, by simpa using hh⟩, ?_⟩
      simp only [Net.after, if_pos hh]
      refine ⟨h2, ?_⟩
      rintro x t (⟨hx, hne⟩ | ⟨hx, hne⟩)
      · have h3 : 0 < (g.setHandles e 0).handles x := by
          simp only [Net.setHandles, if_neg hne]
          exact h.alive x t (Or.inl hx)
        exact h3
      · have h3 : 0 < (g.setHandles e 0).handles x := by
          simp only [Net.setHandles, if_neg hne]
          exact h.alive x t (Or.inr hx)
        exact h3
    · rw [if_neg (by omega)]
      refine ⟨⟨false, rfl, by simpa using hh⟩, ?_⟩
      have := h.setHandles e (g.handles e - 1) (by omega)
      simp only [Net.after, if_neg hh]
      exact this
  | connect e t =>
    obtain ⟨m', r, h'⟩ := connect_run (t := t) h (e := e) hl
    simp only [Call.prog, r]
    exact ⟨rfl, h'⟩
  | subscribe e t =>
    obtain ⟨m', r, h'⟩ := subscribe_run (t := t) h (e := e) hl
    simp only [Call.prog, r]
    exact ⟨rfl, h'⟩
  | disconnect e =>
    obtain ⟨m', r, h'⟩ := disconnectAll_run (k := .ret (.done [] false)) h.toNoted hl.2
    simp only [Call.prog, r]
    refine ⟨rfl, h', ?_⟩
    rintro x t (hx | hx)
    · exact h.alive x t (Or.inl hx.1)
    · exact h.alive x t (Or.inr hx.1)
  | emit e =>
    obtain ⟨m', r, h'⟩ := emitLoop_run (m (.publications e)) [] m
    simp only [Call.prog, Prog.run, r]
    refine ⟨⟨_, rfl, fun x ts hnd hts => ?_⟩, h.congr h'⟩
    rw [List.nil_append, count_flatMap' x (fun t => m (.subs t)) _ h.tidy.subs (fun t => decide (x ∈ m (.subs t))) (by simp),
      List.countP_eq_length_filter]
    apply List.Perm.length_eq
    rw [List.perm_ext_iff_of_nodup ((h.pnodup e).filter _) hnd]
    intro t
    rw [List.mem_filter, hts, h.publications, decide_eq_true_eq, h.subs]

theorem serial_holds : ∀ (cs : List Call) (m : Mem) (g : Net), Holds m g → g.AllLegal cs →
    Holds (serial m cs).2 (g.run cs) ∧
      ∀ n r, (serial m cs).1[n]? = some r → ∃ c, cs[n]? = some c ∧ Expected (g.run (cs.take n)) c r := by
  intro cs
  induction cs with
  | nil => intro m g h _; exact ⟨h, by simp [serial]⟩
  | cons c cs ih =>
    intro m g h hl
    have h1 := call_run h c hl.1
    obtain ⟨h2, h3⟩ := ih _ _ h1.2 hl.2
    refine ⟨h2, ?_⟩
    rintro (_ | n) r hr
    · simp only [serial, List.getElem?_cons_zero, Option.some.injEq] at hr
      subst hr
      exact ⟨c, rfl, h1.1⟩
    · simp only [serial, List.getElem?_cons_succ] at hr
      obtain ⟨d, hd, hx⟩ := h3 n r hr
      exact ⟨d, by simpa using hd, by simpa [Net.run] using hx⟩

end Ecl.SigSlots.Wires
