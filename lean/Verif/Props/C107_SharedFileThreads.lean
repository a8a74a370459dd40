import Verif.Lemmas.SharedFileThreads

/-! # C107: shared files used from several threads -/
set_option autoImplicit false
set_option linter.unusedSimpArgs false

namespace Ecl.Props
open SharedThreads SharedThreads.Spec
variable {k : Nat}

namespace C107

theorem objects_eq {s : State k} (o : Own s) (q : Quiet s) {p : Nat} (hp : (s.heap p).alive = true) :
    users s p = objects s (s.heap p).name := by
  refine Finset.sum_congr rfl fun i _ => ?_
  simp only [uses, q i, Pc.inflight, reduceCtorEq, if_false, Nat.add_zero]
  rw [List.count]
  refine List.countP_congr fun x hx => ?_
  have hal := o.use i x (by
    have := List.count_pos_iff.2 hx; unfold uses; omega)
  simp only [beq_iff_eq]
  constructor
  · rintro rfl; rfl
  · intro hn
    have h1 := (o.obj x hal).2.1
    have h2 := (o.obj p hp).2.1
    rw [hn, h2] at h1
    exact (Option.some.inj h1).symm

theorem release {m : Mode} {s : State k} (o : Own s) {i : Fin k} (h : s.owner = some i) :
    ∃ es' s' rs, (∀ e ∈ es', e = .go i true) ∧ run m s es' = .ok (s', rs) ∧ s'.owner = none := by
  have last : ∀ {s : State k}, (∃ p, (s.thread i).pc = .registered p) ∨ (s.thread i).pc = .deregistered →
      ∃ s' r, step m s (.go i true) = .ok (s', r) ∧ s'.owner = none := by
    rintro s (⟨p, hp⟩ | hp)
    · exact ⟨{ s with owner := none }.goto i (.flagging p), none, by simp only [step, go, hp], rfl⟩
    · exact ⟨{ s with owner := none }.goto i .idle, some .gone, by simp only [step, go, hp], rfl⟩
  have one : ∀ {s : State k}, (∃ p, (s.thread i).pc = .registered p) ∨ (s.thread i).pc = .deregistered →
      ∃ es' s' rs, (∀ e ∈ es', e = .go i true) ∧ run m s es' = .ok (s', rs) ∧ s'.owner = none := by
    intro s hs
    obtain ⟨s', r, h1, h2⟩ := last hs
    exact ⟨[.go i true], s', r.toList.map (i, ·) ++ [], by simp, by simp [run, h1, Event.who], h2⟩
  have hc := (o.crit i).2 h
  have two : ∀ {s1 : State k} {r1 : Option Ret}, step m s (.go i true) = .ok (s1, r1) →
      (∃ p, (s1.thread i).pc = .registered p) ∨ (s1.thread i).pc = .deregistered →
      ∃ es' s' rs, (∀ e ∈ es', e = .go i true) ∧ run m s es' = .ok (s', rs) ∧ s'.owner = none := by
    intro s1 r1 h1 hs
    obtain ⟨s', r, h2, h3⟩ := last hs
    exact ⟨[.go i true, .go i true], s', r1.toList.map (i, ·) ++ (r.toList.map (i, ·) ++ []), by simp,
      by simp [run, h1, h2, Event.who], h3⟩
  obtain ⟨⟨s1, r1⟩, hgo⟩ := o.go_ok (m := m) (i := i)
  have hgo' := hgo
  unfold SharedThreads.go at hgo'
  cases hpc : (s.thread i).pc with
  | registered p => exact one (Or.inl ⟨p, hpc⟩)
  | deregistered => exact one (Or.inr hpc)
  | registering n =>
    refine two (s1 := s1) (r1 := r1) hgo (Or.inl ?_)
    rw [hpc] at hgo'
    dsimp only at hgo'
    split at hgo'
    · split at hgo'
      · simp only [Outcome.ok.injEq, Prod.mk.injEq] at hgo'
        rw [← hgo'.1]; simp [State.goto]
      · cases hgo'
    · simp only [if_true, Outcome.ok.injEq, Prod.mk.injEq] at hgo'
      rw [← hgo'.1]; simp [State.goto]
  | deregistering p =>
    have hal := o.use i p (by simp [uses, hpc, Pc.inflight])
    refine two (s1 := s1) (r1 := r1) hgo (Or.inr ?_)
    rw [hpc] at hgo'
    dsimp only at hgo'
    rw [if_pos hal, (o.obj p hal).2.1] at hgo'
    dsimp only at hgo'
    rw [if_pos hal] at hgo'
    split at hgo' <;>
    · simp only [Outcome.ok.injEq, Prod.mk.injEq] at hgo'
      rw [← hgo'.1]; simp [State.goto]
  | idle => rw [hpc] at hc; cases hc
  | opening n => rw [hpc] at hc; cases hc
  | flagging n => rw [hpc] at hc; cases hc
  | counting n => rw [hpc] at hc; cases hc
  | writing n => rw [hpc] at hc; cases hc
  | written n f r => rw [hpc] at hc; cases hc
  | checking n => rw [hpc] at hc; cases hc
  | closing n => rw [hpc] at hc; cases hc

/-- The object whose variable a thread touches is one it uses, or the registered one. -/
theorem touched {s : State k} (o : Own s) {i : Fin k} {v : Var} {b : Bool}
    (h : (v, b) ∈ touches s (s.thread i).pc) :
    (v = .map ∧ (s.thread i).pc.crit = true) ∨
    ∃ p, (v = .count p ∨ v = .flags p ∨ v = .file p) ∧
      (0 < uses p (s.thread i) ∨ ∃ n, (s.thread i).pc = .registering n ∧ s.map n = some p ∧ v = .count p) := by
  have hheld := o.held i
  cases hpc : (s.thread i).pc with
  | idle => rw [hpc] at h; simp [touches] at h
  | opening n => rw [hpc] at h; simp [touches] at h
  | registered n => rw [hpc] at h; simp [touches] at h
  | closing n => rw [hpc] at h; simp [touches] at h
  | deregistered => rw [hpc] at h; simp [touches] at h
  | registering n =>
    rw [hpc] at h
    simp only [touches] at h
    cases hm : s.map n with
    | none => rw [hm] at h; simp at h; exact Or.inl ⟨h.1, rfl⟩
    | some p =>
      rw [hm] at h; simp at h
      rcases h with h | h
      · exact Or.inl ⟨h.1, rfl⟩
      · exact Or.inr ⟨p, Or.inl h.1, Or.inr ⟨n, rfl, hm, h.1⟩⟩
  | flagging p =>
    rw [hpc] at h; simp [touches] at h
    exact Or.inr ⟨p, Or.inr (Or.inl h.1), Or.inl (by simp [uses, hpc, Pc.inflight])⟩
  | counting p =>
    have hu : 0 < uses p (s.thread i) := by
      have := List.count_pos_iff.2 (hheld p (by rw [hpc]; rfl)); unfold uses; omega
    rw [hpc] at h; simp [touches] at h
    exact Or.inr ⟨p, Or.inl h.1, Or.inl hu⟩
  | writing p =>
    have hu : 0 < uses p (s.thread i) := by
      have := List.count_pos_iff.2 (hheld p (by rw [hpc]; rfl)); unfold uses; omega
    rw [hpc] at h; simp [touches] at h
    exact Or.inr ⟨p, Or.inr (Or.inr h.1), Or.inl hu⟩
  | written p f r =>
    have hu : 0 < uses p (s.thread i) := by
      have := List.count_pos_iff.2 (hheld p (by rw [hpc]; rfl)); unfold uses; omega
    rw [hpc] at h; simp [touches] at h
    rcases h with h | h
    · exact Or.inr ⟨p, Or.inr (Or.inl h.1), Or.inl hu⟩
    · exact Or.inr ⟨p, Or.inr (Or.inr h.1), Or.inl hu⟩
  | checking p =>
    have hu : 0 < uses p (s.thread i) := by simp [uses, hpc, Pc.inflight]
    rw [hpc] at h
    simp only [touches, if_pos (o.obj p (o.use i p hu)).2.2.1] at h
    simp at h
    exact Or.inr ⟨p, Or.inr (Or.inl h.1), Or.inl hu⟩
  | deregistering p =>
    have hu : 0 < uses p (s.thread i) := by simp [uses, hpc, Pc.inflight]
    rw [hpc] at h
    simp only [touches] at h
    split at h
    · simp at h
      rcases h with h | h | h | h
      · exact Or.inl ⟨h.1, rfl⟩
      · exact Or.inr ⟨p, Or.inr (Or.inl h.1), Or.inl hu⟩
      · exact Or.inr ⟨p, Or.inl h.1, Or.inl hu⟩
      · exact Or.inr ⟨p, Or.inr (Or.inr h.1), Or.inl hu⟩
    · simp at h
      rcases h with h | h | h
      · exact Or.inl ⟨h.1, rfl⟩
      · exact Or.inr ⟨p, Or.inr (Or.inr h.1), Or.inl hu⟩
      · exact Or.inr ⟨p, Or.inl h.1, Or.inl hu⟩

theorem no_map_race {s : State k} (o : Own s) : ¬ Race s .map := by
  rintro ⟨i, j, b, hij, hi, hj⟩
  have h1 : (s.thread i).pc.crit = true := by
    rcases touched o hi with h | ⟨p, h, -⟩
    · exact h.2
    · simp at h
  have h2 : (s.thread j).pc.crit = true := by
    rcases touched o hj with h | ⟨p, h, -⟩
    · exact h.2
    · simp at h
  have h3 := (o.crit i).1 h1
  have h4 := (o.crit j).1 h2
  rw [h3] at h4
  exact hij (Option.some.inj h4)

theorem no_file_race {s : State k} (o : Own s) (p : Nat) : ¬ Race s (.file p) := by
  rintro ⟨i, j, b, hij, hi, hj⟩
  have h2 : 0 < uses p (s.thread j) := by
    rcases touched o hj with h | ⟨q, h, h'⟩
    · simp at h
    · simp at h
      subst h
      rcases h' with h' | ⟨n, -, -, h'⟩
      · exact h'
      · simp at h'
  have h1 : 0 < uses p (s.thread i) := by
    rcases touched o hi with h | ⟨q, h, h'⟩
    · simp at h
    · simp at h
      subst h
      rcases h' with h' | ⟨n, -, -, h'⟩
      · exact h'
      · simp at h'
  have h3 := two_le_users s p hij
  have hal := o.use i p h1
  have h4 := (o.obj p hal).2.2.2.1
  have herr := (o.obj p hal).2.2.1
  cases hpc : (s.thread i).pc with
  | deregistering q =>
    rw [hpc] at hi
    simp only [touches] at hi
    split at hi
    · simp at hi; subst hi; omega
    · simp at hi
  | checking q =>
    have hu : 0 < uses q (s.thread i) := by simp [uses, hpc, Pc.inflight]
    rw [hpc] at hi
    simp only [touches, if_pos (o.obj q (o.use i q hu)).2.2.1] at hi
    simp at hi
  | registering n =>
    rw [hpc] at hi
    simp only [touches] at hi
    cases hm : s.map n <;> · rw [hm] at hi; simp at hi
  | _ => rw [hpc] at hi; simp [touches] at hi

theorem calm_init : Calm (init : State k) := ⟨fun _ => rfl, fun _ => trivial⟩

theorem mine_init (E : List (Event k)) : Mine E init := by
  constructor <;> simp [init, uses, Pc.inflight]

end C107

/-- As long as the system opens and writes the files it is asked to, any number of threads may make and destroy
objects for any files in any order: nothing undefined happens, the file of every object is open, no file is open
twice, and whenever no thread is in a call, a file is open exactly when there is an object for it, and its count
is the number of these objects.  A thread that has the mutex of the manager gives it back by its own next
steps.  (Accesses to one variable are taken to be indivisible here.) -/
theorem C107_sharing_partial (m : Mode) (es : List (Event k)) (hes : FilesWork es) :
    ∃ s rs, run m init es = .ok (s, rs) ∧
      (∀ i, ∀ p ∈ (s.thread i).handles, (s.heap p).alive = true) ∧
      (∀ n p q, OpenAs s n p → OpenAs s n q → p = q) ∧
      (Quiet s → ∀ n, ((∃ p, OpenAs s n p) ↔ 0 < objects s n) ∧
        ∀ p, OpenAs s n p → (s.heap p).count = objects s n) ∧
      (∀ i, s.owner = some i → ∃ es' s' rs', (∀ e ∈ es', e = .go i true) ∧
        run m s es' = .ok (s', rs') ∧ s'.owner = none) := by
  obtain ⟨s, rs, h, o⟩ := Own.run (m := m) (es := es) Own.init hes
  refine ⟨s, rs, h, ?_, ?_, ?_, fun i hi => C107.release o hi⟩
  · intro i p hp
    exact o.use i p (by
      have := List.count_pos_iff.2 hp; unfold uses; omega)
  · rintro n p q ⟨hp, hn⟩ ⟨hq, hn'⟩
    have h1 := (o.obj p hp).2.1
    have h2 := (o.obj q hq).2.1
    rw [hn] at h1; rw [hn', h1] at h2
    exact Option.some.inj h2
  · intro hquiet n
    have key : ∀ p, OpenAs s n p → (s.heap p).count = objects s n := by
      rintro p ⟨hp, rfl⟩
      rw [(o.obj p hp).2.2.2.1, C107.objects_eq o hquiet hp]
    refine ⟨⟨?_, ?_⟩, key⟩
    · rintro ⟨p, hp⟩
      rw [← key p hp]
      exact (o.obj p hp.1).2.2.2.2
    · intro hpos
      obtain ⟨i, -, hi⟩ := Finset.exists_ne_zero_of_sum_ne_zero (Nat.pos_iff_ne_zero.1 hpos)
      obtain ⟨p, hp, hn⟩ := List.countP_pos_iff.1 (Nat.pos_iff_ne_zero.2 hi)
      refine ⟨p, ?_, by simpa using hn⟩
      exact o.use i p (by
        have := List.count_pos_iff.2 hp; unfold uses; omega)

/-- The map of the manager is never in a race, and no object is deleted while another thread is about to use it
or its file. -/
theorem C107_no_deletion_race (m : Mode) (es : List (Event k)) (hes : FilesWork es) (s : State k)
    (rs : List (Fin k × Ret)) (h : run m init es = .ok (s, rs)) : ¬ Race s .map ∧ ∀ p, ¬ Race s (.file p) := by
  obtain ⟨s', rs', h', o⟩ := Own.run (m := m) (es := es) Own.init hes
  rw [h] at h'
  simp only [Outcome.ok.injEq, Prod.mk.injEq] at h'
  rw [← h'.1] at o
  exact ⟨C107.no_map_race o, fun p => C107.no_file_race o p⟩

/-- Threads that share no file are in no race at all. -/
theorem C107_no_race_partial (m : Mode) (es : List (Event k)) (hes : FilesWork es) (ha : Apart es) (s : State k)
    (rs : List (Fin k × Ret)) (h : run m init es = .ok (s, rs)) (v : Var) : ¬ Race s v := by
  obtain ⟨s', rs', h', o⟩ := Own.run (m := m) (es := es) Own.init hes
  rw [h] at h'
  simp only [Outcome.ok.injEq, Prod.mk.injEq] at h'
  rw [← h'.1] at o
  have mine := Mine.run (E := es) Own.init (C107.mine_init es) hes (fun e he => he) h
  have owns : ∀ {i : Fin k} {p : Nat} {b : Bool}, (v = .count p ∨ v = .flags p ∨ v = .file p) →
      (v, b) ∈ touches s (s.thread i).pc → .construct i (s.heap p).name ∈ es := by
    intro i p b hv hi
    rcases C107.touched o hi with h1 | ⟨q, h1, h2⟩
    · rw [h1.1] at hv; simp at hv
    · have hpq : q = p := by
        rcases hv with hv | hv | hv <;> rw [hv] at h1 <;> simpa [eq_comm] using h1
      subst hpq
      rcases h2 with h2 | ⟨n, h2, h3, -⟩
      · exact mine.use i q h2
      · rw [(o.map n q h3).2]; exact mine.ask i n (Or.inr h2)
  rintro ⟨i, j, b, hij, hi, hj⟩
  rcases C107.touched o hi with h1 | ⟨p, h1, -⟩
  · obtain ⟨rfl, -⟩ := h1
    exact C107.no_map_race o ⟨i, j, b, hij, hi, hj⟩
  · exact hij (ha i j _ (owns h1 hi) (owns h1 hj))

/-- The first opening of a file by two threads at once is a race: each sets the error flag of the common object
outside the mutex. -/
theorem C107_fails_race_open (m : Mode) : ∃ (es : List (Event 2)) (s : State 2) (rs : _), FilesWork es ∧
    run m init es = .ok (s, rs) ∧ Race s (.flags 0) := by
  cases m <;>
  refine ⟨[.construct 0 5, .construct 1 5, .go 0 true, .go 0 true, .go 0 true, .go 1 true, .go 1 true, .go 1 true],
    _, _, by simp [FilesWork], rfl, 0, 1, true, by decide, ?_, ?_⟩ <;> decide

/-- So is flushing two objects of one file in two threads. -/
theorem C107_fails_race_flush (m : Mode) : ∃ (es : List (Event 2)) (s : State 2) (rs : _), FilesWork es ∧
    run m init es = .ok (s, rs) ∧ Race s (.flags 0) ∧ ∀ i, ∃ r, (s.thread i).pc = .written 0 .noError r := by
  cases m <;>
  refine ⟨[.construct 0 5, .go 0 true, .go 0 true, .go 0 true, .go 0 true,
      .construct 1 5, .go 1 true, .go 1 true, .go 1 true, .go 1 true,
      .flush 0 0, .flush 1 0, .go 0 true, .go 1 true],
    _, _, by simp [FilesWork], rfl, ⟨0, 1, true, by decide, ?_, ?_⟩, fun i => ⟨.flushed true, ?_⟩⟩
  all_goals first | decide | (revert i; decide)

/-- And asking for the count while another thread opens the file. -/
theorem C107_fails_race_count (m : Mode) : ∃ (es : List (Event 2)) (s : State 2) (rs : _), FilesWork es ∧
    run m init es = .ok (s, rs) ∧ Race s (.count 0) := by
  cases m <;>
  refine ⟨[.construct 0 5, .go 0 true, .go 0 true, .go 0 true, .go 0 true,
      .count 0 0, .construct 1 5, .go 1 true],
    _, _, by simp [FilesWork], rfl, 1, 0, false, by decide, ?_, ?_⟩ <;> decide

/-- When a thread cannot open a file, it gets its exception and keeps the mutex of the manager.  From then on no
other thread that is not yet in a call can make an object of any file, or destroy one, whatever happens. -/
theorem C107_fails_failed_open (m : Mode) (es : List (Event k)) (hes : FilesWork es) (s : State k)
    (rs : List (Fin k × Ret)) (h : run m init es = .ok (s, rs)) (i j : Fin k) (hij : i ≠ j) (n : Nat)
    (hi : (s.thread i).pc = .registering n) (hn : s.map n = none) (hj : (s.thread j).pc = .idle) :
    (∃ s', step m s (.go i false) = .ok (s', some (.threw .openError)) ∧ s'.owner = some i) ∧
    ∀ es' s' rs', FilesWork es' → run m s (.go i false :: es') = .ok (s', rs') →
      (j, .handle) ∉ rs' ∧ (j, .gone) ∉ rs' := by
  obtain ⟨s1, rs1, h1, o⟩ := Own.run (m := m) (es := es) Own.init hes
  rw [h] at h1
  simp only [Outcome.ok.injEq, Prod.mk.injEq] at h1
  rw [← h1.1] at o
  have calm := Calm.run C107.calm_init hes h
  have hown : s.owner = some i := (o.crit i).1 (by rw [hi]; rfl)
  have hstep : step m s (.go i false) = .ok (s.goto i .idle, some (.threw .openError)) := by
    simp [step, go, hi, hn]
  refine ⟨⟨_, hstep, hown⟩, ?_⟩
  intro es' s' rs' hes' hr
  simp only [run, hstep, Outcome.bind_ok] at hr
  obtain ⟨⟨s2, r2⟩, h2, hr⟩ := bind_inv hr
  simp only [Outcome.ok.injEq, Prod.mk.injEq] at hr
  have stuck : Stuck i j (s.goto i .idle) := by
    refine ⟨hown, fun u => ?_, fun p => ?_⟩
    · simp only [State.goto]
      by_cases hu : u = i
      · subst hu; rw [Function.update_self]; rfl
      · rw [Function.update_of_ne hu]
        have := o.crit u
        rw [hown] at this
        simp only [Option.some.injEq, Ne.symm hu, iff_false, Bool.not_eq_true] at this
        exact this
    · simp only [State.goto]
      rw [Function.update_of_ne hij.symm, hj]; simp
  obtain ⟨a, b⟩ := Stuck.run hij stuck (calm.goto i _ trivial) (by
    intro p f r hw
    simp only [State.goto] at hw
    rw [Function.update_of_ne hij.symm, hj] at hw; cases hw) hes' h2
  rw [← hr.2]
  simp only [Event.who, Option.toList, List.map_cons, List.map_nil, List.cons_append, List.nil_append,
    List.mem_cons, Prod.mk.injEq, reduceCtorEq, and_false, false_or]
  exact ⟨a, b⟩

/-! ## The hypotheses are met -/

/-- Two threads, three objects, two files; the file `5` survives its first object. -/
example (m : Mode) : ∃ s rs, run m (init : State 2)
    [.construct 0 5, .construct 1 5, .go 0 true, .go 1 true, .go 0 true, .go 0 true, .go 1 true, .go 1 true,
     .go 1 true, .go 0 true, .go 1 true, .construct 1 6, .go 1 true, .go 1 true, .go 1 true, .go 1 true,
     .count 1 1, .go 1 true, .flush 1 1, .go 1 true, .go 1 true,
     .destroy 0 0, .go 0 true, .go 0 true, .go 0 true, .go 0 true] = .ok (s, rs) ∧
    rs = [(0, .handle), (1, .handle), (1, .handle), (1, .number 2), (1, .flushed true), (0, .gone)] ∧
    Quiet s ∧ s.owner = none ∧ (s.heap 0) = ⟨5, 1, .noError, true⟩ ∧ (s.heap 1) = ⟨6, 1, .noError, true⟩ ∧
    objects s 5 = 1 := by
  cases m <;>
  · refine ⟨_, _, rfl, rfl, ?_, rfl, rfl, rfl, ?_⟩
    · unfold Quiet; decide
    · decide

/-- Thread `0` is about to fail to open a file, while thread `1` has one. -/
example (m : Mode) : ∃ s rs, run m (init : State 2)
    [.construct 1 5, .go 1 true, .go 1 true, .go 1 true, .go 1 true, .construct 0 6, .go 0 true] = .ok (s, rs) ∧
    (s.thread 0).pc = .registering 6 ∧ s.map 6 = none ∧ (s.thread 1).pc = .idle ∧ (s.thread 1).handles = [0] := by
  cases m <;> exact ⟨_, _, rfl, rfl, rfl, rfl, rfl⟩

/-- Two threads with a file each. -/
example : Apart [Event.construct (0 : Fin 2) 5, .construct 1 6, .go 0 true, .go 1 true, .construct 0 5] := by
  intro i j n hi hj
  simp only [List.mem_cons, Event.construct.injEq, reduceCtorEq, List.not_mem_nil, or_false, false_or] at hi hj
  omega

end Ecl.Props
