import Verif.Lemmas.StaticBuffers

/-! # C112: reading and formatting numbers in several threads -/
set_option autoImplicit false
set_option linter.unusedSimpArgs false

namespace Ecl.Props
open Ecl Ecl.StaticBuf Ecl.Spec

namespace C112

/-- The threads at the start: thread `i` will make the calls `calls i`, each of some instantiation. -/
def begin {V : Type} (printf : Nat → V → List Char) (mem : Nat → Mem) (calls : Nat → List (Nat × Call V)) : State Result :=
  start mem fun i => (calls i).map fun c => (c.1, c.2.prog printf)

theorem no_race {α : Type} {s : State α} (h : Exclusive s) : ¬ Race s := by
  rintro ⟨i, j, k, n, v, p, hij, hi, ⟨v', p', hj⟩ | ⟨f, hj⟩⟩
  · exact h i j k _ _ hij hi hj
  · exact h i j k _ _ hij hi hj

end C112
open C112

/-- **C112, partial.** Any number of threads, each reading numbers from its own streams and formatting numbers into its
own, in any order, whatever is in the arrays at the start: as long as no two threads are in calls of the same
instantiation (type of the device and of the number) at the same time, there is no data race and every call gives what
it gives alone.  Missing: calls at the same time (`C112_fails_read`, `C112_fails_format`). -/
theorem C112_exclusive_partial {V : Type} (printf : Nat → V → List Char) (hz : ∀ d v, ∀ c ∈ printf d v, c ≠ Char.ofNat 0)
    (mem : Nat → Mem) (calls : Nat → List (Nat × Call V)) (sched : List Nat)
    (hex : ∀ n ≤ sched.length, Exclusive (exec (begin printf mem calls) (sched.take n))) :
    (∀ n ≤ sched.length, ¬ Race (exec (begin printf mem calls) (sched.take n))) ∧
    ∀ i, ∃ later, (calls i).map (fun c => alone printf c.2) = ((exec (begin printf mem calls) sched).th i).results ++ later ∧
      (((exec (begin printf mem calls) sched).th i).cur = none → ((exec (begin printf mem calls) sched).th i).todo = [] →
        later = []) := by
  refine ⟨fun n hn => no_race (hex n hn), fun i => ?_⟩
  have hg : Good (begin printf mem calls) fun i => (calls i).map fun c => alone printf c.2 := by
    intro i
    refine ⟨[], (calls i).map (fun c => alone printf c.2), by simp [begin, start], by simp [begin, start], ?_⟩
    simp only [begin, start]
    induction calls i with
    | nil => exact .nil
    | cons c cs ih => exact .cons (fun m => prog_run printf hz c.2 m) ih
  obtain ⟨mid, last, h1, h2, h3⟩ := exec_good _ sched _ hg hex i
  refine ⟨mid ++ last, h1, fun hc ht => ?_⟩
  rw [hc] at h2
  rw [ht] at h3
  simp only at h2
  cases h3
  simp [h2]

/-- **C112.** In particular for every schedule, if each instantiation is used by one thread only. -/
theorem C112_separate {V : Type} (printf : Nat → V → List Char) (hz : ∀ d v, ∀ c ∈ printf d v, c ≠ Char.ofNat 0)
    (mem : Nat → Mem) (calls : Nat → List (Nat × Call V)) (owner : Nat → Nat)
    (ho : ∀ i, ∀ c ∈ calls i, owner c.1 = i) (sched : List Nat) (i : Nat)
    (hc : ((exec (begin printf mem calls) sched).th i).cur = none)
    (ht : ((exec (begin printf mem calls) sched).th i).todo = []) :
    ((exec (begin printf mem calls) sched).th i).results = (calls i).map fun c => alone printf c.2 := by
  have key : ∀ (sched : List Nat) (s : State Result), (∀ i, (∀ k p, (s.th i).cur = some (k, p) → owner k = i) ∧
      ∀ c ∈ (s.th i).todo, owner c.1 = i) →
      (∀ i, (∀ k p, ((exec s sched).th i).cur = some (k, p) → owner k = i) ∧
      ∀ c ∈ ((exec s sched).th i).todo, owner c.1 = i) := by
    intro sched
    induction sched with
    | nil => intro s h; exact h
    | cons j js ih =>
      intro s h
      refine ih (step s j) fun i => ?_
      unfold step
      cases hcu : (s.th j).cur with
      | none =>
        cases htd : (s.th j).todo with
        | nil => simp only [htd]; exact h i
        | cons c cs =>
          simp only [htd]
          by_cases hij : i = j
          · subst hij
            simp only [Function.update_self]
            have := (h i).2
            rw [htd] at this
            refine ⟨fun k p e => ?_, fun c' hc' => this c' (by simp [hc'])⟩
            have := this c (by simp)
            simp only [Option.some.injEq] at e
            rw [e] at this
            exact this
          · simp only [Function.update_of_ne hij]
            exact h i
      | some kp =>
        obtain ⟨k, p⟩ := kp
        by_cases hij : i = j
        · subst hij
          have h1 := (h i).1 k p hcu
          cases p with
          | ret a => simp only [Function.update_self]; exact ⟨by simp, (h i).2⟩
          | store n v p => simp only [Function.update_self]; exact ⟨by simp [h1], (h i).2⟩
          | load n f => simp only [Function.update_self]; exact ⟨by simp [h1], (h i).2⟩
        · cases p <;> simp only [Function.update_of_ne hij] <;> exact h i
  have hex : ∀ n ≤ sched.length, Exclusive (exec (begin printf mem calls) (sched.take n)) := by
    intro n _ a b k p q hab ha hb
    have h := key (sched.take n) (begin printf mem calls) (by
      intro i
      refine ⟨by simp [begin, start], ?_⟩
      intro c hc
      simp only [begin, start, List.mem_map] at hc
      obtain ⟨d, hd, rfl⟩ := hc
      exact ho i d hd)
    exact hab (((h a).1 k p ha).symm.trans ((h b).1 k q hb))
  obtain ⟨later, h1, h2⟩ := (C112_exclusive_partial printf hz mem calls sched hex).2 i
  rw [h1, h2 hc ht, List.append_nil]

/-- **C112 fails.** Two threads read from their own streams of the same type, one "12", the other "34": the first may get
34, without an error. -/
theorem C112_fails_read (mem : Nat → Mem) :
    ∃ sched n, Race (exec (begin (V := Unit) (fun _ _ => []) mem fun i =>
        [(0, .getInt .int 0 (if i = 0 then "12 ".toList else "34 ".toList))]) (sched.take n)) ∧
      ((exec (begin (V := Unit) (fun _ _ => []) mem fun i =>
        [(0, .getInt .int 0 (if i = 0 then "12 ".toList else "34 ".toList))]) sched).th 0).results =
          [.int ⟨34, .noError, []⟩] ∧
      alone (V := Unit) (fun _ _ => []) (.getInt .int 0 "12 ".toList) = .int ⟨12, .noError, []⟩ := by
  refine ⟨[0, 1, 0, 0, 1, 1, 0, 0, 0], 2, ?_, rfl, rfl⟩
  exact ⟨0, 1, 0, 0, _, _, by decide, rfl, .inl ⟨_, _, rfl⟩⟩

/-- **C112 fails.** Two threads format numbers into their own streams: one may write the other's number. -/
theorem C112_fails_format (mem : Nat → Mem) :
    ∃ sched n, Race (exec (begin (fun _ v => v) mem fun i =>
        [(0, .putFixed 2 .right 0 (if i = 0 then "7".toList else "8".toList))]) (sched.take n)) ∧
      ((exec (begin (fun _ v => v) mem fun i =>
        [(0, .putFixed 2 .right 0 (if i = 0 then "7".toList else "8".toList))]) sched).th 0).results =
          [.text (.ok " 8".toList)] ∧
      alone (fun _ v => v) (.putFixed 2 .right 0 "7".toList) = .text (.ok " 7".toList) := by
  refine ⟨[0, 1] ++ List.replicate 7 0 ++ List.replicate 7 1 ++ List.replicate 5 0, 2, ?_, ?_, rfl⟩
  · exact ⟨0, 1, 0, 2, _, _, by decide, rfl, .inl ⟨_, _, rfl⟩⟩
  · rfl

/-- Threads with streams of different types, in any order. -/
example (mem : Nat → Mem) (sched : List Nat)
    (hc : ((exec (begin (V := Unit) (fun _ _ => []) mem fun i =>
      [(i, .getInt .int 0 (if i = 0 then "12 ".toList else "0xff ".toList))]) sched).th 0).cur = none)
    (ht : ((exec (begin (V := Unit) (fun _ _ => []) mem fun i =>
      [(i, .getInt .int 0 (if i = 0 then "12 ".toList else "0xff ".toList))]) sched).th 0).todo = []) :
    ((exec (begin (V := Unit) (fun _ _ => []) mem fun i =>
      [(i, .getInt .int 0 (if i = 0 then "12 ".toList else "0xff ".toList))]) sched).th 0).results =
        [.int ⟨12, .noError, []⟩] := by
  rw [C112_separate (V := Unit) (fun _ _ => []) (by simp) mem _ (fun k => k) (by simp) sched 0 hc ht]
  rfl

end Ecl.Props
