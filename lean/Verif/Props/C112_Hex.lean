import Verif.Props.C112_StaticBuffers
import Verif.Lemmas.StaticBuffersFoot

/-! # C112: reading in hexadecimal while another thread reads in decimal -/
set_option autoImplicit false

namespace Ecl.Props
open Ecl.StaticBuf Ecl.Spec C112

/-- **C112.** Numbers in hexadecimal and others have arrays of their own: if, for every instantiation, one thread at most
reads numbers in hexadecimal and one at most reads other numbers (or formats), then these threads may do so at the same
time, in any order: there is no data race and every call gives what it gives alone. -/
theorem C112_hexadecimal {V : Type} (printf : Nat → V → List Char) (hz : ∀ d v, ∀ c ∈ printf d v, c ≠ Char.ofNat 0)
    (mem : Nat → Mem) (calls : Nat → List (Nat × Call V)) (hexReader reader : Nat → Nat)
    (hh : ∀ i, ∀ c ∈ calls i, readsHex c.2 = true → hexReader c.1 = i)
    (hr : ∀ i, ∀ c ∈ calls i, readsHex c.2 = false → reader c.1 = i) (sched : List Nat) :
    ¬ Race (exec (begin printf mem calls) sched) ∧
    ∀ i, ((exec (begin printf mem calls) sched).th i).cur = none →
      ((exec (begin printf mem calls) sched).th i).todo = [] →
      ((exec (begin printf mem calls) sched).th i).results = (calls i).map fun c => alone printf c.2 := by
  let own : Nat → Nat → Nat → Prop := fun i k n => (hexReader k = i ∧ High n) ∨ (reader k = i ∧ Low n)
  have hd : ∀ i j k n, i ≠ j → own i k n → ¬ own j k n := by
    intro i j k n hij h1 h2
    simp only [own, High, Low] at h1 h2
    omega
  have hmono : ∀ {α : Type} {S T : Nat → Prop} (p : Prog α), (∀ n, S n → T n) → Within S p → Within T p := by
    intro α S T p hST
    induction p with
    | ret a => exact fun _ => trivial
    | store i v p ih => exact fun h => ⟨hST _ h.1, ih h.2⟩
    | load i k ih => exact fun h => ⟨hST _ h.1, fun v => ih v (h.2 v)⟩
  have hg : Good (begin printf mem calls) fun i => (calls i).map fun c => alone printf c.2 := by
    intro i
    refine ⟨[], (calls i).map (fun c => alone printf c.2), by simp [begin, start], by simp [begin, start], ?_⟩
    simp only [begin, start]
    induction calls i with
    | nil => exact .nil
    | cons c cs ih => exact .cons (fun m => prog_run printf hz c.2 m) ih
  have ho : Owned own (begin printf mem calls) := by
    intro i
    refine ⟨by simp [begin, start], ?_⟩
    intro c hc
    simp only [begin, start, List.mem_map] at hc
    obtain ⟨d, hd, rfl⟩ := hc
    cases hx : readsHex d.2 with
    | true => exact hmono _ (fun n hn => .inl ⟨hh i d hd hx, hn⟩) ((prog_within printf d.2).1 hx)
    | false => exact hmono _ (fun n hn => .inr ⟨hr i d hd hx, hn⟩) ((prog_within printf d.2).2 hx)
  obtain ⟨h1, h2⟩ := owned_exec hd _ sched _ hg ho
  refine ⟨h2.no_race hd, fun i hc ht => ?_⟩
  obtain ⟨mid, last, e, hm, hl⟩ := h1 i
  rw [hc] at hm
  rw [ht] at hl
  cases hl
  simp only at hm
  subst hm
  simpa using e.symm

/-- Two threads with streams of the same type: one reads "12", the other "0xff". -/
example (mem : Nat → Mem) (sched : List Nat)
    (hc : ((exec (begin (V := Unit) (fun _ _ => []) mem fun i => if i = 0 then [(0, .getInt .int 0 "12 ".toList)]
      else if i = 1 then [(0, .getInt .int 0 "0xff ".toList)] else []) sched).th 0).cur = none)
    (ht : ((exec (begin (V := Unit) (fun _ _ => []) mem fun i => if i = 0 then [(0, .getInt .int 0 "12 ".toList)]
      else if i = 1 then [(0, .getInt .int 0 "0xff ".toList)] else []) sched).th 0).todo = []) :
    ((exec (begin (V := Unit) (fun _ _ => []) mem fun i => if i = 0 then [(0, .getInt .int 0 "12 ".toList)]
      else if i = 1 then [(0, .getInt .int 0 "0xff ".toList)] else []) sched).th 0).results =
        [.int ⟨12, .noError, []⟩] := by
  rw [(C112_hexadecimal (V := Unit) (fun _ _ => []) (by simp) mem _ (fun _ => 1) (fun _ => 0) ?_ ?_ sched).2 0 hc ht]
  · rfl
  all_goals
    intro i c hc
    split at hc
    · rename_i h
      simp only [List.mem_singleton] at hc; subst hc
      first | exact fun _ => h.symm | (intro hx; exact absurd hx (by decide))
    · split at hc
      · rename_i h
        simp only [List.mem_singleton] at hc; subst hc
        first | exact fun _ => h.symm | (intro hx; exact absurd hx (by decide))
      · cases hc

end Ecl.Props
