import Verif.Lemmas.Copies

/-!
# C142: copies of devices
-/
set_option autoImplicit false
set_option linter.unusedSimpArgs false

namespace Ecl.Props.C142
open Ecl Ecl.Copies Ecl.Spec.Holders

theorem frun_append (a b : List FOp) (f : Files) : frun f (a ++ b) = (frun f a).bind fun f => frun f b := by
  induction a generalizing f with
  | nil => rfl
  | cons x a ih =>
    show (fstep f x).bind _ = ((fstep f x).bind _).bind _
    cases fstep f x with
    | ok f' => exact ih f'
    | throw e => rfl
    | ub => rfl

/-- The count is the number of openings. -/
def Counted (f : Files) (n : Nat) : Prop :=
  match f.entry with
  | none => n = 0
  | some (_, c) => c = n ∧ 0 < n

theorem counted_run : ∀ {xs : List FOp} {f f' : Files} {n : Nat}, Counted f n → frun f xs = .ok f' →
    Counted f' (openings n xs)
  | [], f, f', n, C, h => by cases h; exact C
  | x :: xs, f, f', n, C, h => by
    have h' : (fstep f x).bind (fun f => frun f xs) = .ok f' := h
    unfold Counted at C
    cases x with
    | «open» o =>
      simp only [fstep] at h'
      split at h'
      · cases h'
      · cases he : f.entry with
        | none =>
          rw [he] at C h'
          exact counted_run (n := n + 1) (by simp only [Counted]; simp only at C; omega) h'
        | some e =>
          obtain ⟨i, c⟩ := e
          rw [he] at C h'
          exact counted_run (n := n + 1) (by simp only [Counted]; simp only at C; omega) h'
    | copy p o =>
      simp only [fstep] at h'
      split at h'
      · cases h'
      · split at h'
        · cases h'
        · exact counted_run (xs := xs) (n := n) (by unfold Counted; exact C) h'
    | write o =>
      simp only [fstep] at h'
      split at h'
      · cases h'
      · split at h'
        · exact counted_run (xs := xs) (n := n) (by unfold Counted; exact C) h'
        · cases h'
    | destroy o =>
      simp only [fstep] at h'
      split at h'
      · cases h'
      · split at h'
        · cases he : f.entry with
          | none => rw [he] at h'; cases h'
          | some e =>
            obtain ⟨i, c⟩ := e
            rw [he] at C h'
            simp only at C h'
            refine counted_run (n := n - 1) ?_ h'
            simp only [Counted]
            by_cases hc : c = 1
            · rw [if_pos hc]; simp only; omega
            · rw [if_neg hc]; simp only; omega
        · cases h'

/-- Destroying handles of the instance that is registered. -/
theorem destroy_all : ∀ {l : List Nat} {f : Files} {i n : Nat}, f.entry = some (i, n) → 0 < n → l.Nodup →
    (∀ o ∈ l, f.obj o = some i) → ((∃ f', frun f (l.map FOp.destroy) = .ok f') ↔ l.length ≤ n)
  | [], f, i, n, _, _, _, _ => ⟨fun _ => Nat.zero_le _, fun _ => ⟨f, rfl⟩⟩
  | o :: l, f, i, n, he, hn, hd, ho => by
    obtain ⟨h1, h2⟩ := List.nodup_cons.1 hd
    have hs : fstep f (.destroy o) = .ok { f with
        obj := fun x => if x = o then none else f.obj x, entry := if n = 1 then none else some (i, n - 1) } := by
      simp only [fstep]
      rw [ho o List.mem_cons_self]
      simp [Files.registered, he]
    have hrun : frun f ((o :: l).map FOp.destroy) = frun { f with
        obj := fun x => if x = o then none else f.obj x, entry := if n = 1 then none else some (i, n - 1) }
        (l.map FOp.destroy) := by
      show (fstep f (.destroy o)).bind _ = _
      rw [hs]
      rfl
    rw [hrun]
    have hobj : ∀ x ∈ l, (if x = o then none else f.obj x) = some i := by
      intro x hx
      rw [if_neg (by rintro rfl; exact h1 hx)]
      exact ho x (List.mem_cons_of_mem _ hx)
    by_cases hc : n = 1
    · subst hc
      cases l with
      | nil => exact ⟨fun _ => Nat.le_refl _, fun _ => ⟨_, rfl⟩⟩
      | cons x l =>
        constructor
        · rintro ⟨f', hf'⟩
          have hx := hobj x List.mem_cons_self
          have : frun { f with obj := fun x => if x = o then none else f.obj x, entry := if 1 = 1 then none else some (i, 1 - 1) }
              ((x :: l).map FOp.destroy) = .ub := by
            show (fstep _ (.destroy x)).bind _ = _
            have : fstep { f with obj := fun x => if x = o then none else f.obj x, entry := if 1 = 1 then none else some (i, 1 - 1) } (.destroy x) = .ub := by
              simp only [fstep]
              rw [hx]
              simp [Files.registered]
            rw [this]
            rfl
          rw [this] at hf'
          cases hf'
        · intro h
          simp at h
    · have := destroy_all (l := l) (f := { f with
        obj := fun x => if x = o then none else f.obj x, entry := if n = 1 then none else some (i, n - 1) }) (i := i)
        (n := n - 1) (by simp [hc]) (by omega) h2 hobj
      rw [this, List.length_cons]
      omega

theorem puts_fits {b a out : List Char} (h : b.length + a.length < Console.cap) :
    Console.puts ⟨b, out⟩ a = .ok (⟨b ++ a, out⟩, a.length) := by
  unfold Console.cap at h
  unfold Console.puts
  rw [if_pos (by omega)]
  cases a with
  | nil =>
    simp [Console.loop]
  | cons c cs =>
    have hl : (c :: cs).length = cs.length + 1 := rfl
    have ha : Buf.append Console.cap b (c :: cs) = .ok (b ++ c :: cs, cs.length + 1) := by
      unfold Buf.append Console.cap
      rw [if_neg (by omega)]
      simp only
      rw [if_pos (by omega), hl]
    have hloop : Console.loop (2 * (c :: cs).length + 1) ⟨b, out⟩ (c :: cs) = .ok ⟨b ++ c :: cs, out⟩ := by
      show Console.loop (2 * (c :: cs).length + 1) ⟨b, out⟩ (c :: cs) = _
      unfold Console.loop
      simp only [ha, Outcome.bind_ok]
      have hfull : Buf.full Console.cap (b ++ c :: cs) = false := by
        unfold Buf.full Console.cap
        simp only [List.length_append, hl, beq_eq_false_iff_ne]
        omega
      rw [hfull]
      have hdrop : (c :: cs).drop (cs.length + 1) = [] := by simp
      rw [hdrop]
      simp only [Bool.false_eq_true, if_false]
      cases 2 * (c :: cs).length <;> rfl
    rw [hloop]
    rfl

theorem noNul {s : List Char} (h : ∀ c ∈ s, c ≠ '\x00') : s.takeWhile (· ≠ '\x00') = s := by
  induction s with
  | nil => rfl
  | cons c s ih =>
    rw [List.takeWhile_cons, if_pos (by simpa using h c List.mem_cons_self), ih fun d hd => h d (List.mem_cons_of_mem _ hd)]

end Ecl.Props.C142

namespace Ecl.Props
open Ecl Ecl.Copies Ecl.Spec.Holders C142

/-- Files, string devices and semaphores that are copied and assigned only while they hold nothing (and acquire
something only then): whatever the history, nothing is undefined, each object that holds something can be used, and
once no object holds anything everything acquired has been released. -/
theorem C142_single_partial (ops : List HOp) (h : AllSingle none_ ops) :
    ∃ w, run Heap.empty ops = .ok w ∧ (∀ o, status none_ ops o ≠ none → step w (.use o) = .ok w) ∧
      ((∀ o, status none_ ops o ≠ some true) → w.live = []) := by
  obtain ⟨w, h1, W⟩ := Owns.empty.run h
  refine ⟨w, h1, fun o ho => ?_, fun ho => ?_⟩
  · rw [W.status o] at ho
    cases hv : w.obj o with
    | none => rw [hv] at ho; exact absurd rfl ho
    | some v =>
      cases v with
      | none => simp [step, hv]
      | some r => simp [step, hv, W.alive _ _ hv]
  · rw [List.eq_nil_iff_forall_not_mem]
    intro r hr
    obtain ⟨o, hv⟩ := W.held r hr
    apply ho o
    rw [W.status o, hv]
    rfl

/-- A file, string device or semaphore that holds something is copied, and the copy closed, destroyed or (a string
device) written to beyond its memory: whatever happens to other objects meanwhile, the next call on the original, its
destructor included, is undefined. -/
theorem C142_fails_copy (ops : List HOp) (h : AllSingle none_ ops) (o p : Nat) (ho : status none_ ops o = some true)
    (hp : status none_ ops p = none) (first : HOp) (hf : first = .destroy p ∨ first = .close p ∨ first = .renew p)
    (mid : List HOp) (hm : ∀ x ∈ mid, ¬ Concerns o x) (last : HOp)
    (hl : last = .use o ∨ last = .renew o ∨ last = .close o ∨ last = .destroy o) :
    run Heap.empty (ops ++ [.copy p o, first] ++ mid ++ [last]) = .ub := by
  obtain ⟨w, h1, W⟩ := Owns.empty.run h
  have hpo : o ≠ p := by
    rintro rfl
    rw [ho] at hp
    cases hp
  obtain ⟨r, hr⟩ : ∃ r, w.obj o = some (some r) := by
    rw [W.status o] at ho
    cases hv : w.obj o with
    | none => rw [hv] at ho; cases ho
    | some v =>
      cases v with
      | none => rw [hv] at ho; cases ho
      | some r => exact ⟨r, rfl⟩
  have hpn : w.obj p = none := by
    rw [W.status p] at hp
    exact Option.map_eq_none_iff.1 hp
  have hlive := W.alive o r hr
  have hlt := W.fresh.obj o r hr
  have hc : step w (.copy p o) = .ok { w with obj := set w.obj p (some (some r)) } := by
    simp [step, hr, hpn]
  have F1 := W.fresh.step hc
  have hnot := W.fresh.nodup.not_mem_erase (a := r)
  -- after the first release
  obtain ⟨w2, h2, hgone, hlt2, hobj⟩ : ∃ w2, step { w with obj := set w.obj p (some (some r)) } first = .ok w2 ∧
      r ∉ w2.live ∧ r < w2.next ∧ w2.obj o = some (some r) := by
    rcases hf with rfl | rfl | rfl
    · refine ⟨⟨Copies.set (Copies.set w.obj p (some (some r))) p none, w.live.erase r, w.next⟩,
        by simp [step, set_same, hlive], hnot, hlt, ?_⟩
      show Copies.set _ p _ o = _
      rw [set_other _ _ hpo, set_other _ _ hpo]; exact hr
    · refine ⟨⟨Copies.set (Copies.set w.obj p (some (some r))) p (some none), w.live.erase r, w.next⟩,
        by simp [step, set_same, hlive], hnot, hlt, ?_⟩
      show Copies.set _ p _ o = _
      rw [set_other _ _ hpo, set_other _ _ hpo]; exact hr
    · refine ⟨⟨Copies.set (Copies.set w.obj p (some (some r))) p (some (some w.next)), w.next :: w.live.erase r, w.next + 1⟩,
        by simp [step, set_same, hlive], ?_, Nat.lt_succ_of_lt hlt, ?_⟩
      · intro hm
        rcases List.mem_cons.1 hm with rfl | hm
        · exact Nat.lt_irrefl _ hlt
        · exact hnot hm
      · show Copies.set _ p _ o = _
        rw [set_other _ _ hpo, set_other _ _ hpo]; exact hr
  rw [Copies.run_append, Copies.run_append, Copies.run_append, h1]
  show ((run w [.copy p o, first]).bind _).bind _ = _
  have h3 : run w [.copy p o, first] = .ok w2 := by
    show (step w (.copy p o)).bind _ = _
    rw [hc]
    show (step _ first).bind _ = _
    rw [h2]
    rfl
  rw [h3]
  show (run w2 mid).bind _ = _
  cases h4 : run w2 mid with
  | throw e => exact absurd h4 (run_ne_throw _ _ _)
  | ub => rfl
  | ok w3 =>
    obtain ⟨h5, h6⟩ := gone_run (F1.step h2) h4 hlt2 hgone hm
    rw [hobj] at h6
    show (step w3 last).bind _ = _
    have : step w3 last = .ub := by
      rcases hl with rfl | rfl | rfl | rfl <;> simp [step, h6, h5]
    rw [this]
    rfl

/-- Assigning another object to one that holds something: what it held is never released, whatever follows. -/
theorem C142_fails_assign (ops : List HOp) (h : AllSingle none_ ops) (o p : Nat) (hop : o ≠ p)
    (ho : status none_ ops o = some true) (hp : status none_ ops p ≠ none) (rest : List HOp) (w : Heap)
    (hw : run Heap.empty (ops ++ [.assign o p] ++ rest) = .ok w) : w.live ≠ [] := by
  obtain ⟨w0, h1, W⟩ := Owns.empty.run h
  obtain ⟨r, hr⟩ : ∃ r, w0.obj o = some (some r) := by
    rw [W.status o] at ho
    cases hv : w0.obj o with
    | none => rw [hv] at ho; cases ho
    | some v =>
      cases v with
      | none => rw [hv] at ho; cases ho
      | some r => exact ⟨r, rfl⟩
  obtain ⟨v, hv⟩ : ∃ v, w0.obj p = some v := by
    rw [W.status p] at hp
    cases hv : w0.obj p with
    | none => rw [hv] at hp; exact absurd rfl hp
    | some v => exact ⟨v, rfl⟩
  have hc : step w0 (.assign o p) = .ok { w0 with obj := set w0.obj o (some v) } := by
    simp [step, hv, hr]
  have hvr : v ≠ some r := by
    rintro rfl
    exact hop (W.one _ _ _ hr hv)
  have L : Lost { w0 with obj := set w0.obj o (some v) } r := by
    refine ⟨W.alive o r hr, W.fresh.obj o r hr, fun x hx => ?_⟩
    simp only at hx
    by_cases e : x = o
    · subst e
      rw [set_same] at hx
      exact hvr (by simpa using hx)
    · rw [set_other _ _ e] at hx
      exact e (W.one _ _ _ hx hr)
  rw [Copies.run_append, Copies.run_append, h1] at hw
  have hw' : ((step w0 (.assign o p)).bind fun h => run h []).bind (fun h => run h rest) = .ok w := hw
  rw [hc] at hw'
  have L' := L.run (h' := w) hw'
  intro he
  have := L'.1
  rw [he] at this
  cases this

/-- Handles of a shared file, some of them copies: destroying handles that are in order is defined as long as there
are no more of them than the file was opened times, and undefined beyond that. -/
theorem C142_shared_file (hist : List FOp) (f : Files) (hf : frun Files.empty hist = .ok f) (l : List Nat)
    (hd : l.Nodup) (hl : ∀ o ∈ l, fstep f (.write o) = .ok f) :
    (∃ f', frun Files.empty (hist ++ l.map FOp.destroy) = .ok f') ↔ l.length ≤ openings 0 hist := by
  have C := counted_run (n := 0) (show Counted Files.empty 0 from rfl) hf
  rw [frun_append, hf]
  show (∃ f', frun f (l.map FOp.destroy) = .ok f') ↔ _
  unfold Counted at C
  have key : ∀ o ∈ l, ∃ i c, f.entry = some (i, c) ∧ f.obj o = some i := by
    intro o ho
    have hw := hl o ho
    simp only [fstep] at hw
    cases hi : f.obj o with
    | none => rw [hi] at hw; cases hw
    | some i =>
      rw [hi] at hw
      simp only at hw
      split at hw
      · rename_i hreg
        unfold Files.registered at hreg
        cases he : f.entry with
        | none => rw [he] at hreg; cases hreg
        | some e =>
          obtain ⟨j, c⟩ := e
          rw [he] at hreg
          simp only [beq_iff_eq] at hreg
          subst hreg
          exact ⟨j, c, rfl, rfl⟩
      · cases hw
  cases l with
  | nil => exact ⟨fun _ => Nat.zero_le _, fun _ => ⟨f, rfl⟩⟩
  | cons o l =>
    obtain ⟨i, c, he, -⟩ := key o List.mem_cons_self
    rw [he] at C
    simp only at C
    rw [destroy_all he (by omega) hd fun x hx => ?_, C.1]
    obtain ⟨j, d, he', hx'⟩ := key x hx
    rw [he] at he'
    cases he'
    exact hx'

/-- A file opened once and copied once: destroying both handles is undefined. -/
theorem C142_fails_shared_file (o p : Nat) (h : o ≠ p) :
    frun Files.empty [.open o, .copy p o, .destroy o, .destroy p] = .ub ∧
    frun Files.empty [.open o, .copy p o, .destroy p, .destroy o] = .ub := by
  have h' : p ≠ o := fun e => h e.symm
  constructor <;> simp [frun, fstep, Files.empty, Files.registered, Outcome.bind, h, h']

/-- A console that is copied while it has text in its buffer: the text appears twice. -/
theorem C142_fails_console (o p : Nat) (h : o ≠ p) (s a b : List Char) (hs : ∀ c ∈ s, c ≠ '\x00')
    (ha : ∀ c ∈ a, c ≠ '\x00') (hb : ∀ c ∈ b, c ≠ '\x00') (h1 : s.length + a.length < 4095)
    (h2 : s.length + b.length < 4095) :
    ∃ t, trun ⟨fun _ => none, []⟩ [.new o, .call o (.puts s), .copy p o, .call o (.puts a), .call p (.puts b),
      .call o .flush, .call p .flush] = .ok t ∧ t.out = s ++ a ++ s ++ b := by
  have h' : p ≠ o := fun e => h e.symm
  have e1 : Console.puts ⟨[], []⟩ s = .ok (⟨s, []⟩, s.length) := by
    have := puts_fits (b := []) (a := s) (out := []) (by unfold Console.cap; simp only [List.length_nil]; omega)
    simpa using this
  have e2 : Console.puts ⟨s, []⟩ a = .ok (⟨s ++ a, []⟩, a.length) := puts_fits (by unfold Console.cap; omega)
  have e3 : Console.puts ⟨s, []⟩ b = .ok (⟨s ++ b, []⟩, b.length) := puts_fits (by unfold Console.cap; omega)
  have n1 : (s ++ a).takeWhile (· ≠ '\x00') = s ++ a := noNul fun c hc => by
    rcases List.mem_append.1 hc with hc | hc
    · exact hs c hc
    · exact ha c hc
  have n2 : (s ++ b).takeWhile (· ≠ '\x00') = s ++ b := noNul fun c hc => by
    rcases List.mem_append.1 hc with hc | hc
    · exact hs c hc
    · exact hb c hc
  refine ⟨⟨fun x => if x = p then some [] else if x = o then some [] else none, s ++ a ++ (s ++ b)⟩, ?_, by simp⟩
  simp only [trun, tstep, Outcome.bind, Console.step, e1, e2, e3, Console.flush, h, h', if_true, if_false,
    Option.isSome_none, Option.isSome_some, Bool.false_eq_true, List.nil_append, n1, n2]
  congr 2
  funext x
  by_cases hx : x = p
  · simp [hx]
  · by_cases hy : x = o
    · simp [hy, h]
    · simp [hx, hy]

/-! Histories that meet the hypotheses. -/

/-- A file is constructed, copied while closed, opened, written, closed; the copy is opened and both are destroyed. -/
example : AllSingle none_ [.make 0, .copy 1 0, .acquire 0, .use 0, .close 0, .acquire 1, .destroy 0, .destroy 1] ∧
    ∀ o, status none_ [.make 0, .copy 1 0, .acquire 0, .use 0, .close 0, .acquire 1, .destroy 0, .destroy 1] o ≠ some true := by
  refine ⟨by simp [AllSingle, Single, after, put, none_], ?_⟩
  intro o
  simp only [status, after, put, none_]
  by_cases h1 : o = 1
  · simp [h1]
  · by_cases h0 : o = 0 <;> simp [h0, h1]

example : AllSingle none_ [.acquire 0, .acquire 2] ∧ status none_ [.acquire 0, .acquire 2] 0 = some true ∧
    status none_ [.acquire 0, .acquire 2] 1 = none ∧ status none_ [.acquire 0, .acquire 2] 2 ≠ none ∧
    (∀ x ∈ [HOp.renew 2, .close 2], ¬ Concerns 0 x) ∧
    ∃ w, run Heap.empty ([.acquire 0, .acquire 2] ++ [.assign 0 2] ++ [.close 2]) = .ok w := by
  refine ⟨by simp [AllSingle, Single, after, put, none_], rfl, rfl, by simp [status, after, put], by simp [Concerns], _, rfl⟩

/-- Two openings and one copy: two of the three handles can be destroyed. -/
example : ∃ f, frun Files.empty [.open 0, .open 1, .copy 2 0] = .ok f ∧ (∀ o ∈ [2, 0, 1], fstep f (.write o) = .ok f) ∧
    openings 0 [.open 0, .open 1, .copy 2 0] = 2 := by
  refine ⟨_, rfl, ?_, rfl⟩
  intro o ho
  simp only [List.mem_cons, List.not_mem_nil, or_false] at ho
  rcases ho with rfl | rfl | rfl <;> rfl

end Ecl.Props
