import Verif.Model.MutexCount
import Verif.Lemmas.MutexCount

/-!
# C156: The number of locks of a mutex that threads share

`locks()` is documented as the number of threads that have the mutex or wait for it.  `run (init N) es = some s`: the parts of
calls `es` of `N` threads, in this order, lead from a new mutex to `s`.
-/
set_option autoImplicit false

namespace Ecl.Props

open Ecl.MutexCount

variable {N : Nat}

/-- A thread has read the counter and will write it. -/
def C156.Between (p : Pc) : Prop := ∃ v, p = .counting v ∨ p = .tryRead v ∨ p = .leaving v

/-- No update of the counter is torn: when a thread writes it, no other thread is between its read and its write. -/
def C156.Whole : State N → List (Fin N × Part) → Prop
  | _, [] => True
  | s, (t, p) :: r => (p = .lockWrite ∨ p = .tryWrite ∨ p = .unlockWrite → ∀ u, u ≠ t → ¬ C156.Between (s.pc u)) ∧
      ∀ s', step s t p = some s' → C156.Whole s' r

namespace C156

theorem seen_none {p : Pc} (h : ¬ Between p) : seen p = none := by
  cases p with
  | counting v => exact absurd ⟨v, .inl rfl⟩ h
  | tryRead v => exact absurd ⟨v, .inr (.inl rfl)⟩ h
  | leaving v => exact absurd ⟨v, .inr (.inr rfl)⟩ h
  | _ => rfl

theorem run_good {s s' : State N} {es : List (Fin N × Part)} (h : run s es = some s') (hs : Good s) (hw : Whole s es) :
    Good s' := by
  induction es generalizing s with
  | nil => cases h; exact hs
  | cons e es ih =>
    obtain ⟨t, p⟩ := e
    simp only [run, Option.bind_eq_some_iff] at h
    obtain ⟨s1, h1, h2⟩ := h
    exact ih h2 (good_step h1 hs fun hp u hu => seen_none (hw.1 hp u hu)) (hw.2 s1 h1)

theorem run_owned {s s' : State N} {es : List (Fin N × Part)} (h : run s es = some s') (hs : Owned s) : Owned s' := by
  induction es generalizing s with
  | nil => cases h; exact hs
  | cons e es ih =>
    obtain ⟨t, p⟩ := e
    simp only [run, Option.bind_eq_some_iff] at h
    obtain ⟨s1, h1, h2⟩ := h
    exact ih h2 (owned_step h1 hs)

theorem owned_init : Owned (init N) := by
  intro u
  constructor <;> intro h <;> cases h

/-- Nobody is in `lock`. -/
def NoLock (s : State N) : Prop := ∀ u v, s.pc u ≠ .counting v

theorem noLock_step {s s' : State N} {t : Fin N} {p : Part} (h : step s t p = some s') (hs : NoLock s)
    (hp : p ≠ .lockRead) : NoLock s' := by
  have upd : ∀ {q : Pc}, (∀ v, q ≠ .counting v) → ∀ u v, Function.update s.pc t q u ≠ .counting v := by
    intro q hq u v
    by_cases hu : u = t
    · subst hu; rw [Function.update_self]; exact hq v
    · rw [Function.update_of_ne hu]; exact hs u v
  cases p <;> simp only [step] at h <;> split at h <;> try cases h
  case lockRead.isTrue e => exact absurd rfl hp
  case tryBusy.isTrue e => exact hs
  all_goals exact upd (by simp)

/-- Without `lock`, only the thread that has the mutex touches the counter. -/
theorem whole_try {s s' : State N} {es : List (Fin N × Part)} (h : run s es = some s') (ho : Owned s) (hn : NoLock s)
    (hes : ∀ e ∈ es, e.2 ≠ .lockRead) : Whole s es := by
  induction es generalizing s with
  | nil => trivial
  | cons e es ih =>
    obtain ⟨t, p⟩ := e
    simp only [run, Option.bind_eq_some_iff] at h
    obtain ⟨s1, h1, h2⟩ := h
    have hp : p ≠ .lockRead := hes (t, p) (by simp)
    have hr : ∀ e ∈ es, e.2 ≠ .lockRead := fun e he => hes e (by simp [he])
    refine ⟨fun hw u hu hb => ?_, fun s2 h3 => ?_⟩
    · have hmine : has (s.pc t) = true := by
        rcases hw with rfl | rfl | rfl <;> simp only [step] at h1 <;> split at h1 <;> try cases h1
        · next v e => exact absurd e (hn t v)
        all_goals
          next v e => rw [e]; rfl
      have hother : has (s.pc u) = true := by
        obtain ⟨v, e | e | e⟩ := hb
        · exact absurd e (hn u v)
        · rw [e]; rfl
        · rw [e]; rfl
      have a := (ho t).1 hmine
      rw [(ho u).1 hother] at a
      exact hu (Option.some.inj a)
    · rw [h1] at h3
      cases h3
      exact ih h2 (owned_step h1 ho) (noLock_step h1 hn hp) hr

/-- One round in which the counter gains one: the second thread reads it before the first takes its count back. -/
def up : List (Fin (N + 2) × Part) := [(0, .lockRead), (0, .lockWrite), (0, .lockGet), (1, .lockRead), (0, .unlockRead),
  (0, .unlockWrite), (0, .unlockGo), (1, .lockWrite), (1, .lockGet), (1, .unlockRead), (1, .unlockWrite), (1, .unlockGo)]

theorem run_append (s : State N) (a b : List (Fin N × Part)) : run s (a ++ b) = (run s a).bind fun s' => run s' b := by
  induction a generalizing s with
  | nil => rfl
  | cons e a ih =>
    obtain ⟨t, p⟩ := e
    simp only [List.cons_append, run, Option.bind_assoc]
    congr 1
    funext s'
    exact ih s'

theorem run_up (n : BitVec 32) : run ⟨n, none, fun _ : Fin (N + 2) => .idle⟩ up = some ⟨n + 1, none, fun _ => .idle⟩ := by
  have h10 : (1 : Fin (N + 2)) ≠ 0 := by simp
  have h01 : (0 : Fin (N + 2)) ≠ 1 := by simp
  simp [up, run, step, Function.update_of_ne h10, Function.update_of_ne h01, Function.update_comm h10]
  exact BitVec.add_sub_cancel _ _

/-- The thread `t` can get the mutex if only it and the thread `u` go on. -/
def Served (s : State N) (t u : Fin N) : Prop :=
  ∃ es s', run s es = some s' ∧ s'.pc t = .held ∧ ∀ e ∈ es, e = (t, .lockGet) ∨ (e.1 = u ∧ e.2 ≠ .lockRead ∧ e.2 ≠ .tryGet)

theorem served_step {s s' : State N} {t u : Fin N} {p : Part} (h : step s u p = some s') (hp : p ≠ .lockRead ∧ p ≠ .tryGet)
    (hs : Served s' t u) : Served s t u := by
  obtain ⟨es, s2, h1, h2, h3⟩ := hs
  refine ⟨(u, p) :: es, s2, by rw [run, h]; exact h1, h2, fun e he => ?_⟩
  rcases List.mem_cons.1 he with rfl | he
  · exact .inr ⟨rfl, hp⟩
  · exact h3 e he

theorem served_free {s : State N} {t u : Fin N} (h : s.pc t = .waiting) (ho : s.owner = none) : Served s t u := by
  refine ⟨[(t, .lockGet)], _, by rw [run, step, if_pos ⟨h, ho⟩]; rfl, Function.update_self .., fun e he => .inl ?_⟩
  simpa using he

theorem served {s : State N} {t u : Fin N} (htu : t ≠ u) (h : s.pc t = .waiting) (hu : has (s.pc u) = true) : Served s t u := by
  have keep : ∀ q : Pc, Function.update s.pc u q t = .waiting := fun q => by rw [Function.update_of_ne htu]; exact h
  have letting : ∀ s : State N, s.pc t = .waiting → s.pc u = .letting → Served s t u := fun s h e =>
    served_step (p := .unlockGo) (by rw [step, if_pos e]) (by decide)
      (served_free (by simpa [Function.update_of_ne htu] using h) rfl)
  have leaving : ∀ (s : State N) (v : BitVec 32), s.pc t = .waiting → s.pc u = .leaving v → Served s t u := fun s v h e =>
    served_step (p := .unlockWrite) (by rw [step, e]) (by decide)
      (letting _ (by simpa [Function.update_of_ne htu] using h) (Function.update_self ..))
  have held : ∀ s : State N, s.pc t = .waiting → s.pc u = .held → Served s t u := fun s h e =>
    served_step (p := .unlockRead) (by rw [step, if_pos e]) (by decide)
      (leaving _ s.n (by simpa [Function.update_of_ne htu] using h) (Function.update_self ..))
  have tryRead : ∀ (s : State N) (v : BitVec 32), s.pc t = .waiting → s.pc u = .tryRead v → Served s t u := fun s v h e =>
    served_step (p := .tryWrite) (by rw [step, e]) (by decide)
      (held _ (by simpa [Function.update_of_ne htu] using h) (Function.update_self ..))
  cases e : s.pc u with
  | held => exact held s h e
  | letting => exact letting s h e
  | leaving v => exact leaving s v h e
  | tryRead v => exact tryRead s v h e
  | tryGot =>
    exact served_step (p := .tryRead) (by rw [step, if_pos e]) (by decide)
      (tryRead _ s.n (keep _) (Function.update_self ..))
  | _ => rw [e] at hu; cases hu

end C156

/-- If no update of the counter is torn then `locks()` is, whenever no thread is inside of a count, the number of threads that
have the mutex or wait for it. -/
theorem C156_exact_partial (es : List (Fin N × Part)) (s : State N) (hrun : run (init N) es = some s)
    (hwhole : C156.Whole (init N) es) (hN : N < 2 ^ 32) (hcalm : ∀ t, s.pc t = .idle ∨ s.pc t = .waiting ∨ s.pc t = .held) :
    locks s = (Finset.univ.filter fun t => s.pc t = .waiting ∨ s.pc t = .held).card := by
  have hg := C156.run_good hrun good_init hwhole
  have hsum : (∑ u, wt (s.pc u)) = (Finset.univ.filter fun t => s.pc t = .waiting ∨ s.pc t = .held).card := by
    rw [Finset.card_filter]
    refine Finset.sum_congr rfl fun u _ => ?_
    rcases hcalm u with e | e | e <;> rw [e] <;> simp [wt]
  rw [locks, hg.1, hsum, BitVec.toNat_ofNat]
  refine Nat.mod_eq_of_lt (Nat.lt_of_le_of_lt (Finset.card_le_univ _) ?_)
  simpa using hN

/-- Threads that use `trylock` and `unlock` only need no such luck: in every interleaving `locks()` is one if a thread has the
mutex, and zero otherwise. -/
theorem C156_trylock (es : List (Fin N × Part)) (s : State N) (hrun : run (init N) es = some s)
    (htry : ∀ e ∈ es, e.2 ≠ .lockRead) (hcalm : ∀ t, s.pc t = .idle ∨ s.pc t = .held) :
    ((∃ t, s.pc t = .held) → locks s = 1) ∧ ((∀ t, s.pc t = .idle) → locks s = 0) := by
  have hg := C156.run_good hrun good_init (C156.whole_try hrun C156.owned_init (by simp [C156.NoLock, init]) htry)
  have ho := C156.run_owned hrun C156.owned_init
  constructor
  · rintro ⟨t, ht⟩
    have hsum : (∑ u, wt (s.pc u)) = 1 := by
      rw [Finset.sum_eq_single t]
      · rw [ht]; rfl
      · intro u _ hu
        rcases hcalm u with e | e
        · rw [e]; rfl
        · have a := (ho u).1 (by rw [e]; rfl)
          rw [(ho t).1 (by rw [ht]; rfl)] at a
          exact absurd (Option.some.inj a).symm hu
      · exact fun h => absurd (Finset.mem_univ t) h
    rw [locks, hg.1, hsum]
    rfl
  · intro h
    have hsum : (∑ u, wt (s.pc u)) = 0 := Finset.sum_eq_zero fun u _ => by rw [h u]; rfl
    rw [locks, hg.1, hsum]
    rfl

/-- Whatever the counter says, the mutex is a mutex: no two threads ever have it, in any interleaving. -/
theorem C156_exclusive (es : List (Fin N × Part)) (s : State N) (hrun : run (init N) es = some s) (t u : Fin N)
    (ht : s.pc t = .held) (hu : s.pc u = .held) : t = u := by
  have ho := C156.run_owned hrun C156.owned_init
  have a := (ho t).1 (by rw [ht]; rfl)
  rw [(ho u).1 (by rw [hu]; rfl)] at a
  exact (Option.some.inj a).symm

/-- And no thread waits in vain: whatever was done and counted before, a thread that waits either can have the mutex now, or
there is one thread that has it and that only needs to finish its call and unlock it, without taking it again. -/
theorem C156_progress (es : List (Fin N × Part)) (s : State N) (hrun : run (init N) es = some s) (t : Fin N)
    (ht : s.pc t = .waiting) : ∃ u es' s', run s es' = some s' ∧ s'.pc t = .held ∧
      ∀ e ∈ es', e = (t, .lockGet) ∨ (e.1 = u ∧ e.2 ≠ .lockRead ∧ e.2 ≠ .tryGet) := by
  have ho := C156.run_owned hrun C156.owned_init
  cases e : s.owner with
  | none => exact ⟨t, C156.served_free ht e⟩
  | some u =>
    have hu := (ho u).2 e
    exact ⟨u, C156.served (by rintro rfl; rw [ht] at hu; cases hu) ht hu⟩

/-- But with `lock`, two threads suffice to bring the counter to any value at all for good: there are executions after which no
thread has the mutex or waits for it or is in any call, and `locks()` is `v`. -/
theorem C156_fails_any (v : Nat) (hv : v < 2 ^ 32) : ∃ es s, run (init (N + 2)) es = some s ∧ s.owner = none ∧
    (∀ t, s.pc t = .idle) ∧ locks s = v := by
  have h : ∀ k : Nat, ∃ es, run (init (N + 2)) es = some ⟨BitVec.ofNat 32 k, none, fun _ => .idle⟩ := by
    intro k
    induction k with
    | zero => exact ⟨[], rfl⟩
    | succ k ih =>
      obtain ⟨es, he⟩ := ih
      refine ⟨es ++ C156.up, ?_⟩
      rw [C156.run_append, he, ofNat_succ]
      rw [Option.bind_some]
      exact C156.run_up _
  obtain ⟨es, he⟩ := h v
  exact ⟨es, _, he, rfl, fun _ => rfl, by rw [locks, BitVec.toNat_ofNat, Nat.mod_eq_of_lt hv]⟩

/-- In the other direction: two first calls of `lock` that meet leave one count where there should be two, and after both
`unlock` calls the number of locks of a mutex that nobody uses is 4294967295. -/
theorem C156_fails_meet : ∃ es1 es2 s1 s2, run (init 2) es1 = some s1 ∧ (∀ t, s1.pc t = .waiting) ∧ locks s1 = 1 ∧
    run s1 es2 = some s2 ∧ (∀ t, s2.pc t = .idle) ∧ locks s2 = 4294967295 := by
  refine ⟨[(0, .lockRead), (1, .lockRead), (0, .lockWrite), (1, .lockWrite)],
    [(0, .lockGet), (0, .unlockRead), (0, .unlockWrite), (0, .unlockGo), (1, .lockGet), (1, .unlockRead), (1, .unlockWrite),
      (1, .unlockGo)], ⟨1, none, fun _ => .waiting⟩, ⟨-1, none, fun _ => .idle⟩, ?_, fun _ => rfl, rfl, ?_, fun _ => rfl, rfl⟩
  · simp [run, step, init]
    funext t
    match t with
    | 0 => rfl
    | 1 => rfl
  · simp [run, step]
    funext t
    match t with
    | 0 => rfl
    | 1 => rfl

/-! ## The hypotheses are met -/

/-- Three threads, two of them waiting while one has the mutex, and the counts not torn. -/
example : ∃ s, run (init 3) [(0, .lockRead), (0, .lockWrite), (0, .lockGet), (1, .lockRead), (1, .lockWrite), (2, .lockRead),
    (2, .lockWrite)] = some s ∧ s.pc 0 = .held ∧ s.pc 1 = .waiting ∧ s.pc 2 = .waiting ∧ locks s = 3 := by
  exact ⟨_, rfl, rfl, rfl, rfl, rfl⟩

example : C156.Whole (init 2) [(0, .lockRead), (0, .lockWrite), (1, .lockRead), (1, .lockWrite)] := by
  simp [C156.Whole, step, init, C156.Between]

/-- Threads that only try. -/
example : ∃ s, run (init 2) [(0, .tryGet), (0, .tryRead), (1, .tryBusy), (0, .tryWrite), (1, .tryBusy)] = some s ∧
    s.pc 0 = .held ∧ s.pc 1 = .idle ∧ locks s = 1 := by
  exact ⟨_, rfl, rfl, rfl, rfl⟩

end Ecl.Props
