import Verif.Model.MutexRace
import Verif.Lemmas.ThreadableRace

/-!
# C155: Several threads use one mutex

Executions and data races as in `Spec/HappensBefore.lean`; `n` is the counter inside the mutex, `m` the mutex itself.
-/
set_option autoImplicit false

namespace Ecl.Props

open Ecl.Spec.Hb Ecl.MutexRace
open Ecl.ThreadableRace (before_lt runs_split runs_mem runs_at after)

/-- A thread uses the mutex `m` and the variable `v` properly: it takes the mutex only if it does not have it and lets it go
only if it has it, uses `v` only while it has it, and touches the mutex and its counter only through the calls. -/
def C155.Proper (n m v : Nat) : Bool → List Call → Prop
  | _, [] => True
  | h, .lock :: r => h = false ∧ C155.Proper n m v true r
  | h, .tryOk :: r => h = false ∧ C155.Proper n m v true r
  | h, .tryBusy :: r => C155.Proper n m v h r
  | h, .unlock :: r => h = true ∧ C155.Proper n m v false r
  | h, .locks :: r => C155.Proper n m v h r
  | h, .use a :: r => a ≠ .lock m ∧ a ≠ .unlock m ∧ a ≠ .read n ∧ a ≠ .write n ∧
      (a = .read v ∨ a = .write v → h = true) ∧ C155.Proper n m v h r

/-- `locks` is asked only by a thread that has the mutex. -/
def C155.AsksHeld : Bool → List Call → Prop
  | _, [] => True
  | _, .lock :: r => C155.AsksHeld true r
  | _, .tryOk :: r => C155.AsksHeld true r
  | _, .unlock :: r => C155.AsksHeld false r
  | h, .locks :: r => h = true ∧ C155.AsksHeld h r
  | h, .tryBusy :: r => C155.AsksHeld h r
  | h, .use _ :: r => C155.AsksHeld h r

/-- The system's side: the mutex is given to a thread only after every thread that had it let it go. -/
def C155.Exclusive (tr : Trace) (m : Nat) : Prop := ∀ i j t u : Nat, i < j → tr[i]? = some (t, .lock m) →
  tr[j]? = some (u, .lock m) → ∃ k : Nat, i < k ∧ k < j ∧ tr[k]? = some (t, .unlock m)

/-- The threads `t` and `u` begin after all threads of the execution have been made. -/
def C155.Made (tr : Trace) (t u : Nat) : Prop := ∀ (k l w x y : Nat) (a : Act), tr[k]? = some (w, .spawn x) →
  tr[l]? = some (y, a) →
  y = t ∨ y = u → k < l

namespace C155

/-- `v` is used only between taking `m` and letting it go. -/
def Held (m v : Nat) : Bool → List Act → Prop
  | _, [] => True
  | h, a :: r => (a = .read v ∨ a = .write v → h = true) ∧
      Held m v (if a = .lock m then true else if a = .unlock m then false else h) r

theorem held_split {m v : Nat} {h : Bool} {A B : List Act} {a : Act} (hl : Held m v h (A ++ a :: B))
    (ha : a = .read v ∨ a = .write v) :
    (h = true ∧ .unlock m ∉ A) ∨ ∃ A1 A2, A = A1 ++ .lock m :: A2 ∧ .unlock m ∉ A2 := by
  induction A generalizing h with
  | nil => exact .inl ⟨hl.1 ha, by simp⟩
  | cons c A ih =>
    rcases ih hl.2 with ⟨h1, h2⟩ | ⟨A1, A2, rfl, h2⟩
    · by_cases hc : c = .lock m
      · exact .inr ⟨[], A, by rw [hc]; rfl, h2⟩
      · rw [if_neg hc] at h1
        by_cases hc' : c = .unlock m
        · rw [if_pos hc'] at h1; cases h1
        · rw [if_neg hc'] at h1
          exact .inl ⟨h1, by simp [h2, Ne.symm hc']⟩
    · exact .inr ⟨c :: A1, A2, rfl, h2⟩

/-- Where an action stands in the list of its thread. -/
theorem runs_take {tr : Trace} {t i : Nat} {L : List Act} {a : Act} (h : Runs tr t L) (hi : tr[i]? = some (t, a)) :
    ∃ A B, L = A ++ a :: B ∧ Runs (tr.take i) t A := by
  have hs : tr = tr.take i ++ (t, a) :: tr.drop (i + 1) := by
    obtain ⟨hlt, e⟩ := List.getElem?_eq_some_iff.1 hi
    rw [← e, ← List.drop_eq_getElem_cons hlt, List.take_append_drop]
  refine ⟨((tr.take i).filter fun e => e.1 = t).map Prod.snd, ((tr.drop (i + 1)).filter fun e => e.1 = t).map Prod.snd,
    ?_, rfl⟩
  rw [← h]
  conv_lhs => rw [hs]
  simp [List.filter_append]

/-- A use of `v` comes after the thread took `m`, which it has not let go since. -/
theorem held_at {tr : Trace} {t i m v : Nat} {L : List Act} {a : Act} (h : Runs tr t L) (hl : Held m v false L)
    (hi : tr[i]? = some (t, a)) (ha : a = .read v ∨ a = .write v) :
    ∃ k : Nat, k < i ∧ tr[k]? = some (t, .lock m) ∧ ∀ j : Nat, k < j → j < i → tr[j]? ≠ some (t, .unlock m) := by
  obtain ⟨A, B, rfl, hA⟩ := runs_take h hi
  rcases held_split hl ha with ⟨h1, -⟩ | ⟨A1, A2, rfl, h2⟩
  · cases h1
  · obtain ⟨p, q, e, -, hq⟩ := runs_split hA
    have hlt : i < tr.length := (List.getElem?_eq_some_iff.1 hi).1
    have hlen : p.length < i := by
      have := congrArg List.length e
      rw [List.length_take, List.length_append, List.length_cons] at this
      omega
    have hat : ∀ j : Nat, j < i → tr[j]? = (p ++ (t, Act.lock m) :: q)[j]? := by
      intro j hj
      rw [← e, List.getElem?_take_of_lt hj]
    refine ⟨p.length, hlen, by rw [hat _ hlen]; simp, fun j hj hji hc => ?_⟩
    rw [hat j hji, after hj] at hc
    exact h2 (runs_mem hq hc)

/-- Two uses under the same mutex. -/
theorem ordered {tr : Trace} {m v t u i j : Nat} {L L' : List Act} {a b : Act} (hx : Exclusive tr m) (htu : t ≠ u)
    (hL : Runs tr t L) (hL' : Runs tr u L') (h : Held m v false L) (h' : Held m v false L')
    (hi : tr[i]? = some (t, a)) (hj : tr[j]? = some (u, b)) (ha : a = .read v ∨ a = .write v)
    (hb : b = .read v ∨ b = .write v) : Before tr i j ∨ Before tr j i := by
  obtain ⟨k, hk, hkl, hkn⟩ := held_at hL h hi ha
  obtain ⟨l, hl, hll, hln⟩ := held_at hL' h' hj hb
  rcases Nat.lt_trichotomy k l with hkl' | rfl | hkl'
  · obtain ⟨r, hr1, hr2, hr⟩ := hx k l t u hkl' hkl hll
    have hir : i < r := by
      rcases Nat.lt_trichotomy i r with h1 | rfl | h1
      · exact h1
      · rw [hi] at hr; cases hr; rcases ha with e | e <;> cases e
      · exact absurd hr (hkn r hr1 h1)
    exact .inl ((Before.thread hir hi hr).trans ((Before.mutex hr2 hr hll).trans (Before.thread hl hll hj)))
  · rw [hkl] at hll; cases hll; exact absurd rfl htu
  · obtain ⟨r, hr1, hr2, hr⟩ := hx l k u t hkl' hll hkl
    have hjr : j < r := by
      rcases Nat.lt_trichotomy j r with h1 | rfl | h1
      · exact h1
      · rw [hj] at hr; cases hr; rcases hb with e | e <;> cases e
      · exact absurd hr (hln r hr1 h1)
    exact .inr ((Before.thread hjr hj hr).trans ((Before.mutex hr2 hr hkl).trans (Before.thread hk hkl hi)))

theorem held_calls {n m v : Nat} (hv : v ≠ n) {h : Bool} {cs : List Call} (hp : Proper n m v h cs) :
    Held m v h (calls n m cs) := by
  induction cs generalizing h with
  | nil => trivial
  | cons c cs ih =>
    cases c with
    | lock => obtain ⟨-, hp⟩ := hp; simpa [calls, call, Held, Ne.symm hv] using ih hp
    | tryOk => obtain ⟨-, hp⟩ := hp; simpa [calls, call, Held, Ne.symm hv] using ih hp
    | tryBusy => simpa [calls, call, Held] using ih (h := h) hp
    | unlock => obtain ⟨-, hp⟩ := hp; simpa [calls, call, Held, Ne.symm hv] using ih hp
    | locks => simpa [calls, call, Held, Ne.symm hv] using ih (h := h) hp
    | use a =>
      obtain ⟨h1, h2, -, -, h5, hp⟩ := hp
      have := ih hp
      simp only [calls, List.flatMap_cons, call, List.singleton_append, Held, h1, h2, if_false]
      exact ⟨h5, this⟩

theorem held_count {n m v : Nat} {h : Bool} {cs : List Call} (hp : Proper n m v h cs) (hl : .lock ∉ cs)
    (hn : AsksHeld h cs) : Held m n h (calls n m cs) := by
  induction cs generalizing h with
  | nil => trivial
  | cons c cs ih =>
    have hl' : .lock ∉ cs := fun e => hl (List.mem_cons_of_mem _ e)
    cases c with
    | lock => simp at hl
    | tryOk => obtain ⟨-, hp⟩ := hp; simpa [calls, call, Held] using ih hp hl' hn
    | tryBusy => simpa [calls, call, Held] using ih (h := h) hp hl' hn
    | unlock => obtain ⟨rfl, hp⟩ := hp; simpa [calls, call, Held] using ih hp hl' hn
    | locks => obtain ⟨rfl, hn⟩ := hn; simpa [calls, call, Held] using ih (h := true) hp hl' hn
    | use a =>
      obtain ⟨h1, h2, h3, h4, -, hp⟩ := hp
      have := ih hp hl' hn
      simp only [calls, List.flatMap_cons, call, List.singleton_append, Held, h1, h2, h3, h4, if_false, or_self,
        false_imp_iff, true_and]
      exact this

end C155

/-- What a mutex is for: a variable that all threads use only while they have the mutex is never raced for, by any number of
threads, with any mix of `lock`, `trylock`, `unlock` and `locks`, in every execution. -/
theorem C155_guarded (tr : Trace) (n m v : Nat) (prog : Nat → List Call) (hv : v ≠ n)
    (hrun : ∀ t, Runs tr t (calls n m (prog t))) (hproper : ∀ t, C155.Proper n m v false (prog t))
    (hx : C155.Exclusive tr m) (i j : Nat) : ¬ RaceAt tr v i j := by
  rintro ⟨t, u, a, b, hi, hj, htu, ha, hb, -, h1, h2⟩
  rcases C155.ordered hx htu (hrun t) (hrun u) (C155.held_calls hv (hproper t)) (C155.held_calls hv (hproper u)) hi hj ha hb
    with h | h
  · exact h1 h
  · exact h2 h

/-- The mutex itself: if no thread uses `lock`, only `trylock` and `unlock`, and `locks` only while it has the
mutex, its counter is not raced for. -/
theorem C155_counter_partial (tr : Trace) (n m v : Nat) (prog : Nat → List Call)
    (hrun : ∀ t, Runs tr t (calls n m (prog t))) (hproper : ∀ t, C155.Proper n m v false (prog t))
    (hlock : ∀ t, .lock ∉ prog t ∧ C155.AsksHeld false (prog t)) (hx : C155.Exclusive tr m) (i j : Nat) : ¬ RaceAt tr n i j := by
  rintro ⟨t, u, a, b, hi, hj, htu, ha, hb, -, h1, h2⟩
  rcases C155.ordered hx htu (hrun t) (hrun u) (C155.held_count (hproper t) (hlock t).1 (hlock t).2)
    (C155.held_count (hproper u) (hlock u).1 (hlock u).2) hi hj ha hb with h | h
  · exact h1 h
  · exact h2 h

/-- But `lock` counts before it has the mutex: whenever two threads that have been made before either runs begin with `lock`, they race for the counter, whatever they do next and in whatever order they come. -/
theorem C155_fails_lock (tr : Trace) (n m t u : Nat) (cs cs' : List Call) (htu : t ≠ u)
    (ht : Runs tr t (calls n m (.lock :: cs))) (hu : Runs tr u (calls n m (.lock :: cs')))
    (hmade : C155.Made tr t u) : ∃ i j, RaceAt tr n i j := by
  -- nothing leads to the first two actions of a thread but the first of them
  have first : ∀ (t : Nat) (cs : List Call), Runs tr t (calls n m (.lock :: cs)) →
      ∃ i : Nat, tr[i]? = some (t, .write n) ∧
        ∀ k, Before tr k i → (∃ a, tr[k]? = some (t, a)) ∨ ∃ l w x : Nat, k ≤ l ∧ tr[l]? = some (w, .spawn x) := by
    intro t cs h
    obtain ⟨p, q, e, hp, -⟩ := runs_split (tr := tr) (t := t) (A := [.read n]) (a := .write n)
      (B := .lock m :: calls n m cs) h
    have hi : tr[p.length]? = some (t, .write n) := by rw [e]; simp
    have early : ∀ (j : Nat) (a : Act), j ≤ p.length → tr[j]? = some (t, a) → a = .read n ∨ a = .write n := by
      intro j a hj hja
      rcases Nat.lt_or_ge j p.length with h | h
      · rw [e, List.getElem?_append_left h] at hja
        exact .inl (by simpa using runs_mem hp hja)
      · have : j = p.length := Nat.le_antisymm hj h
        subst this
        rw [hi] at hja
        cases hja
        exact .inr rfl
    have key : ∀ a b, Before tr a b → b ≤ p.length → (∃ c, tr[b]? = some (t, c)) →
        (∃ c, tr[a]? = some (t, c)) ∨ ∃ l w x : Nat, a ≤ l ∧ tr[l]? = some (w, .spawn x) := by
      intro a b hab
      induction hab with
      | thread hlt ha hb => rintro hp ⟨c, e⟩; rw [hb] at e; cases e; exact .inl ⟨_, ha⟩
      | spawn hlt ha hb => exact fun _ _ => .inr ⟨_, _, _, Nat.le_refl _, ha⟩
      | mutex hlt ha hb =>
        rintro hp ⟨c, e⟩; rw [hb] at e; cases e
        rcases early _ _ hp hb with e | e <;> cases e
      | memory hlt ha hb =>
        rintro hp ⟨c, e⟩; rw [hb] at e; cases e
        rcases early _ _ hp hb with e | e <;> cases e
      | trans h1 h2 ih1 ih2 =>
        intro hp e
        rcases ih2 hp e with e | ⟨l, w, x, hl, e⟩
        · exact ih1 (Nat.le_trans (Nat.le_of_lt (before_lt h2)) hp) e
        · exact .inr ⟨l, w, x, Nat.le_trans (Nat.le_of_lt (before_lt h1)) hl, e⟩
    exact ⟨p.length, hi, fun k hk => key _ _ hk (Nat.le_refl _) ⟨_, hi⟩⟩
  obtain ⟨i, hi, hi'⟩ := first t cs ht
  obtain ⟨j, hj, hj'⟩ := first u cs' hu
  refine ⟨i, j, t, u, _, _, hi, hj, htu, .inr rfl, .inr rfl, .inl rfl, fun h => ?_, fun h => ?_⟩
  · rcases hj' i h with ⟨a, e⟩ | ⟨l, w, x, hl, e⟩
    · rw [hi] at e
      cases e
      exact htu rfl
    · exact absurd (hmade l i w x t _ e hi (.inl rfl)) (Nat.not_lt.2 hl)
  · rcases hi' j h with ⟨a, e⟩ | ⟨l, w, x, hl, e⟩
    · rw [hj] at e
      cases e
      exact htu rfl
    · exact absurd (hmade l j w x u _ e hj (.inr rfl)) (Nat.not_lt.2 hl)

/-- And `locks` reads the counter without the mutex: a thread that only asks for the number of locks races with every thread
that takes the mutex even once, with `lock` or `trylock`, or lets it go. -/
theorem C155_fails_locks (tr : Trace) (n m t u k : Nat) (cs : List Call) (htu : t ≠ u) (hk : 0 < k)
    (ht : Runs tr t (calls n m (List.replicate k .locks))) (hu : Runs tr u (calls n m cs))
    (huse : .lock ∈ cs ∨ .tryOk ∈ cs ∨ .unlock ∈ cs) (hmade : C155.Made tr t u) :
    ∃ i j, RaceAt tr n i j := by
  have hreads : ∀ (i : Nat) (a : Act), tr[i]? = some (t, a) → a = .read n := by
    intro i a hi
    have := runs_mem ht hi
    simp only [calls, List.mem_flatMap, List.mem_replicate] at this
    obtain ⟨c, ⟨-, rfl⟩, hc⟩ := this
    simpa [call] using hc
  have hin : .read n ∈ calls n m (List.replicate k .locks) := by
    simp only [calls, List.mem_flatMap, List.mem_replicate]
    exact ⟨_, ⟨by omega, rfl⟩, by simp [call]⟩
  have hwr : .write n ∈ calls n m cs := by
    simp only [calls, List.mem_flatMap]
    rcases huse with h | h | h <;> exact ⟨_, h, by simp [call]⟩
  have pos : ∀ (t : Nat) (L : List Act) (a : Act), Runs tr t L → a ∈ L → ∃ i : Nat, tr[i]? = some (t, a) := by
    intro t L a h ha
    obtain ⟨A, B, rfl⟩ := List.append_of_mem ha
    obtain ⟨p, q, e, -, -⟩ := runs_split h
    exact ⟨p.length, by rw [e]; simp⟩
  obtain ⟨i, hi⟩ := pos t _ _ ht hin
  obtain ⟨j, hj⟩ := pos u _ _ hu hwr
  have out : ∀ a b, Before tr a b → (∃ c, tr[a]? = some (t, c)) → ∃ c, tr[b]? = some (t, c) := by
    intro a b hab
    induction hab with
    | thread hlt ha hb => rintro ⟨c, e⟩; rw [ha] at e; cases e; exact ⟨_, hb⟩
    | spawn hlt ha hb => rintro ⟨c, e⟩; rw [ha] at e; cases e; cases hreads _ _ ha
    | mutex hlt ha hb => rintro ⟨c, e⟩; rw [ha] at e; cases e; cases hreads _ _ ha
    | memory hlt ha hb => rintro ⟨c, e⟩; rw [ha] at e; cases e; cases hreads _ _ ha
    | trans h1 h2 ih1 ih2 => exact fun e => ih2 (ih1 e)
  have into : ∀ a b, Before tr a b → (∃ c, tr[b]? = some (t, c)) →
      (∃ c, tr[a]? = some (t, c)) ∨ ∃ l w x : Nat, a ≤ l ∧ tr[l]? = some (w, .spawn x) := by
    intro a b hab
    induction hab with
    | thread hlt ha hb => rintro ⟨c, e⟩; rw [hb] at e; cases e; exact .inl ⟨_, ha⟩
    | spawn hlt ha hb => exact fun _ => .inr ⟨_, _, _, Nat.le_refl _, ha⟩
    | mutex hlt ha hb => rintro ⟨c, e⟩; rw [hb] at e; cases e; cases hreads _ _ hb
    | memory hlt ha hb => rintro ⟨c, e⟩; rw [hb] at e; cases e; cases hreads _ _ hb
    | trans h1 h2 ih1 ih2 =>
      intro e
      rcases ih2 e with e | ⟨l, w, x, hl, e⟩
      · exact ih1 e
      · exact .inr ⟨l, w, x, Nat.le_trans (Nat.le_of_lt (before_lt h1)) hl, e⟩
  refine ⟨i, j, t, u, _, _, hi, hj, htu, .inl rfl, .inr rfl, .inr rfl, fun h => ?_, fun h => ?_⟩
  · obtain ⟨c, e⟩ := out _ _ h ⟨_, hi⟩
    rw [hj] at e
    cases e
    exact htu rfl
  · rcases into _ _ h ⟨_, hi⟩ with ⟨c, e⟩ | ⟨l, w, x, hl, e⟩
    · rw [hj] at e
      cases e
      exact htu rfl
    · exact absurd (hmade l j w x u _ e hj (.inr rfl)) (Nat.not_lt.2 hl)

/-! ## The hypotheses are met -/

/-- Two threads that add to 5 under the mutex 2 with the counter 1, and a third that does nothing. -/
def C155.prog (t : Nat) : List Call := if t = 1 then [.lock, .use (.write 5), .unlock]
  else if t = 2 then [.tryBusy, .lock, .use (.read 5), .locks, .unlock] else []

def C155.tr : Trace := [(1, .read 1), (1, .write 1), (1, .lock 2), (2, .read 1), (2, .write 1), (1, .write 5), (1, .read 1),
  (1, .write 1), (1, .unlock 2), (2, .lock 2), (2, .read 5), (2, .read 1), (2, .read 1), (2, .write 1), (2, .unlock 2)]

example : (∀ t, C155.Proper 1 2 5 false (C155.prog t)) ∧ ∀ t, Runs C155.tr t (calls 1 2 (C155.prog t)) := by
  constructor
  · intro t
    unfold C155.prog
    split
    · simp [C155.Proper]
    · split <;> simp [C155.Proper]
  · intro t
    unfold C155.prog
    by_cases h1 : t = 1
    · subst h1; rfl
    · by_cases h2 : t = 2
      · subst h2; rfl
      · rw [if_neg h1, if_neg h2]
        simp [Runs, C155.tr, calls, Ne.symm h1, Ne.symm h2]

example : C155.Exclusive C155.tr 2 := by
  intro i j t u hij hi hj
  have h : ∀ i < 15, ((C155.tr[i]?.map Prod.snd) = some (.lock 2)) → i = 2 ∨ i = 9 := by decide
  have a := h i (List.getElem?_eq_some_iff.1 hi).1 (by rw [hi]; rfl)
  have b := h j (List.getElem?_eq_some_iff.1 hj).1 (by rw [hj]; rfl)
  obtain ⟨rfl, rfl⟩ : i = 2 ∧ j = 9 := by omega
  refine ⟨8, by omega, by omega, ?_⟩
  have : t = 1 := by simpa [C155.tr] using hi.symm
  rw [this]; rfl

/-- They race for the counter. -/
example : ∃ i j, RaceAt C155.tr 1 i j := by
  refine C155_fails_lock C155.tr 1 2 1 2 [.use (.write 5), .unlock] [.use (.read 5), .locks, .unlock] (by decide) rfl rfl ?_
  intro k l w x y a h
  have := List.mem_of_getElem? h
  simp [C155.tr] at this

/-- With `trylock` and `unlock` only, as `C155_counter_partial` asks. -/
def C155.tryProg (t : Nat) : List Call := if t = 1 then [.tryOk, .use (.write 5), .unlock]
  else if t = 2 then [.tryBusy, .tryOk, .use (.read 5), .locks, .unlock] else []

def C155.tryTr : Trace := [(1, .lock 2), (1, .read 1), (1, .write 1), (1, .write 5), (1, .read 1), (1, .write 1),
  (1, .unlock 2), (2, .lock 2), (2, .read 1), (2, .write 1), (2, .read 5), (2, .read 1), (2, .read 1), (2, .write 1), (2, .unlock 2)]

example (i j : Nat) : ¬ RaceAt C155.tryTr 1 i j := by
  refine C155_counter_partial C155.tryTr 1 2 5 C155.tryProg ?_ ?_ ?_ ?_ i j
  · intro t
    unfold C155.tryProg
    by_cases h1 : t = 1
    · subst h1; rfl
    · by_cases h2 : t = 2
      · subst h2; rfl
      · rw [if_neg h1, if_neg h2]
        simp [Runs, C155.tryTr, calls, Ne.symm h1, Ne.symm h2]
  · intro t
    unfold C155.tryProg
    split
    · simp [C155.Proper]
    · split <;> simp [C155.Proper]
  · intro t
    unfold C155.tryProg
    split
    · simp [C155.AsksHeld]
    · split <;> simp [C155.AsksHeld]
  · intro i j t u hij hi hj
    have h : ∀ i < 15, ((C155.tryTr[i]?.map Prod.snd) = some (.lock 2)) → i = 0 ∨ i = 7 := by decide
    have a := h i (List.getElem?_eq_some_iff.1 hi).1 (by rw [hi]; rfl)
    have b := h j (List.getElem?_eq_some_iff.1 hj).1 (by rw [hj]; rfl)
    obtain ⟨rfl, rfl⟩ : i = 0 ∧ j = 7 := by omega
    refine ⟨6, by omega, by omega, ?_⟩
    have : t = 1 := by simpa [C155.tryTr] using hi.symm
    rw [this]; rfl

/-- A thread that makes two others, one of which watches. -/
example : ∃ i j, RaceAt [(0, .spawn 1), (0, .spawn 2), (1, .lock 2), (2, .read 1), (1, .read 1), (1, .write 1), (1, .read 1),
    (1, .write 1), (1, .unlock 2), (2, .read 1)] 1 i j := by
  refine C155_fails_locks _ 1 2 2 1 2 [.tryOk, .unlock] (by decide) (by decide) rfl rfl (by decide) ?_
  intro k l w x y a h h' hy
  match k, l, h, h' with
  | 0, 0, _, h' => simp at h'; omega
  | 0, l + 1, _, _ => omega
  | 1, 0, _, h' => simp at h'; omega
  | 1, 1, _, h' => simp at h'; omega
  | 1, l + 2, _, _ => omega
  | k + 2, _, h, _ =>
    have := List.mem_of_getElem? (l := [(1, Act.lock 2), (2, .read 1), (1, .read 1), (1, .write 1), (1, .read 1),
      (1, .write 1), (1, .unlock 2), (2, .read 1)]) (i := k) h
    simp at this

/-- A thread that makes two others, both of which lock. -/
example : ∃ i j, RaceAt [(0, .spawn 1), (0, .spawn 2), (1, .read 1), (1, .write 1), (1, .lock 2), (2, .read 1), (2, .write 1),
    (1, .read 1), (1, .write 1), (1, .unlock 2), (2, .lock 2)] 1 i j := by
  refine C155_fails_lock _ 1 2 1 2 [.unlock] [] (by decide) rfl rfl ?_
  intro k l w x y a h h' hy
  match k, l, h, h' with
  | 0, 0, _, h' => simp at h'; omega
  | 0, l + 1, _, _ => omega
  | 1, 0, _, h' => simp at h'; omega
  | 1, 1, _, h' => simp at h'; omega
  | 1, l + 2, _, _ => omega
  | k + 2, _, h, _ =>
    have := List.mem_of_getElem? (l := [(1, Act.read 1), (1, .write 1), (1, .lock 2), (2, .read 1), (2, .write 1),
      (1, .read 1), (1, .write 1), (1, .unlock 2), (2, .lock 2)]) (i := k) h
    simp at this

end Ecl.Props
