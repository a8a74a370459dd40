import Verif.Lemmas.ThreadableRace

/-!
# C152: Asking a `Threadable` whether it is running

Executions are lists of actions of numbered threads; `RaceAt tr x i j` says that the actions at the places `i` and `j` are a
data race on `x` (undefined behaviour in C++).  What happens before what is defined in `Spec/HappensBefore.lean`.
-/
set_option autoImplicit false

namespace Ecl.Props

open Ecl.Spec.Hb Ecl.ThreadableRace

/-- Where the end of the thread, which clears the flag, races with another thread: with each use of the flag that does not
happen before it, unless the memory of the task was given out again and the use happens after that. -/
theorem C152_decides (tr : Trace) (flag task w : Nat) (runnable : List Act)
    (h : Runs tr w (thread flag task runnable)) :
    ∃ i f : Nat, i < f ∧ tr[i]? = some (w, .write flag) ∧ tr[f]? = some (w, .free task) ∧
      (∀ (k : Nat) (a : Act), f < k → tr[k]? ≠ some (w, a)) ∧
      ∀ (j t : Nat) (a : Act), tr[j]? = some (t, a) → t ≠ w → (a = .read flag ∨ a = .write flag) →
        (RaceAt tr flag i j ↔ ¬ Before tr j i ∧
          ∀ k u : Nat, f < k → tr[k]? = some (u, .alloc task) → ¬ Before tr k j) := by
  obtain ⟨p, q, rfl, -, h2⟩ := runs_split (A := runnable) (a := .write flag) (B := [.free task]) h
  obtain ⟨p', q', rfl, h3, h4⟩ := runs_split (A := []) (a := .free task) (B := []) h2
  obtain ⟨tr, htr⟩ : ∃ tr, tr = p ++ (w, Act.write flag) :: (p' ++ (w, Act.free task) :: q') := ⟨_, rfl⟩
  have hi : tr[p.length]? = some (w, .write flag) := by rw [htr]; simp
  have hf : tr[p.length + 1 + p'.length]? = some (w, .free task) := by
    rw [htr, after (by omega), show p.length + 1 + p'.length - p.length - 1 = p'.length by omega]; simp
  rw [← htr]
  -- the thread does nothing else from the clearing of the flag on
  have only : ∀ (j : Nat) (a : Act), p.length ≤ j → tr[j]? = some (w, a) →
      (j = p.length ∧ a = .write flag) ∨ (j = p.length + 1 + p'.length ∧ a = .free task) := by
    intro j a hj hja
    rcases Nat.lt_or_ge p.length j with hlt | hge
    · rcases Nat.lt_trichotomy j (p.length + 1 + p'.length) with h5 | h5 | h5
      · exfalso
        rw [htr, after hlt, List.getElem?_append_left (by omega)] at hja
        simpa using runs_mem h3 hja
      · subst h5
        rw [hf] at hja
        cases hja
        exact .inr ⟨rfl, rfl⟩
      · exfalso
        rw [htr, after hlt, after (by omega)] at hja
        simpa using runs_mem h4 hja
    · have : j = p.length := le_antisymm hge hj
      subst this
      rw [hi] at hja
      cases hja
      exact .inl ⟨rfl, rfl⟩
  have key : ∀ x y : Nat, Before tr x y → p.length ≤ x → (∃ a, tr[x]? = some (w, a)) →
      (∃ a, tr[y]? = some (w, a)) ∨
        ∃ k u : Nat, p.length + 1 + p'.length < k ∧ tr[k]? = some (u, .alloc task) ∧ (k = y ∨ Before tr k y) := by
    intro x y hxy
    induction hxy with
    | thread hlt ha hb =>
      rintro hx ⟨a, e⟩
      rw [ha] at e
      cases e
      exact .inl ⟨_, hb⟩
    | spawn hlt ha hb =>
      rintro hx ⟨a, e⟩
      rw [ha] at e
      cases e
      rcases only _ _ hx ha with ⟨-, e⟩ | ⟨-, e⟩ <;> cases e
    | mutex hlt ha hb =>
      rintro hx ⟨a, e⟩
      rw [ha] at e
      cases e
      rcases only _ _ hx ha with ⟨-, e⟩ | ⟨-, e⟩ <;> cases e
    | memory hlt ha hb =>
      rintro hx ⟨a, e⟩
      rw [ha] at e
      cases e
      rcases only _ _ hx ha with ⟨-, e⟩ | ⟨e1, e⟩
      · cases e
      · cases e
        subst e1
        exact .inr ⟨_, _, hlt, hb, .inl rfl⟩
    | trans h1 h2 ih1 ih2 =>
      intro hx e
      rcases ih1 hx e with e' | ⟨k, u, hk, ha, e'⟩
      · exact ih2 (le_trans hx (before_lt h1).le) e'
      · refine .inr ⟨k, u, hk, ha, .inr ?_⟩
        rcases e' with rfl | e'
        · exact h2
        · exact e'.trans h2
  refine ⟨p.length, p.length + 1 + p'.length, by omega, hi, hf, ?_, fun j t a hj ht ha => ⟨?_, ?_⟩⟩
  · intro k a hk e
    rcases only k a (by omega) e with ⟨h5, -⟩ | ⟨h5, -⟩ <;> omega
  · rintro ⟨t', u', a', b', -, -, -, -, -, -, h5, h6⟩
    refine ⟨h6, fun k u hk hu hkj => h5 ?_⟩
    exact (Before.thread (by omega) hi hf).trans ((Before.memory hk hf hu).trans hkj)
  · rintro ⟨h5, h6⟩
    refine ⟨w, t, _, a, hi, hj, Ne.symm ht, .inr rfl, ha, .inl rfl, fun hb => ?_, h5⟩
    rcases key _ _ hb le_rfl ⟨_, hi⟩ with ⟨b, e⟩ | ⟨k, u, hk, hu, rfl | hkj⟩
    · rw [hj] at e
      cases e
      exact ht rfl
    · rw [hj] at hu
      cases hu
      rcases ha with ha | ha <;> cases ha
    · exact h6 k u hk hu hkj

/-- Waiting for the end by asking: after `start` a thread asks any number of times (`isRunning()` is one read of the flag,
`threadable.hpp:90`, and so is `start` while the flag is on, `:80`) and uses what `runnable`
leaves behind.  Whatever `runnable` does, and in whatever order the two threads run, every use of the flag and of
anything that `runnable` writes is a data race. -/
theorem C152_fails_poll (tr : Trace) (flag task w x : Nat) (runnable rest : List Act) (hw : w ≠ 0)
    (two : ∀ e ∈ tr, e.1 = 0 ∨ e.1 = w)
    (hmain : Runs tr 0 (start flag task w ++ rest)) (hrest : ∀ a ∈ rest, ∃ y, a = .read y ∨ a = .write y)
    (hthread : Runs tr w (thread flag task runnable)) (hroot : .spawn 0 ∉ runnable)
    (hmade : ∀ (i j : Nat) (a : Act), tr[i]? = some (0, .spawn w) → tr[j]? = some (w, a) → i < j)
    (huse : .read x ∈ rest) (hset : x = flag ∨ .write x ∈ runnable) : ∃ i j, RaceAt tr x i j := by
  obtain ⟨p, q, rfl, -, h2⟩ :=
    runs_split (A := [.read flag, .write flag, .alloc task]) (a := .spawn w) (B := rest) hmain
  have hsp : (p ++ (0, Act.spawn w) :: q)[p.length]? = some (0, .spawn w) := by simp
  have hmadeq := fun j a => hmade p.length j a hsp
  have late : ∀ (j : Nat) (a : Act), p.length < j → (p ++ (0, Act.spawn w) :: q)[j]? = some (0, a) → a ∈ rest := by
    intro j a hj hja
    rw [after hj] at hja
    exact runs_mem h2 hja
  obtain ⟨j0, hj0⟩ := runs_at h2 huse
  have hj : (p ++ (0, Act.spawn w) :: q)[p.length + 1 + j0]? = some (0, .read x) := by
    rw [after (by omega), show p.length + 1 + j0 - p.length - 1 = j0 by omega]; exact hj0
  have hmem : Act.write x ∈ thread flag task runnable := by
    rcases hset with rfl | h
    · simp [thread]
    · simp [thread, h]
  obtain ⟨i, hi⟩ := runs_at hthread hmem
  have hroot' : Act.spawn 0 ∉ thread flag task runnable := by simp [thread, hroot]
  generalize p ++ (0, Act.spawn w) :: q = tr at *
  have fromMain : ∀ a b : Nat, Before tr a b → p.length < a → (∃ c, tr[a]? = some (0, c)) → ∃ c, tr[b]? = some (0, c) := by
    intro a b hab
    induction hab with
    | thread hlt ha hb => rintro hp ⟨c, e⟩; rw [ha] at e; cases e; exact ⟨_, hb⟩
    | spawn hlt ha hb =>
      rintro hp ⟨c, e⟩; rw [ha] at e; cases e
      obtain ⟨y, e | e⟩ := hrest _ (late _ _ hp ha) <;> cases e
    | mutex hlt ha hb =>
      rintro hp ⟨c, e⟩; rw [ha] at e; cases e
      obtain ⟨y, e | e⟩ := hrest _ (late _ _ hp ha) <;> cases e
    | memory hlt ha hb =>
      rintro hp ⟨c, e⟩; rw [ha] at e; cases e
      obtain ⟨y, e | e⟩ := hrest _ (late _ _ hp ha) <;> cases e
    | trans h1 h2 ih1 ih2 => exact fun hp e => ih2 (lt_trans hp (before_lt h1)) (ih1 hp e)
  have which : ∀ (a t : Nat) (c : Act), tr[a]? = some (t, c) → t = 0 ∨ t = w := fun a t c e => two _ (List.mem_of_getElem? e)
  have fromThread : ∀ a b : Nat, Before tr a b → (∃ c, tr[a]? = some (w, c)) → ∃ c, tr[b]? = some (w, c) := by
    intro a b hab
    induction hab with
    | thread hlt ha hb => rintro ⟨c, e⟩; rw [ha] at e; cases e; exact ⟨_, hb⟩
    | @spawn a b t u c hlt ha hb =>
      rintro ⟨c, e⟩; rw [ha] at e; cases e
      rcases which _ _ _ hb with rfl | rfl
      · exact absurd (runs_mem hthread ha) hroot'
      · exact ⟨_, hb⟩
    | @mutex a b t u m hlt ha hb =>
      rintro ⟨c, e⟩; rw [ha] at e; cases e
      rcases which _ _ _ hb with rfl | rfl
      · obtain ⟨y, e | e⟩ := hrest _ (late _ _ (lt_trans (hmadeq _ _ ha) hlt) hb) <;> cases e
      · exact ⟨_, hb⟩
    | @memory a b t u m hlt ha hb =>
      rintro ⟨c, e⟩; rw [ha] at e; cases e
      rcases which _ _ _ hb with rfl | rfl
      · obtain ⟨y, e | e⟩ := hrest _ (late _ _ (lt_trans (hmadeq _ _ ha) hlt) hb) <;> cases e
      · exact ⟨_, hb⟩
    | trans h1 h2 ih1 ih2 => exact fun e => ih2 (ih1 e)
  refine ⟨i, p.length + 1 + j0, w, 0, _, _, hi, hj, hw, .inr rfl, .inl rfl, .inl rfl, fun hb => ?_, fun hb => ?_⟩
  · obtain ⟨c, e⟩ := fromThread _ _ hb ⟨_, hi⟩
    rw [hj] at e
    cases e
    exact hw rfl
  · obtain ⟨c, e⟩ := fromMain _ _ hb (by omega) ⟨_, hj⟩
    rw [hi] at e
    cases e
    exact hw rfl

/-- Starting again: the thread has ended and its task is deleted, and the flag has been asked any number of times.  The next
call of `start`, whose first action is to read the flag (`threadable.hpp:80`), races with the end of the thread, whatever
`runnable` did and whatever the call and the new thread do next. -/
theorem C152_fails_restart (pre post : Trace) (flag task w n : Nat) (runnable : List Act) (hw : w ≠ 0)
    (two : ∀ e ∈ pre, e.1 = 0 ∨ e.1 = w)
    (hmain : Runs pre 0 (start flag task w ++ List.replicate n (.read flag)))
    (hthread : Runs pre w (thread flag task runnable)) (hover : Runs post w [])
    (hmade : ∀ (i j : Nat) (a : Act), pre[i]? = some (0, .spawn w) → pre[j]? = some (w, a) → i < j) :
    ∃ i, i < pre.length ∧ RaceAt (pre ++ (0, .read flag) :: post) flag i pre.length := by
  have hall : Runs (pre ++ (0, .read flag) :: post) w (thread flag task runnable) := by
    simp only [Runs] at hthread hover ⊢
    rw [List.filter_append, List.map_append, hthread, List.filter_cons_of_neg (by simpa using Ne.symm hw), hover,
      List.append_nil]
  obtain ⟨i, f, hif, hi, hf, hlast, hd⟩ := C152_decides _ flag task w runnable hall
  have hj : (pre ++ (0, Act.read flag) :: post)[pre.length]? = some (0, .read flag) := by simp
  have inPre : ∀ (k : Nat) (a : Act), (pre ++ (0, Act.read flag) :: post)[k]? = some (w, a) → k < pre.length := by
    intro k a hk
    rcases Nat.lt_trichotomy k pre.length with h | h | h
    · exact h
    · subst h; rw [hj] at hk; cases hk; exact absurd rfl hw
    · rw [after h] at hk
      simpa using runs_mem hover hk
  have hip := inPre _ _ hi
  have hfp := inPre _ _ hf
  refine ⟨i, hip, (hd pre.length 0 _ hj (Ne.symm hw) (.inl rfl)).2 ⟨fun h => ?_, fun k u hfk hk hb => ?_⟩⟩
  · have := before_lt h; omega
  · have hkp := before_lt hb
    rw [List.getElem?_append_left hkp] at hk
    rw [List.getElem?_append_left hfp] at hf
    obtain ⟨p, q, rfl, -, h2⟩ := runs_split (A := [.read flag, .write flag, .alloc task]) (a := .spawn w)
      (B := List.replicate n (.read flag)) hmain
    have hpf := hmade p.length f _ (by simp) hf
    rcases two _ (List.mem_of_getElem? hk) with h | h
    · simp only at h
      subst h
      rw [after (by omega)] at hk
      have := runs_mem h2 hk
      rw [List.mem_replicate] at this
      exact absurd this.2 (by simp)
    · simp only at h
      subst h
      exact hlast k _ hfk (by rw [List.getElem?_append_left hkp]; exact hk)

/-- Without asking: if `runnable` unlocks a mutex after it wrote, and another thread locks it later and then uses what was
written, there is no race; nor is there one with a question that comes before an unlock which `runnable` waits for. -/
theorem C152_guarded_partial (tr : Trace) (t w x m i i' j j' : Nat) (a b : Act)
    (hi : tr[i]? = some (t, a)) (hu : tr[i']? = some (t, .unlock m)) (hl : tr[j]? = some (w, .lock m))
    (hj : tr[j']? = some (w, b)) (h1 : i < i') (h2 : i' < j) (h3 : j < j') :
    ¬ RaceAt tr x i j' := by
  rintro ⟨t', u', a', b', -, -, -, -, -, -, h5, -⟩
  exact h5 ((Before.thread h1 hi hu).trans ((Before.mutex h2 hu hl).trans (Before.thread h3 hl hj)))

/-! ## The hypotheses are met -/

/-- Start, two questions, the thread with a write to 5 and an unlock, and the use of 5. -/
def C152.tr : Trace := [(0, .read 7), (0, .write 7), (0, .alloc 3), (0, .spawn 1), (1, .lock 2), (0, .read 7),
  (1, .write 5), (1, .unlock 2), (1, .write 7), (0, .read 7), (1, .free 3), (0, .read 5)]

/-- It ends and is asked once. -/
def C152.over : Trace := [(0, .read 7), (0, .write 7), (0, .alloc 3), (0, .spawn 1), (1, .write 5), (1, .write 7),
  (1, .free 3), (0, .read 7)]

/-- It is started again. -/
example : ∃ i, i < 8 ∧ RaceAt (C152.over ++ (0, .read 7) :: [(0, .write 7), (0, .alloc 3), (0, .spawn 2)]) 7 i 8 := by
  refine C152_fails_restart C152.over _ 7 3 1 1 [.write 5] (by decide) (by decide) rfl rfl rfl ?_
  intro i j a hi hj
  have h1 : ∀ i < 8, C152.over[i]? = some (0, .spawn 1) → i = 3 := by decide
  have h2 : ∀ j < 8, (C152.over[j]?.map Prod.fst) = some 1 → 3 < j := by decide
  rw [h1 i (List.getElem?_eq_some_iff.1 hi).1 hi]
  exact h2 j (List.getElem?_eq_some_iff.1 hj).1 (by rw [hj]; rfl)

example : Runs C152.tr 0 (start 7 3 1 ++ [.read 7, .read 7, .read 5]) ∧
    Runs C152.tr 1 (thread 7 3 [.lock 2, .write 5, .unlock 2]) ∧ (∀ e ∈ C152.tr, e.1 = 0 ∨ e.1 = 1) := by
  exact ⟨rfl, rfl, by decide⟩

/-- So the two threads race on the flag and on the result. -/
example : (∃ i j, RaceAt C152.tr 7 i j) ∧ ∃ i j, RaceAt C152.tr 5 i j := by
  have hm : ∀ (i j : Nat) (a : Act), C152.tr[i]? = some (0, .spawn 1) → C152.tr[j]? = some (1, a) → i < j := by
    intro i j a hi hj
    have h1 : i = 3 := by
      have : ∀ i < 12, C152.tr[i]? = some (0, .spawn 1) → i = 3 := by decide
      exact this i (List.getElem?_eq_some_iff.1 hi).1 hi
    have h2 : ∀ j < 12, (C152.tr[j]?.map Prod.fst) = some 1 → 3 < j := by decide
    rw [h1]
    exact h2 j (List.getElem?_eq_some_iff.1 hj).1 (by rw [hj]; rfl)
  have hr : ∀ a ∈ [Act.read 7, .read 7, .read 5], ∃ y, a = .read y ∨ a = .write y := by
    intro a ha
    simp only [List.mem_cons, List.not_mem_nil, or_false] at ha
    rcases ha with rfl | rfl | rfl <;> exact ⟨_, .inl rfl⟩
  exact ⟨C152_fails_poll C152.tr 7 3 1 7 [.lock 2, .write 5, .unlock 2] _ (by decide) (by decide) rfl hr
      rfl (by decide) hm (by decide) (.inl rfl),
    C152_fails_poll C152.tr 7 3 1 5 [.lock 2, .write 5, .unlock 2] _ (by decide) (by decide) rfl hr
      rfl (by decide) hm (by decide) (.inr (by decide))⟩

end Ecl.Props
