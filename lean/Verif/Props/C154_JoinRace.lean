import Verif.Model.JoinRace
import Verif.Lemmas.ThreadableRace

/-!
# C154: Using what a thread left behind after waiting for it

Executions and data races as in `Spec/HappensBefore.lean`; the owner is thread 0.
-/
set_option autoImplicit false

namespace Ecl.Props

open Ecl.Spec.Hb Ecl.JoinRace
open Ecl.ThreadableRace (before_lt runs_split runs_mem runs_at after)

namespace C154

/-- Only actions of its own. -/
def Own (cs : List Call) : Prop := ∀ c ∈ cs, ∃ a, c = .use a

theorem owner_own (task w e : Nat) (s k : Bool) (cs r : List Call) (h : Own cs) :
    ∃ A, owner task w e s k (cs ++ r) = A ++ owner task w e s k r := by
  induction cs with
  | nil => exact ⟨[], rfl⟩
  | cons c cs ih =>
    obtain ⟨a, rfl⟩ := h c List.mem_cons_self
    obtain ⟨A, hA⟩ := ih fun c hc => h c (List.mem_cons_of_mem _ hc)
    exact ⟨a :: A, by simp only [List.cons_append, owner, hA]⟩

/-- Calls after `cancel` that do nothing but use variables. -/
theorem owner_cancelled (task w e : Nat) (cs : List Call)
    (h : ∀ c ∈ cs, c = .join ∨ c = .start ∨ ∃ x, c = .use (.read x) ∨ c = .use (.write x)) :
    (∀ a ∈ owner task w e true false cs, ∃ x, a = .read x ∨ a = .write x) ∧
      ∀ a, .use a ∈ cs → a ∈ owner task w e true false cs := by
  induction cs with
  | nil => simp [owner]
  | cons c cs ih =>
    obtain ⟨h1, h2⟩ := ih fun c hc => h c (List.mem_cons_of_mem _ hc)
    rcases h c List.mem_cons_self with rfl | rfl | ⟨x, rfl | rfl⟩
    · simp only [owner, Bool.false_eq_true, if_false]
      exact ⟨h1, fun a ha => h2 a (by simpa using ha)⟩
    · simp only [owner, if_true]
      exact ⟨h1, fun a ha => h2 a (by simpa using ha)⟩
    · simp only [owner, List.mem_cons]
      refine ⟨?_, ?_⟩
      · rintro a (rfl | ha)
        · exact ⟨x, .inl rfl⟩
        · exact h1 a ha
      · rintro a (ha | ha)
        · cases ha; exact .inl rfl
        · exact .inr (h2 a ha)
    · simp only [owner, List.mem_cons]
      refine ⟨?_, ?_⟩
      · rintro a (rfl | ha)
        · exact ⟨x, .inr rfl⟩
        · exact h1 a ha
      · rintro a (ha | ha)
        · cases ha; exact .inl rfl
        · exact .inr (h2 a ha)

end C154

/-- After `join` the owner may use everything: whatever the thread did happens before whatever the owner does next, so that no
two of these race, for every function and every execution with any other threads.  (The last hypothesis is what
`pthread_join` waits for.) -/
theorem C154_joined_partial (tr : Trace) (task w e : Nat) (function : List Act) (a b c : List Call)
    (ha : C154.Own a) (hb : C154.Own b)
    (howner : Runs tr 0 (owner task w e false false (a ++ .start :: (b ++ .join :: c))))
    (hthread : Runs tr w (thread task e function)) (he : .unlock e ∉ function)
    (hwait : ∀ j : Nat, tr[j]? = some (0, .lock e) → ∃ i : Nat, i < j ∧ tr[i]? = some (w, .unlock e)) :
    ∃ p q, tr = p ++ (0, .lock e) :: q ∧ Runs q 0 (owner task w e true true c) ∧
      ∀ (i k : Nat) (x y : Act), tr[i]? = some (w, x) → tr[k]? = some (0, y) → p.length < k →
        Before tr i k ∧ ∀ v, ¬ RaceAt tr v i k ∧ ¬ RaceAt tr v k i := by
  obtain ⟨A, hA⟩ := C154.owner_own task w e false false a (.start :: (b ++ .join :: c)) ha
  obtain ⟨B, hB⟩ := C154.owner_own task w e true true b (.join :: c) hb
  rw [hA] at howner
  simp only [owner, Bool.false_eq_true, if_false, hB, if_true] at howner
  rw [show A ++ .alloc task :: .spawn w :: (B ++ .lock e :: owner task w e true true c) =
    (A ++ .alloc task :: .spawn w :: B) ++ .lock e :: owner task w e true true c by simp] at howner
  obtain ⟨p, q, rfl, -, h2⟩ := runs_split howner
  refine ⟨p, q, rfl, h2, fun i k x y hi hk hpk => ?_⟩
  have hl : (p ++ (0, Act.lock e) :: q)[p.length]? = some (0, .lock e) := by simp
  obtain ⟨u, hu1, hu2⟩ := hwait _ hl
  obtain ⟨p1, q1, e1, h3, h4⟩ := runs_split (A := function ++ [.free task]) (a := .unlock e) (B := [])
    (by simpa [thread] using hthread)
  generalize p ++ (0, Act.lock e) :: q = tr at *
  have hu : u = p1.length := by
    rcases Nat.lt_trichotomy u p1.length with h | h | h
    · exfalso
      rw [e1, List.getElem?_append_left h] at hu2
      have := runs_mem h3 hu2
      simp [he] at this
    · exact h
    · exfalso
      rw [e1, after h] at hu2
      simpa using runs_mem h4 hu2
  have hiu : i ≤ u := by
    rcases Nat.lt_or_ge u i with h | h
    · exfalso
      rw [e1, after (hu ▸ h)] at hi
      simpa using runs_mem h4 hi
    · exact h
  have hlk : Before tr u k := (Before.mutex hu1 hu2 hl).trans (Before.thread hpk hl hk)
  have hik : Before tr i k := by
    rcases Nat.lt_or_ge i u with h | h
    · exact (Before.thread h hi hu2).trans hlk
    · have : i = u := Nat.le_antisymm hiu h
      rw [this]; exact hlk
  refine ⟨hik, fun v => ⟨?_, ?_⟩⟩
  · rintro ⟨_, _, _, _, -, -, -, -, -, -, h5, -⟩; exact h5 hik
  · rintro ⟨_, _, _, _, -, -, -, -, -, -, -, h5⟩; exact h5 hik

/-- After `cancel` a `join` does not wait: what the owner reads afterwards races with the thread that writes it, however
often `join` is called, whatever else the thread does, and in every order of the two. -/
theorem C154_fails_cancelled (tr : Trace) (task w e x : Nat) (function : List Act) (cs : List Call) (hw : w ≠ 0)
    (two : ∀ t ∈ tr, t.1 = 0 ∨ t.1 = w)
    (hcs : ∀ c ∈ cs, c = .join ∨ c = .start ∨ ∃ x, c = .use (.read x) ∨ c = .use (.write x))
    (howner : Runs tr 0 (owner task w e false false (.start :: .cancel :: cs)))
    (hthread : Runs tr w (thread task e function)) (hroot : .spawn 0 ∉ function)
    (hmade : ∀ (i j : Nat) (a : Act), tr[i]? = some (0, .spawn w) → tr[j]? = some (w, a) → i < j)
    (huse : .use (.read x) ∈ cs) (hset : .write x ∈ function) : ∃ i j, RaceAt tr x i j := by
  obtain ⟨hrest, hmem⟩ := C154.owner_cancelled task w e cs hcs
  simp only [owner, Bool.false_eq_true, if_false, if_true] at howner
  obtain ⟨p, q, rfl, -, h2⟩ := runs_split (A := [.alloc task]) (a := .spawn w)
    (B := .free task :: owner task w e true false cs) howner
  obtain ⟨p', q', rfl, -, h3⟩ := runs_split (A := []) (a := .free task) (B := owner task w e true false cs) h2
  have hsp : (p ++ (0, Act.spawn w) :: (p' ++ (0, .free task) :: q'))[p.length]? = some (0, .spawn w) := by simp
  have hmadeq := fun j a => hmade p.length j a hsp
  have late : ∀ (j : Nat) (a : Act), p.length < j →
      (p ++ (0, Act.spawn w) :: (p' ++ (0, .free task) :: q'))[j]? = some (0, a) →
      a ∈ Act.free task :: owner task w e true false cs := by
    intro j a hj hja
    rw [after hj] at hja
    exact runs_mem h2 hja
  have later : ∀ (j : Nat) (a : Act), p.length + 1 + p'.length < j →
      (p ++ (0, Act.spawn w) :: (p' ++ (0, .free task) :: q'))[j]? = some (0, a) → ∃ y, a = .read y ∨ a = .write y := by
    intro j a hj hja
    rw [after (by omega), after (by omega)] at hja
    exact hrest a (runs_mem h3 hja)
  obtain ⟨j0, hj0⟩ := runs_at h3 (hmem _ huse)
  have hj : (p ++ (0, Act.spawn w) :: (p' ++ (0, .free task) :: q'))[p.length + 1 + p'.length + 1 + j0]? =
      some (0, .read x) := by
    rw [after (by omega), after (by omega), show p.length + 1 + p'.length + 1 + j0 - p.length - 1 - p'.length - 1 = j0
      by omega]
    exact hj0
  obtain ⟨i, hi⟩ := runs_at hthread (a := .write x) (by simp [thread, hset])
  have hroot' : Act.spawn 0 ∉ thread task e function := by simp [thread, hroot]
  generalize p ++ (0, Act.spawn w) :: (p' ++ (0, .free task) :: q') = tr at *
  have fromOwner : ∀ a b : Nat, Before tr a b → p.length + 1 + p'.length < a → (∃ c, tr[a]? = some (0, c)) →
      ∃ c, tr[b]? = some (0, c) := by
    intro a b hab
    induction hab with
    | thread hlt ha hb => rintro hp ⟨c, e⟩; rw [ha] at e; cases e; exact ⟨_, hb⟩
    | spawn hlt ha hb =>
      rintro hp ⟨c, e⟩; rw [ha] at e; cases e
      obtain ⟨y, e | e⟩ := later _ _ hp ha <;> cases e
    | mutex hlt ha hb =>
      rintro hp ⟨c, e⟩; rw [ha] at e; cases e
      obtain ⟨y, e | e⟩ := later _ _ hp ha <;> cases e
    | memory hlt ha hb =>
      rintro hp ⟨c, e⟩; rw [ha] at e; cases e
      obtain ⟨y, e | e⟩ := later _ _ hp ha <;> cases e
    | trans h1 h2 ih1 ih2 => exact fun hp e => ih2 (Nat.lt_trans hp (before_lt h1)) (ih1 hp e)
  have which : ∀ (a t : Nat) (c : Act), tr[a]? = some (t, c) → t = 0 ∨ t = w :=
    fun a t c e => two _ (List.mem_of_getElem? e)
  have fromThread : ∀ a b : Nat, Before tr a b → (∃ c, tr[a]? = some (w, c)) → ∃ c, tr[b]? = some (w, c) := by
    intro a b hab
    induction hab with
    | thread hlt ha hb => rintro ⟨c, e⟩; rw [ha] at e; cases e; exact ⟨_, hb⟩
    | @spawn a b t u c hlt ha hb =>
      rintro ⟨c, e⟩; rw [ha] at e; cases e
      rcases which _ _ _ hb with rfl | rfl
      · exact absurd (runs_mem hthread ha) hroot'
      · exact ⟨_, hb⟩
    | @mutex a b t u m hlt ha hb =>
      rintro ⟨c, e⟩; rw [ha] at e; cases e
      rcases which _ _ _ hb with rfl | rfl
      · rcases List.mem_cons.1 (late _ _ (Nat.lt_trans (hmadeq _ _ ha) hlt) hb) with e | e
        · cases e
        · obtain ⟨y, e | e⟩ := hrest _ e <;> cases e
      · exact ⟨_, hb⟩
    | @memory a b t u m hlt ha hb =>
      rintro ⟨c, e⟩; rw [ha] at e; cases e
      rcases which _ _ _ hb with rfl | rfl
      · rcases List.mem_cons.1 (late _ _ (Nat.lt_trans (hmadeq _ _ ha) hlt) hb) with e | e
        · cases e
        · obtain ⟨y, e | e⟩ := hrest _ e <;> cases e
      · exact ⟨_, hb⟩
    | trans h1 h2 ih1 ih2 => exact fun e => ih2 (ih1 e)
  refine ⟨i, _, w, 0, _, _, hi, hj, hw, .inr rfl, .inl rfl, .inl rfl, fun hb => ?_, fun hb => ?_⟩
  · obtain ⟨c, e⟩ := fromThread _ _ hb ⟨_, hi⟩
    rw [hj] at e
    cases e
    exact hw rfl
  · obtain ⟨c, e⟩ := fromOwner _ _ hb (by omega) ⟨_, hj⟩
    rw [hi] at e
    cases e
    exact hw rfl

/-! ## The hypotheses are met -/

/-- The owner writes 4 before the start, the thread reads it and writes 5, and the owner reads that after `join`. -/
def C154.tr : Trace := [(0, .write 4), (0, .alloc 3), (0, .spawn 1), (1, .read 4), (0, .read 6), (1, .write 5), (1, .free 3),
  (1, .unlock 9), (0, .lock 9), (0, .read 5)]

example : Runs C154.tr 0 (owner 3 1 9 false false ([.use (.write 4)] ++ .start :: ([.use (.read 6)] ++ .join ::
    [.use (.read 5)]))) ∧ Runs C154.tr 1 (thread 3 9 [.read 4, .write 5]) := ⟨rfl, rfl⟩

example : ∀ j : Nat, C154.tr[j]? = some (0, .lock 9) → ∃ i : Nat, i < j ∧ C154.tr[i]? = some (1, .unlock 9) := by
  intro j hj
  have : ∀ j < 10, C154.tr[j]? = some (0, .lock 9) → j = 8 := by decide
  rw [this j (List.getElem?_eq_some_iff.1 hj).1 hj]
  exact ⟨7, by decide, rfl⟩

/-- Started, cancelled, joined, and 5 read. -/
def C154.cancelled : Trace := [(0, .alloc 3), (0, .spawn 1), (1, .write 5), (0, .free 3), (0, .read 5), (1, .free 3),
  (1, .unlock 9)]

example : ∃ i j, RaceAt C154.cancelled 5 i j := by
  refine C154_fails_cancelled C154.cancelled 3 1 9 5 [.write 5] [.join, .use (.read 5)] (by decide) (by decide) ?_ rfl rfl
    (by decide) ?_ (by decide) (by decide)
  · intro c hc
    simp only [List.mem_cons, List.not_mem_nil, or_false] at hc
    rcases hc with rfl | rfl
    · exact .inl rfl
    · exact .inr (.inr ⟨5, .inl rfl⟩)
  · intro i j a hi hj
    have h1 : ∀ i < 7, C154.cancelled[i]? = some (0, .spawn 1) → i = 1 := by decide
    have h2 : ∀ j < 7, (C154.cancelled[j]?.map Prod.fst) = some 1 → 1 < j := by decide
    rw [h1 i (List.getElem?_eq_some_iff.1 hi).1 hi]
    exact h2 j (List.getElem?_eq_some_iff.1 hj).1 (by rw [hj]; rfl)

end Ecl.Props
