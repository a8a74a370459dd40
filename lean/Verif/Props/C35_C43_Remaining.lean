import Verif.Model.Thread
import Verif.Model.Priority
import Verif.Spec.ThreadStory
import Verif.Props.C35_C36_C74_Threads
import Verif.Props.C42_C46_TextStreams
import Mathlib.Tactic.SplitIfs
import Mathlib.Tactic.IntervalCases

/-!
# C35, C36, C42, C43, C74: the cases the partial theorems leave out, decided
-/
set_option autoImplicit false
set_option linter.unusedSimpArgs false

namespace Ecl.Props
open Ecl

/-! ## C35 -/

section
open Ecl.Thread Ecl.Spec.Threads

namespace C35

/-- The model's state after a story. -/
def after (f : Story) : State where
  started := f.first.isSome
  joinRequested := f.asked
  task := f.created && !f.cancelled
  live := f.created && !f.cancelled && !f.returned
  thr := if !f.created then .none else if f.returned || f.died then .ended
    else if f.cancelled then .cancelling else .running
  handle := if !f.created then .invalid
    else if f.joined || (f.destroyed && !f.asked) then .released else .joinable
  created := if f.created then 1 else 0
  deletes := if f.first = some false then 1 else if f.cancelled || f.returned then 1 else 0
  destroyed := f.destroyed

def Ok (f : Story) : Prop :=
  (f.created = false → f.cancelled = false ∧ f.returned = false) ∧
  (f.joined = true → f.returned = true ∧ f.asked = true) ∧
  (f.died = true → f.cancelled = true) ∧
  (f.cancelled = true → f.returned = false)

theorem step_next (m : Mode) (f : Story) (op : Thread.Op) (h : Ok f) :
    match f.next op with
    | .impossible => Thread.step m (after f) op = none
    | .undefined => Thread.step m (after f) op = some .ub
    | .goesOn f' => Ok f' ∧ ((∃ a, Thread.step m (after f) op = some (.ok (after f') a)) ∨
        ∃ e, Thread.step m (after f) op = some (.throw (after f') e)) := by
  obtain ⟨fi, ca, re, di, jo, as, de⟩ := f
  rcases fi with _ | _ | _ <;> cases ca <;> cases re <;> cases di <;> cases jo <;> cases as <;>
    first
    | (exfalso; simp [Ok, Story.created] at h; done)
    | (cases de <;> cases op with
        | start ok => cases ok <;> cases m <;>
            simp [Story.next, Thread.step, after, Ok, Story.created, deleteTask]
        | _ => simp [Story.next, Thread.step, after, Ok, Story.created, deleteTask])

theorem run_tell (m : Mode) (l : List Thread.Op) : ∀ f, Ok f →
    Thread.run m (after f) l = match f.tell l with
      | .impossible => none
      | .undefined => some .ub
      | .goesOn f' => some (.ok (after f')) := by
  induction l with
  | nil => intro f _; rfl
  | cons op l ih =>
    intro f hf
    have h := step_next m f op hf
    simp only [Story.tell, Thread.run]
    cases hn : f.next op with
    | impossible => simp only [hn] at h; simp only [h]
    | undefined => simp only [hn] at h; simp only [h]
    | goesOn f' =>
      simp only [hn] at h
      obtain ⟨h1, ⟨a, h2⟩ | ⟨e, h2⟩⟩ := h <;> simp only [h2] <;> exact ih f' h1

end C35

/-- **C35**, complete decision: for every history of calls and events of one object, in both builds,
whether it can happen, whether it is undefined, and otherwise how many threads were created, how
often the task was deleted, whether the thread's handle has been released - by a `join` that waited
or by the destructor of an object nobody tried to join - and what `isRunning` says. -/
theorem C35_decides (m : Mode) (l : List Thread.Op) :
    match Story.tell {} l with
    | .impossible => Thread.run m State.new l = none
    | .undefined => Thread.run m State.new l = some .ub
    | .goesOn f => ∃ s, Thread.run m State.new l = some (.ok s) ∧
        s.created = (if f.first = some true then 1 else 0) ∧
        s.deletes = (if f.first = some false ∨ f.cancelled ∨ f.returned then 1 else 0) ∧
        (s.handle = .released ↔
          f.first = some true ∧ (f.joined = true ∨ f.destroyed = true ∧ f.asked = false)) ∧
        (s.thr = .ended ↔ f.first = some true ∧ (f.returned = true ∨ f.died = true)) ∧
        (f.destroyed = false → Thread.step m s .isRunning
          = some (.ok s (.bool (decide (f.first = some true) && !f.cancelled)))) := by
  have h := C35.run_tell m l {} (by simp [C35.Ok, Story.created])
  have e : C35.after {} = State.new := rfl
  rw [e] at h
  cases ht : Story.tell {} l with
  | impossible => simpa [ht] using h
  | undefined => simpa [ht] using h
  | goesOn f =>
    simp only [ht] at h
    refine ⟨_, h, ?_⟩
    obtain ⟨fi, ca, re, di, jo, as, de⟩ := f
    rcases fi with _ | _ | _ <;> cases ca <;> cases re <;> cases di <;> cases jo <;> cases as <;>
      cases de <;> simp [C35.after, Story.created, Thread.step]

/-- **C35**: so the handle of a thread is never released, although its object is gone, exactly when
some `join` was called but none waited for the thread: it came before the start or after `cancel`. -/
theorem C35_leak_iff (m : Mode) (l : List Thread.Op) (f : Story) (h : Story.tell {} l = .goesOn f)
    (hd : f.destroyed = true) :
    ∃ s, Thread.run m State.new l = some (.ok s) ∧
      (s.handle = .joinable ↔ f.first = some true ∧ f.asked = true ∧ f.joined = false) := by
  have h' := C35.run_tell m l {} (by simp [C35.Ok, Story.created])
  rw [show C35.after {} = State.new from rfl, h] at h'
  refine ⟨_, h', ?_⟩
  obtain ⟨fi, ca, re, di, jo, as, de⟩ := f
  rcases fi with _ | _ | _ <;> cases jo <;> cases as <;> simp_all [C35.after, Story.created]

example : Story.tell {} [.start true, .cancel, .join, .die, .destroy] = .goesOn
    ⟨some true, true, false, true, false, true, true⟩ := by decide
example : Story.tell {} [.start false, .start true, .cancel] = .undefined := by decide
example : Story.tell {} [.start true, .isRunning, .join] = .impossible := by decide

/-! ## C74 -/

/-- **C74**, complete decision: in every schedule of any number of callers, in both builds, the number
of threads that execute `runnable` is the number begun less the number ended, and `isRunning` only
says whether the last change was a start, successful or not. -/
theorem C74_decides (m : Mode) (l : List TAct) (s : Threadable)
    (h : trun m Threadable.new l = some (.ok s)) :
    s.running + ended l = begun l ∧ s.started = begun l ∧ s.flag = lastWasStart false l := by
  have key : ∀ (l : List TAct) (s0 s : Threadable), trun m s0 l = some (.ok s) →
      s.running + ended l = s0.running + begun l ∧ s.started = s0.started + begun l ∧
        s.flag = lastWasStart s0.flag l := by
    intro l
    induction l with
    | nil =>
      intro s0 s h
      simp only [trun, Option.some.injEq, Outcome.ok.injEq] at h
      subst h
      simp [ended, begun, lastWasStart]
    | cons a l ih =>
      intro s0 s h
      simp only [trun] at h
      cases a with
      | test c =>
        simp only [tstep] at h
        by_cases hc : c ∈ s0.checked
        · simp [hc] at h
        · cases hf : s0.flag <;> simp [hc, hf] at h <;> have := ih _ _ h <;>
            simp [ended, begun, lastWasStart, hf] at this ⊢ <;> omega
      | go c ok =>
        simp only [tstep] at h
        by_cases hc : c ∈ s0.checked
        · cases ok <;> cases m <;> simp [hc] at h <;> have := ih _ _ h <;>
            simp [ended, begun, lastWasStart] at this ⊢ <;>
            exact ⟨by omega, by omega, this.2.2⟩
        · simp [hc] at h
      | finish =>
        simp only [tstep] at h
        by_cases hr : s0.running = 0
        · simp [hr] at h
        · simp [hr] at h
          have := ih _ _ h
          simp [ended, begun, lastWasStart] at this ⊢
          exact ⟨by omega, this.2.1, this.2.2⟩
  simpa [Threadable.new] using key l _ s h

example : ∃ s, trun .debug Threadable.new [.test 0, .test 1, .go 0 true, .go 1 false, .finish]
    = some (.ok s) ∧ s.running = 0 ∧ s.flag = false := ⟨_, rfl, rfl, rfl⟩

/-- **C74 fails** without bound: any number of callers that start at the same time get a thread
each. -/
theorem C74_fails_any_number (m : Mode) (n : Nat) :
    ∃ l s, trun m Threadable.new l = some (.ok s) ∧ s.running = n := by
  have hA : ∀ (xs L : List Nat) (l : List TAct), xs.Nodup → (∀ x ∈ xs, x ∉ L) →
      trun m ⟨false, L, 0, 0⟩ (xs.map TAct.test ++ l) = trun m ⟨false, xs.reverse ++ L, 0, 0⟩ l := by
    intro xs
    induction xs with
    | nil => intro L l _ _; rfl
    | cons x xs ih =>
      intro L l hn hd
      have hx : x ∉ L := hd x (by simp)
      simp only [List.map_cons, List.cons_append, trun, tstep, hx, if_false, Bool.false_eq_true]
      rw [ih (x :: L) l (List.nodup_cons.1 hn).2 (by
        intro y hy
        simp only [List.mem_cons, not_or]
        exact ⟨fun e => (List.nodup_cons.1 hn).1 (e ▸ hy), hd y (by simp [hy])⟩)]
      simp
  have hB : ∀ (xs : List Nat) (s : Threadable), xs.Nodup → (∀ x ∈ xs, x ∈ s.checked) →
      ∃ s', trun m s (xs.map fun c => TAct.go c true) = some (.ok s') ∧
        s'.running = s.running + xs.length := by
    intro xs
    induction xs with
    | nil => intro s _ _; exact ⟨s, rfl, rfl⟩
    | cons x xs ih =>
      intro s hn hd
      obtain ⟨s', h1, h2⟩ := ih ⟨true, s.checked.erase x, s.running + 1, s.started + 1⟩
        (List.nodup_cons.1 hn).2 (by
          intro y hy
          have : y ≠ x := fun e => (List.nodup_cons.1 hn).1 (e ▸ hy)
          exact (List.mem_erase_of_ne this).2 (hd y (by simp [hy])))
      refine ⟨s', ?_, by rw [h2]; simp only [List.length_cons]; omega⟩
      simp only [List.map_cons, trun, tstep, hd x (by simp), if_true]
      exact h1
  obtain ⟨s, h1, h2⟩ := hB (List.range n) ⟨false, (List.range n).reverse ++ [], 0, 0⟩
    List.nodup_range (by simp)
  refine ⟨(List.range n).map TAct.test ++ (List.range n).map fun c => TAct.go c true, s, ?_, ?_⟩
  · rw [← h1, show Threadable.new = ⟨false, [], 0, 0⟩ from rfl]
    exact hA _ _ _ List.nodup_range (by simp)
  · simpa using h2

end

/-! ## C36 -/

section
open Ecl.Priority

/-- **C36**, complete decision for the real time levels, on every system with a real time range: the
level is set and read back exactly when real time scheduling is permitted and the range is wide
enough, at least ten for level 1, five for level 2, four (but not five or six) for level 3. -/
theorem C36_realtime_decides (m : Mode) (r : Rules) (s : Priority.Sys) (hmin : 0 ≤ r.rrMin)
    (hmax : r.rrMin ≤ r.rrMax) (l : Level) (hl : l.rt ≠ none) :
    (∃ s', setPriority m r s l = .ok s' true ∧ getPriority r s' = .ok l) ↔
      r.rtAllowed = true ∧
        (l = .rt1 → r.rrMin + 10 ≤ r.rrMax) ∧ (l = .rt2 → r.rrMin + 5 ≤ r.rrMax) ∧
        (l = .rt3 → r.rrMax = r.rrMin + 4 ∨ r.rrMin + 7 ≤ r.rrMax) := by
  obtain ⟨mn, mx, al, na, nm⟩ := r
  simp only at hmin hmax ⊢
  obtain ⟨R, rfl⟩ : ∃ R : Nat, mx = mn + R := ⟨(mx - mn).toNat, by omega⟩
  have hneg : ¬ (mn = -1 ∨ mn + (R : Int) = -1) := by omega
  have d : ∀ k : Nat, ((k : Int) * (R : Int)).tdiv 10 = ((k * R / 10 : Nat) : Int) := by
    intro k
    rw [Int.tdiv_eq_ediv_of_nonneg (by positivity)]
    push_cast; rfl
  have d1 := d 1; have d2 := d 2; have d3 := d 3; have d0 := d 0
  simp only [Nat.cast_one, one_mul, Nat.cast_ofNat, Nat.cast_zero, zero_mul] at d0 d1 d2 d3
  have e : mn + (R : Int) - mn = R := by omega
  cases al with
  | false =>
    cases l <;> simp [Level.rt] at hl <;>
      simp only [setPriority, Level.rt, setRealTime, hneg, if_false, e, d0, d1, d2, d3, zero_mul,
        one_mul] <;> cases m <;> simp <;> (repeat' split) <;> simp
  | true =>
    have key : ∀ q : Int, (∃ s', (Res.ok ({ s with rr := some (mn + q) } : Priority.Sys) true : Res Priority.Sys Bool)
        = .ok s' true ∧ getPriority ⟨mn, mn + R, true, na, nm⟩ s' = .ok l) ↔
        (if (3 * R / 10 : Nat) ≤ q then l = .rt4 else if (2 * R / 10 : Nat) ≤ q then l = .rt3
          else if (R / 10 : Nat) ≤ q then l = .rt2 else l = .rt1) := by
      intro q
      have e1 : ∀ s' : Priority.Sys, (Res.ok ({ s with rr := some (mn + q) } : Priority.Sys) true : Res Priority.Sys Bool)
          = .ok s' true ↔ { s with rr := some (mn + q) } = s' := by intro s'; simp
      simp only [e1]
      rw [exists_eq_left']
      simp only [getPriority, hneg, if_false, e, d1, d2, d3]
      have e2 : ∀ a b : Int, mn + a ≥ mn + b ↔ b ≤ a := by intro a b; omega
      simp only [e2]
      split_ifs <;> simp [eq_comm]
    have hset : ∀ q : Nat, q ≤ R → setRealTime m ⟨mn, mn + R, true, na, nm⟩ s (mn + q)
        = .ok { s with rr := some (mn + q) } true := by
      intro q hq
      simp only [setRealTime]
      rw [if_neg (by omega), if_neg (by omega)]
      simp
    have hR : ∀ k : Nat, k ≤ 3 → k * R / 10 ≤ R := by intro k hk; interval_cases k <;> omega
    cases l <;> simp [Level.rt] at hl <;>
      simp only [setPriority, Level.rt, hneg, if_false, e, d0, d1, d2, d3, zero_mul, one_mul]
    · rw [hset _ (show 0 / 10 ≤ R by omega), key]; split_ifs <;> simp <;> omega
    · have := hset _ (hR 1 (by omega)); rw [one_mul] at this
      rw [this, key]; split_ifs <;> simp <;> omega
    · have h37 : 3 * R / 10 ≤ 2 * R / 10 ↔ ¬ (R = 4 ∨ 7 ≤ R) := by
        rcases Nat.lt_or_ge R 10 with h | h
        · interval_cases R <;> simp
        · omega
      rw [hset _ (hR 2 (by omega)), key]
      simp only [Nat.cast_le, h37]
      by_cases h : R = 4 ∨ 7 ≤ R
      · simp [h]; omega
      · simp [h]; omega
    · rw [hset _ (hR 3 (by omega)), key]; simp

/-- **C36**, complete decision for the other levels: such a level is set and read back exactly when
the thread is not scheduled in real time and its nice value is, or remains, the level's own one - or
for the normal level any that is no other level's.  `critical` must be permitted besides; the default
and the unknown level are "set" but never read back. -/
theorem C36_nice_decides (m : Mode) (r : Rules) (s : Priority.Sys) (l : Level) (hl : l.rt = none) :
    (∃ s', setPriority m r s l = .ok s' true ∧ getPriority r s' = .ok l) ↔
      s.rr = none ∧ ∃ n, niceOf l = some n ∧
        (l = .critical → r.niceAllowed n = true) ∧
        ∃ k, k = (if r.niceAllowed n then min n r.niceMax else s.nice) ∧
          (k = n ∨ l = .normal ∧ k ≠ -20 ∧ k ≠ -10 ∧ k ≠ 10 ∧ k ≠ 20) := by
  obtain ⟨mn, mx, al, na, nm⟩ := r
  obtain ⟨rr, nice⟩ := s
  simp only
  cases hr : rr with
  | some p =>
    have key : ∀ s' : Priority.Sys, s'.rr = some p → getPriority ⟨mn, mx, al, na, nm⟩ s' ≠ .ok l := by
      intro s' hs' h
      simp only [getPriority, hs'] at h
      split_ifs at h <;> first | (cases h; done) | (cases h; simp [Level.rt] at hl)
    constructor
    · rintro ⟨s', h1, h2⟩
      refine absurd h2 (key s' ?_)
      simp only [setPriority, hl, setpriority] at h1
      cases hn : niceOf l with
      | none => simp [hn] at h1; rw [← h1]
      | some n =>
        simp only [hn] at h1
        cases m <;> split_ifs at h1 <;> simp at h1 <;> simp [← h1]
    · rintro ⟨h, _⟩; simp at h
  | none =>
    have g : ∀ k : Int, getPriority ⟨mn, mx, al, na, nm⟩ ⟨none, k⟩ = .ok l ↔
        ∃ n, niceOf l = some n ∧ (k = n ∨ l = .normal ∧ k ≠ -20 ∧ k ≠ -10 ∧ k ≠ 10 ∧ k ≠ 20) := by
      intro k
      simp only [getPriority]
      cases l <;> simp [Level.rt] at hl <;> simp [niceOf] <;> split_ifs <;> simp <;> omega
    cases hn : niceOf l with
    | none =>
      simp only [hn, reduceCtorEq, false_and, exists_false, and_false, iff_false] at g ⊢
      rintro ⟨s', h1, h2⟩
      simp only [setPriority, hl, hn] at h1
      cases h1
      exact g nice h2
    | some n =>
      simp only [hn, Option.some.injEq, exists_eq_left'] at g ⊢
      simp only [setPriority, hl, hn, setpriority, true_and]
      cases ha : na n with
      | true =>
        simp only [if_true, Bool.true_eq_false, and_false, if_false, implies_true, true_and,
          exists_eq_left, Res.ok.injEq, and_true, exists_eq_left']
        exact g _
      | false =>
        by_cases hc : l = .critical
        · subst hc; cases m <;> simp
        · simp only [hc, Bool.false_eq_true, if_false, false_and, false_implies, true_and,
            exists_eq_left, Res.ok.injEq, and_true, exists_eq_left']
          exact g _

end

/-! ## C42, C43 -/

section
open Ecl.TextStream Ecl.Spec

namespace C42

theorem digitLoop_long : ∀ (ds : List Char) (c : Char) (t : List Char) (room : Nat),
    (∀ x ∈ c :: ds, x.isDigit = true) → room ≤ ds.length →
    digitLoop c (ds ++ t) room = ((c :: ds).take room, ds.drop room ++ t) := by
  intro ds
  induction ds with
  | nil => intro c t room _ h; obtain rfl : room = 0 := by simpa using h
           simp [digitLoop]
  | cons d ds ih =>
    intro c t room hd h
    cases room with
    | zero => simp [digitLoop]
    | succ room =>
      have := ih d t room (fun x hx => hd x (by simp at hx ⊢; tauto)) (by simpa using h)
      simp [digitLoop, dig_eq, hd c (by simp), this]

theorem finishInt_long (t : ITy) (sign old : Int) (c : Char) (ds s : List Char)
    (hd : ∀ x ∈ c :: ds, x.isDigit = true) (hl : 25 ≤ ds.length) :
    finishInt t sign old c (ds ++ s) =
      if decValue ((c :: ds).take 25) < 10 * (t.max / 10) then
        ⟨sign * decValue ((c :: ds).take 25), .noError, (c :: ds).drop 26 ++ s⟩
      else ⟨old, .outOfRange, (c :: ds).drop 26 ++ s⟩ := by
  unfold finishInt
  rw [digitLoop_long ds c s 25 hd hl]
  have hne : (c :: ds).take 25 ≠ [] := by simp
  simp only [hne, if_false]
  rw [accum_eq _ _ _ (fun x hx => hd x (List.mem_of_mem_take hx))]
  have e : (c :: ds).drop 26 = ds.drop 25 := rfl
  rw [e]
  unfold decValue
  generalize Nat.ofDigitChars 10 ((c :: ds).take 25) 0 = v
  by_cases h : v / 10 < t.max / 10
  · rw [if_pos (.inr h), if_pos (by omega)]
  · rw [if_neg (by simpa [hne] using h), if_neg (by omega)]

end C42

/-- **C42**, numerals of 26 digits and more (after a first zero that no sign precedes: not counting
it): only the first 25 digits are looked at, one digit is thrown away, and the others stay in the
stream, to be read as the next number. -/
theorem C42_long_decides (t : ITy) (old : Int) (bl sg ds s : List Char) (hbl : AllBlank bl)
    (hsg : sg = [] ∧ ds.head? ≠ some '0' ∨ sg = ['0'] ∨ sg = ['+'] ∨ sg = ['-'] ∧ t.signed = true)
    (hd : Digits ds) (hlen : 26 ≤ ds.length) :
    getInt t old (bl ++ sg ++ ds ++ s) =
      if decValue (ds.take 25) < 10 * (t.max / 10) then
        ⟨if sg = ['-'] then -(decValue (ds.take 25) : Int) else decValue (ds.take 25), .noError,
          ds.drop 26 ++ s⟩
      else ⟨old, .outOfRange, ds.drop 26 ++ s⟩ := by
  obtain ⟨hne, hdig⟩ := hd
  obtain ⟨c, ds, rfl⟩ := List.exists_cons_of_ne_nil hne
  have hl : 25 ≤ ds.length := by simpa using hlen
  have hc : c.isDigit = true := hdig c (by simp)
  rw [List.append_assoc, List.append_assoc]
  unfold getInt
  rw [skip_append _ _ hbl]
  rcases hsg with ⟨rfl, h0⟩ | rfl | rfl | ⟨rfl, hsig⟩
  · simp only [List.nil_append, List.cons_append]
    rw [skip_cons _ _ (digit_not_blank hc)]
    have h1 : c ≠ '-' := by rintro rfl; exact absurd hc (by decide)
    have h2 : c ≠ '+' := by rintro rfl; exact absurd hc (by decide)
    have h3 : c ≠ 'x' := by rintro rfl; exact absurd hc (by decide)
    have h4 : c ≠ '0' := by rintro rfl; exact h0 rfl
    simp only [h1, h2, h3, h4, if_false]
    rw [C42.finishInt_long t 1 old c ds s hdig hl]
    simp
  · rw [show ['0'] ++ (c :: ds ++ s) = '0' :: c :: (ds ++ s) by simp,
      skip_cons _ _ (by rintro (h | h) <;> revert h <;> decide)]
    have hb : blank c = false := by
      cases h : blank c
      · rfl
      · exact absurd ((blank_iff c).1 h) (digit_not_blank hc)
    have hx : c ≠ 'x' := by rintro rfl; exact absurd hc (by decide)
    simp only
    rw [if_neg (by decide), if_neg (by decide), if_pos trivial]
    simp only [hb, Bool.false_eq_true, if_false, hx]
    rw [C42.finishInt_long t 1 old c ds s hdig hl]
    simp
  · rw [show ['+'] ++ (c :: ds ++ s) = '+' :: c :: (ds ++ s) by simp,
      skip_cons _ _ (by rintro (h | h) <;> revert h <;> decide)]
    simp only
    rw [if_neg (by decide), if_pos trivial, C42.finishInt_long t 1 old c ds s hdig hl]
    simp
  · rw [show ['-'] ++ (c :: ds ++ s) = '-' :: c :: (ds ++ s) by simp,
      skip_cons _ _ (by rintro (h | h) <;> revert h <;> decide)]
    simp only [hsig, if_true]
    rw [C42.finishInt_long t (-1) old c ds s hdig hl]
    simp

example : getInt .int 5 (List.replicate 26 '0' ++ "123 ".toList) = ⟨0, .noError, "23 ".toList⟩ := by
  exact (C42_long_decides .int 5 [] ['0'] (List.replicate 25 '0' ++ "123".toList) [' '] (by decide)
    (.inr (.inl rfl)) (by decide) (by decide)).trans (by decide)

/-- **C42**, a lone zero: followed by anything that is no blank, digit or `x`, it is no number, for
every type; the character after it is lost. -/
theorem C42_lone_zero_decides (t : ITy) (old : Int) (bl : List Char) (c : Char) (s : List Char)
    (hbl : AllBlank bl) (hc : ¬ IsBlank c) (hd : c.isDigit = false) (hx : c ≠ 'x') :
    getInt t old (bl ++ '0' :: c :: s) = ⟨old, .conversionError, s⟩ := by
  unfold getInt
  rw [skip_append _ _ hbl, skip_cons _ _ (by rintro (h | h) <;> revert h <;> decide)]
  have hb : blank c = false := by
    cases h : blank c
    · rfl
    · exact absurd ((blank_iff c).1 h) hc
  simp only
  rw [if_neg (by decide), if_neg (by decide), if_pos trivial]
  simp only [hb, Bool.false_eq_true, if_false, hx]
  exact finishInt_none t 1 old c s hd

namespace C43

theorem wrap_spec (t : ITy) (n : Int) :
    InRange t.bits t.signed (t.wrap n) ∧ (2 ^ t.bits : Int) ∣ t.wrap n - n := by
  cases t <;> simp only [ITy.wrap, ITy.bits, ITy.signed, InRange] <;> simp <;>
    (try split_ifs) <;> omega

theorem toShort_bmod (v : Int) : toShort v = Int.bmod v 65536 := by
  unfold toShort ITy.wrap ITy.bits ITy.signed
  rw [Int.bmod_def]
  simp
  split_ifs <;> omega

theorem hexAccum_eq : ∀ (ds : List Nat) (n : Nat),
    hexAccum (Int.bmod n 65536) ds =
      if ∀ k < ds.length, Int.bmod (((ds.take k).foldl (fun n d => 16 * n + d) n : Nat) : Int) 65536 < 3276
      then some (Int.bmod ((ds.foldl (fun n d => 16 * n + d) n : Nat) : Int) 65536) else none := by
  intro ds
  induction ds with
  | nil => intro n; simp [hexAccum]
  | cons d ds ih =>
    intro n
    rw [hexAccum]
    have e : toShort (16 * Int.bmod n 65536 + d) = Int.bmod ((16 * n + d : Nat) : Int) 65536 := by
      rw [toShort_bmod]
      push_cast
      rw [Int.bmod_def, Int.bmod_def, Int.bmod_def]
      split_ifs <;> omega
    rw [e, ih]
    have hall : (∀ k < (d :: ds).length,
        Int.bmod ((((d :: ds).take k).foldl (fun n d => 16 * n + d) n : Nat) : Int) 65536 < 3276) ↔
        Int.bmod n 65536 < 3276 ∧ ∀ k < ds.length,
          Int.bmod (((ds.take k).foldl (fun n d => 16 * n + d) (16 * n + d) : Nat) : Int) 65536 < 3276 := by
      constructor
      · intro h
        refine ⟨h 0 (by simp), fun k hk => h (k + 1) (by simpa using hk)⟩
      · rintro ⟨h1, h2⟩ k hk
        cases k with
        | zero => exact h1
        | succ k => exact h2 k (by simpa using hk)
    by_cases hn : Int.bmod n 65536 < 3276
    · rw [if_pos hn]
      by_cases hk : ∀ k < ds.length,
          Int.bmod (((ds.take k).foldl (fun n d => 16 * n + d) (16 * n + d) : Nat) : Int) 65536 < 3276
      · rw [if_pos hk, if_pos (hall.2 ⟨hn, hk⟩)]
        rfl
      · rw [if_neg hk, if_neg (fun h => hk (hall.1 h).2)]
    · rw [if_neg hn, if_neg (fun h => hn (hall.1 h).1)]

end C43

/-- **C43**, complete decision for up to 24 digits: the number is kept in 16 bits with sign, whatever
the type.  If before some digit the number so far, so reduced, is 3276 or more, the number is
reported as out of range and the variable is zero; otherwise the reduced number is stored, as the
type can hold it. -/
theorem C43_decides (t : ITy) (old : Int) (bl pre s : List Char) (ds : List Nat) (r : List Char)
    (hbl : AllBlank bl) (hpre : pre = ['0', 'x'] ∨ pre = ['x'])
    (hs : List.Forall₂ Hex s ds) (hne : s ≠ []) (hlen : s.length ≤ 24)
    (hr : ∀ c, r.head? = some c → ∀ d, ¬ Hex c d) :
    ((∃ k < ds.length, 3276 ≤ Int.bmod (hexValue (ds.take k)) 65536) →
      getInt t old (bl ++ pre ++ s ++ r) = ⟨0, .outOfRange, r.drop 1⟩) ∧
    ((∀ k < ds.length, Int.bmod (hexValue (ds.take k)) 65536 < 3276) →
      ∃ v, getInt t old (bl ++ pre ++ s ++ r) = ⟨v, .noError, r.drop 1⟩ ∧
        InRange t.bits t.signed v ∧ (2 ^ t.bits : Int) ∣ v - Int.bmod (hexValue ds) 65536) := by
  have hds : ds ≠ [] := by
    rintro rfl; cases hs; exact hne rfl
  have hget : getInt t old (bl ++ pre ++ s ++ r) = parseHex t (s ++ r) := by
    rw [List.append_assoc, List.append_assoc]
    unfold getInt
    rw [skip_append _ _ hbl]
    rcases hpre with rfl | rfl
    · rw [show ['0', 'x'] ++ (s ++ r) = '0' :: 'x' :: (s ++ r) by simp,
        skip_cons _ _ (by rintro (h | h) <;> revert h <;> decide)]
      simp only
      rw [if_neg (by decide), if_neg (by decide), if_pos trivial, if_neg (by decide),
        if_pos trivial]
    · rw [show ['x'] ++ (s ++ r) = 'x' :: (s ++ r) by simp,
        skip_cons _ _ (by rintro (h | h) <;> revert h <;> decide)]
      simp only
      rw [if_neg (by decide), if_neg (by decide), if_neg (by decide), if_pos trivial]
  have hacc : hexAccum 0 ds =
      if ∀ k < ds.length, Int.bmod (hexValue (ds.take k)) 65536 < 3276
      then some (Int.bmod (hexValue ds) 65536) else none := C43.hexAccum_eq ds 0
  rw [hget]
  unfold parseHex
  rw [hexLoop_spec s ds r 25 hs hr (by omega)]
  simp only [hds, if_false]
  rw [hacc]
  constructor
  · rintro ⟨k, hk, h⟩
    rw [if_neg (fun hh => by have := hh k hk; omega)]
  · intro h
    rw [if_pos h]
    exact ⟨_, rfl, C43.wrap_spec t _⟩

example : getInt .int 1 "0xF0000;".toList = ⟨0, .outOfRange, []⟩ ∧
    getInt .int 1 "0x8FFF0;".toList = ⟨-16, .noError, []⟩ := by decide

end

end Ecl.Props
