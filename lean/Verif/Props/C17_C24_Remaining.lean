import Verif.Lemmas.Time
import Verif.Spec.TimeAll
import Verif.Props.C24_Console

/-!
# C17, C19, C20, C24: exactly what happens, also in the cases in which the property fails
-/
set_option autoImplicit false
set_option linter.unusedSimpArgs false

namespace Ecl.Props
open Ecl.Time
open Ecl.Spec.Remaining

/-! ## C17 -/

/-- **C17, complete decision**: on normalised timestamps the difference overflows exactly if the difference of the seconds
does; otherwise both operators return, the result is exact, and it is normalised exactly if the difference of the
nanoseconds is less than a second. -/
theorem C17_decides (m : Mode) (a b : Ts) (ha : a.Norm) (hb : b.Norm) :
    (¬ InLong (a.sec - b.sec) → sub m a b = .ub ∧ subAssign a b = .ub) ∧
    (InLong (a.sec - b.sec) → ∃ r, sub m a b = .ok r ∧ subAssign a b = .ok r ∧ r.total = a.total - b.total ∧
      (r.Norm ↔ -1000000000 < a.nsec - b.nsec ∧ a.nsec - b.nsec < 1000000000)) := by
  obtain ⟨a1, a2, a3, a4⟩ := ha
  obtain ⟨b1, b2, b3, b4⟩ := hb
  have e2 : subL a.nsec b.nsec = .ok (a.nsec - b.nsec) :=
    subL_eq_ok.2 ⟨by unfold InLong longMin longMax; omega, rfl⟩
  constructor
  · intro h
    have e1 : subL a.sec b.sec = .ub := by unfold subL; rw [if_neg h]
    exact ⟨by simp [sub, e1], by simp [subAssign, e1]⟩
  · intro h
    have e1 : subL a.sec b.sec = .ok (a.sec - b.sec) := subL_eq_ok.2 ⟨h, rfl⟩
    have ht := borrow_total (a.sec - b.sec) (a.nsec - b.nsec)
    have hsign : (0 < (borrow (a.sec - b.sec) (a.nsec - b.nsec)).1 → 0 ≤ (borrow (a.sec - b.sec) (a.nsec - b.nsec)).2) ∧
        ((borrow (a.sec - b.sec) (a.nsec - b.nsec)).1 < 0 → (borrow (a.sec - b.sec) (a.nsec - b.nsec)).2 ≤ 0) ∧
        ((-1000000000 < (borrow (a.sec - b.sec) (a.nsec - b.nsec)).2 ∧
          (borrow (a.sec - b.sec) (a.nsec - b.nsec)).2 < 1000000000) ↔
            -1000000000 < a.nsec - b.nsec ∧ a.nsec - b.nsec < 1000000000) := by
      unfold borrow
      split
      · simp only; omega
      · split
        · simp only; omega
        · simp only
          refine ⟨by omega, by omega, trivial⟩
    refine ⟨⟨(borrow (a.sec - b.sec) (a.nsec - b.nsec)).1, (borrow (a.sec - b.sec) (a.nsec - b.nsec)).2⟩,
      ?_, ?_, by simp only [Ts.total]; omega, ?_⟩
    · unfold sub
      simp only [e1, e2, Outcome.bind_ok]
      exact mk_ok m _ _ hsign.1 hsign.2.1
    · unfold subAssign
      simp only [e1, e2, Outcome.bind_ok]
    · unfold Ts.Norm
      simp only
      rw [← hsign.2.2]
      exact ⟨fun h => ⟨h.1, h.2.1⟩, fun h => ⟨h.1, h.2, hsign.1, hsign.2.1⟩⟩

example : (⟨3, 700000000⟩ : Ts).Norm ∧ (⟨-1, -200000000⟩ : Ts).Norm ∧
    sub .debug ⟨3, 700000000⟩ ⟨-1, -200000000⟩ = .ok ⟨4, 900000000⟩ := by decide

/-! ## C19 -/

/-- **C19, complete decision** for `MicroSleep` and `NanoSleep`: in every history of calls the seconds are those of the
construction, and every call with an argument asks for the argument plus these seconds; the request is one the operating
system accepts exactly if the argument is less than a second. -/
theorem C19_micro_nano_decides (k : SleepKind) (hk : k = .micro ∨ k = .nano) (n₀ : Nat) (h₀ : n₀ < 9223372036854775808)
    (ops : List SleepOp) (h : ∀ n, SleepOp.call n ∈ ops → n * unit k < 9223372036854775808) (i n : Nat)
    (hi : ops[i]? = some (.call n)) :
    ∃ r, (sleepRuns k (sleepCtor k n₀) ops)[i]? = some r ∧
      r.total = n * unit k + (n₀ * unit k / 1000000000 : Nat) * 1000000000 ∧
      (r.Valid ↔ n * unit k < 1000000000) := by
  have hcall : ∀ (req : Ts) (n : Nat), n * unit k < 9223372036854775808 →
      sleepReq k req (.call n) = ⟨req.sec, ((n * unit k : Nat) : Int)⟩ := by
    rcases hk with rfl | rfl <;> intro req n hn <;> simp only [unit] at hn ⊢ <;> simp only [sleepReq]
    · rw [toLong_small (by omega), Nat.mul_comm]
    · rw [toLong_small (by omega)]; simp
  have hc : (sleepCtor k n₀).sec = (n₀ * unit k / 1000000000 : Nat) := by
    rcases hk with rfl | rfl <;> simp only [unit, sleepCtor] <;> rw [toLong_small (by omega)] <;> congr 1 <;> omega
  have gen : ∀ (ops : List SleepOp) (req : Ts) (i : Nat), (∀ n, SleepOp.call n ∈ ops → n * unit k < 9223372036854775808) →
      ops[i]? = some (.call n) →
      (sleepRuns k req ops)[i]? = some ⟨req.sec, ((n * unit k : Nat) : Int)⟩ := by
    intro ops
    induction ops with
    | nil => intro req i _ hi; simp at hi
    | cons op ops ih =>
      intro req i hn hi
      have hsec : (sleepReq k req op).sec = req.sec := by
        cases op with
        | fixed => rfl
        | call n => rw [hcall req n (hn n (by simp))]
      cases i with
      | zero =>
        simp only [List.getElem?_cons_zero, Option.some.injEq] at hi
        subst hi
        simp only [sleepRuns, List.getElem?_cons_zero]
        rw [hcall req n (hn n (by simp))]
      | succ i =>
        simp only [sleepRuns, List.getElem?_cons_succ]
        rw [ih _ i (fun n hm => hn n (by simp [hm])) (by simpa using hi), hsec]
  refine ⟨_, gen ops _ i h hi, ?_, ?_⟩
  · simp only [Ts.total, hc]
    push_cast
    ring
  · simp only [Ts.Valid, hc]
    generalize n * unit k = q
    constructor
    · intro h; omega
    · intro h; omega

example : sleepRuns .micro (sleepCtor .micro 2000000) [.fixed, .call 5, .call 1500000]
    = [⟨2, 0⟩, ⟨2, 5000⟩, ⟨2, 1500000000⟩] := by decide

/-! ## C20 -/

namespace C20

theorem later_le {now tv : Ts} (h0 : 0 ≤ tv.nsec) (h1 : tv.nsec ≤ 1000000000) (hv : now.Valid) :
    (later now tv = true → tv.total ≤ now.total) ∧ (later now tv = false → now.total ≤ tv.total) := by
  unfold later
  unfold Ts.Valid at hv
  simp only [Bool.or_eq_true, Bool.and_eq_true, decide_eq_true_eq, Bool.or_eq_false_iff, Bool.and_eq_false_iff,
    decide_eq_false_iff_not, Ts.total]
  omega

theorem clock_bump {p tv : Ts} (hp : p.Valid) (h : Clock tv) : Clock (bump p tv) := by
  obtain ⟨a, b, c⟩ := bump_bounds hp h.2.1 h.2.2 h.1
  exact ⟨c, a, b⟩

/-- One validation. -/
theorem validate_all (v : Bool) (p : Ts) (hp : p.Valid) : ∀ (rs : List Ts) (tv w : Ts) (rest : List Ts), Clock tv →
    (∀ r ∈ rs, r.Valid) → validate v p tv rs = some (w, rest) →
    ∃ used, rs = used ++ rest ∧ Clock w ∧ (∃ last, used.getLast? = some last ∧ last.total ≤ w.total) ∧
      ((w = tv ∧ ∀ r ∈ used, r.total ≤ tv.total) ∨
        ∃ r ∈ used, tv.total ≤ r.total ∧ w.total = r.total + p.total) := by
  intro rs
  induction rs with
  | nil => intro tv w rest _ _ h; simp [validate] at h
  | cons now rs ih =>
    intro tv w rest hc hv h
    have hnow := hv now (by simp)
    have hpt := hp.total_nonneg
    have hl := later_le (now := now) hc.2.1 hc.2.2 hnow
    unfold validate at h
    by_cases hlate : later now tv = true
    · rw [if_pos hlate] at h
      have hcn : Clock (bump p now) := clock_bump hp ⟨hnow.1, hnow.2.1, by have := hnow.2.2; omega⟩
      cases v with
      | false =>
        simp only [Bool.false_eq_true, if_false, Option.some.injEq, Prod.mk.injEq] at h
        obtain ⟨rfl, rfl⟩ := h
        refine ⟨[now], rfl, hcn, ⟨now, rfl, ?_⟩, Or.inr ⟨now, by simp, hl.1 hlate, bump_total p now⟩⟩
        rw [bump_total]; omega
      | true =>
        simp only [if_true] at h
        obtain ⟨used, h1, h2, ⟨last, h3, h4⟩, h5⟩ := ih (bump p now) w rest hcn (fun r hr => hv r (by simp [hr])) h
        refine ⟨now :: used, by rw [h1]; rfl, h2, ⟨last, ?_, h4⟩, Or.inr ?_⟩
        · rw [List.getLast?_cons, h3]; rfl
        · rcases h5 with ⟨rfl, _⟩ | ⟨r, hr, h6, h7⟩
          · exact ⟨now, by simp, hl.1 hlate, bump_total p now⟩
          · refine ⟨r, by simp [hr], ?_, h7⟩
            rw [bump_total] at h6
            have := hl.1 hlate
            omega
    · rw [if_neg hlate] at h
      simp only [Option.some.injEq, Prod.mk.injEq] at h
      obtain ⟨rfl, rfl⟩ := h
      have := hl.2 (by simpa using hlate)
      exact ⟨[now], rfl, hc, ⟨now, rfl, this⟩, Or.inl ⟨rfl, by simpa using this⟩⟩

theorem snooze_all (v : Bool) (p : Ts) (hp : p.Valid) (rs : List Ts) (tv w : Ts) (rest : List Ts) (hc : Clock tv)
    (hv : ∀ r ∈ rs, r.Valid) (h : snooze v p tv rs = some (w, rest)) :
    ∃ used, rs = used ++ rest ∧ Follows p tv used w := by
  unfold snooze addPeriod at h
  have hb := clock_bump hp hc
  cases v with
  | false =>
    simp only [Bool.false_eq_true, if_false, Option.bind_some] at h
    obtain ⟨used, h1, h2, h3, h4⟩ := validate_all false p hp rs _ w rest hb hv h
    refine ⟨used, h1, h2, h3, ?_⟩
    rw [← bump_total]
    rcases h4 with ⟨rfl, h5⟩ | h5
    · exact Or.inl ⟨rfl, h5⟩
    · exact Or.inr h5
  | true =>
    simp only [if_true] at h
    cases h0 : validate true p (bump p tv) rs with
    | none => rw [h0] at h; simp at h
    | some q =>
      obtain ⟨w1, rest1⟩ := q
      rw [h0, Option.bind_some] at h
      obtain ⟨u1, a1, a2, a3, a4⟩ := validate_all true p hp rs _ w1 rest1 hb hv h0
      obtain ⟨u2, b1, b2, ⟨last, b3, b5⟩, b4⟩ := validate_all true p hp rest1 _ w rest a2
        (fun r hr => hv r (by rw [a1]; simp [hr])) h
      refine ⟨u1 ++ u2, by rw [a1, b1, List.append_assoc], b2, ⟨last, ?_, b5⟩, ?_⟩
      · rw [List.getLast?_append, b3]; rfl
      · have hpt := hp.total_nonneg
        rw [← bump_total]
        rcases a4 with ⟨rfl, h5⟩ | ⟨r, hr, h6, h7⟩
        · rcases b4 with ⟨rfl, h8⟩ | ⟨r, hr, h9, h10⟩
          · refine Or.inl ⟨rfl, fun r hr => ?_⟩
            rcases List.mem_append.1 hr with hr | hr
            · exact h5 r hr
            · exact h8 r hr
          · exact Or.inr ⟨r, by simp [hr], h9, h10⟩
        · rcases b4 with ⟨rfl, h8⟩ | ⟨r', hr', h9, h10⟩
          · exact Or.inr ⟨r, by simp [hr], h6, h7⟩
          · refine Or.inr ⟨r', by simp [hr'], ?_, h10⟩
            omega

end C20

/-- **C20, all histories**: whatever the clock reads, with validation and without, every call asks to be woken one period
after the previous wake-up time, or, if it is late, one period after a clock reading of its own; it never asks for a time
before its last reading of the clock.  (With validation disabled the first would be right for late calls, too.) -/
theorem C20_all_histories (v : Bool) (p t0 : Ts) (rss : List (List Ts)) (ws : List Ts) (hp : p.Valid) (ht : t0.Valid)
    (hv : ∀ rs ∈ rss, ∀ r ∈ rs, r.Valid) (h : snoozes v p t0 rss = some ws) : AllFollow p t0 rss ws := by
  have gen : ∀ (rss : List (List Ts)) (tv : Ts) (ws : List Ts), Clock tv → (∀ rs ∈ rss, ∀ r ∈ rs, r.Valid) →
      snoozes v p tv rss = some ws → AllFollow p tv rss ws := by
    intro rss
    induction rss with
    | nil => intro tv ws _ _ h; simp [snoozes] at h; subst h; trivial
    | cons rs rss ih =>
      intro tv ws hc hv h
      unfold snoozes at h
      cases h0 : snooze v p tv rs with
      | none => rw [h0] at h; simp at h
      | some q =>
        obtain ⟨w, rest⟩ := q
        rw [h0, Option.bind_some, Option.map_eq_some_iff] at h
        obtain ⟨ws', h1, rfl⟩ := h
        obtain ⟨used, a1, a2⟩ := C20.snooze_all v p hp rs tv w rest hc (hv rs (by simp)) h0
        exact ⟨⟨used, rest, a1, a2⟩, ih w ws' a2.1 (fun rs hr => hv rs (by simp [hr])) h1⟩
  exact gen rss t0 ws ⟨ht.1, ht.2.1, by have := ht.2.2; omega⟩ hv h

example : snoozes true ⟨0, 400000000⟩ ⟨1, 900000000⟩
    [[⟨2, 100000000⟩, ⟨2, 100000001⟩], [⟨5, 500000000⟩, ⟨5, 500000001⟩, ⟨5, 600000000⟩]]
      = some [⟨2, 300000000⟩, ⟨5, 900000000⟩] := by decide

/-! ## C24 -/

namespace C24
open Console (Op)

theorem feed_append (s : List Char × List Char) (a b : List Char) : feed s (a ++ b) = feed (feed s a) b := by
  induction a generalizing s with
  | nil => simp [feed]
  | cons c a ih =>
    obtain ⟨bl, out⟩ := s
    simp only [List.cons_append, feed]
    split_ifs <;> exact ih _

theorem feed_length : ∀ (cs : List Char) (s : List Char × List Char), s.1.length < 4095 → (feed s cs).1.length < 4095 := by
  intro cs
  induction cs with
  | nil => intro s h; exact h
  | cons c cs ih =>
    rintro ⟨b, out⟩ h
    simp only [feed]
    split_ifs with hc
    · exact ih _ (by simp)
    · exact ih _ (by simp only [List.length_append, List.length_singleton] at h ⊢; omega)

/-- As long as the block is not complete, bytes are collected. -/
theorem feed_short : ∀ (cs b out : List Char), b.length + cs.length < 4095 → feed (b, out) cs = (b ++ cs, out) := by
  intro cs
  induction cs with
  | nil => intro b out _; simp [feed]
  | cons c cs ih =>
    intro b out h
    simp only [List.length_cons] at h
    rw [feed, if_neg (by omega), ih _ _ (by simp; omega)]
    simp

theorem feed_full (cs b out : List Char) (h : b.length + cs.length = 4095) (hc : cs ≠ []) :
    feed (b, out) cs = ([], out ++ upToNul (b ++ cs)) := by
  obtain ⟨i, c, rfl⟩ : ∃ i c, cs = i ++ [c] := ⟨cs.dropLast, cs.getLast hc, (List.dropLast_concat_getLast hc).symm⟩
  simp only [List.length_append, List.length_singleton] at h
  have e := feed_append (b, out) i [c]
  rw [feed_short i b out (by omega)] at e
  rw [e, feed, if_pos (by rw [List.length_append]; omega), feed, List.append_assoc]

theorem loop_feed : ∀ (f : Nat) (s : Console) (cs : List Char), s.buf.length < Console.cap → cs.length < f →
    Console.loop f s cs = .ok ⟨(feed (s.buf, s.out) cs).1, (feed (s.buf, s.out) cs).2⟩ := by
  intro f
  induction f with
  | zero => intro s cs _ h; omega
  | succ f ih =>
    intro s cs hl hf
    cases cs with
    | nil => simp [Console.loop, feed]
    | cons c cs =>
      unfold Console.loop
      simp only [Buf.append]
      rw [if_neg (by omega)]
      by_cases h : (c :: cs).length ≤ Console.cap - s.buf.length
      · rw [if_pos h]
        simp only [Outcome.bind_ok, List.drop_length]
        have hnil : ∀ q, Console.loop f q [] = .ok q := by intro q; cases f <;> simp [Console.loop]
        by_cases hfull : Buf.full Console.cap (s.buf ++ c :: cs) = true
        · rw [if_pos hfull, hnil]
          simp only [Buf.full, beq_iff_eq, List.length_append] at hfull
          rw [feed_full _ _ _ hfull (by simp)]
          rfl
        · rw [if_neg hfull, hnil]
          simp only [Buf.full, beq_iff_eq, List.length_append] at hfull
          rw [feed_short _ _ _ (by unfold Console.cap at *; omega)]
      · rw [if_neg h]
        simp only [Outcome.bind_ok]
        generalize hK : Console.cap - s.buf.length = K at h
        have hk : 0 < K := by omega
        have hlen : s.buf.length + ((c :: cs).take K).length = 4095 := by
          rw [List.length_take]
          unfold Console.cap at *
          omega
        have hfull : Buf.full Console.cap (s.buf ++ (c :: cs).take K) = true := by
          simp only [Buf.full, beq_iff_eq, List.length_append]
          exact hlen
        rw [if_pos hfull, ih _ _ (by simp [Console.flush, Console.cap]) (by simp only [List.length_drop]; omega)]
        have e : feed (s.buf, s.out) (c :: cs) = feed (([], s.out ++ upToNul (s.buf ++ (c :: cs).take K))) ((c :: cs).drop K) := by
          conv_lhs => rw [← List.take_append_drop K (c :: cs)]
          rw [feed_append, feed_full _ _ _ hlen (by
            intro h0
            rw [List.take_eq_nil_iff] at h0
            rcases h0 with h0 | h0
            · omega
            · cases h0)]
        rw [e]
        rfl

theorem step_feed (s : Console) (op : Op) (hb : s.buf.length < Console.cap) (hl : (conBytes op).length < 2 ^ 32) :
    Console.step s op = .ok ⟨(feedAll (s.buf, s.out) [op]).1, (feedAll (s.buf, s.out) [op]).2⟩ (conCount op) ∧
      (feedAll (s.buf, s.out) [op]).1.length < Console.cap := by
  cases op with
  | put c =>
    simp only [feedAll]
    refine ⟨?_, feed_length _ _ hb⟩
    have h1 : ¬ (Buf.full Console.cap s.buf = true) := by
      simp only [Buf.full, beq_iff_eq]; omega
    simp only [Console.step, Console.put, Buf.append1]
    rw [if_neg h1, if_pos hb]
    simp only [Outcome.bind_ok, conCount]
    by_cases hf : Buf.full Console.cap (s.buf ++ [c]) = true
    · rw [if_pos hf]
      simp only [Buf.full, beq_iff_eq, List.length_append] at hf
      rw [feed_full _ _ _ hf (by simp)]
      rfl
    · rw [if_neg hf]
      simp only [Buf.full, beq_iff_eq, List.length_append] at hf
      rw [feed_short _ _ _ (by unfold Console.cap at *; simp only [List.length_singleton] at *; omega)]
  | puts cs =>
    simp only [feedAll]
    refine ⟨?_, feed_length _ _ hb⟩
    simp only [conBytes] at hl
    simp only [Console.step, Console.puts]
    rw [if_pos (by omega), loop_feed _ _ _ hb (by omega)]
    rfl
  | flush => exact ⟨rfl, by simp [feedAll, Console.cap]⟩

theorem feedAll_cons (s : List Char × List Char) (op : Op) (ops : List Op) :
    feedAll s (op :: ops) = feedAll (feedAll s [op]) ops := by
  cases op <;> rfl

theorem feed_sublist : ∀ (cs : List Char) (s : List Char × List Char),
    ((feed s cs).2 ++ (feed s cs).1).Sublist (s.2 ++ s.1 ++ cs) := by
  intro cs
  induction cs with
  | nil => intro s; simp [feed]
  | cons c cs ih =>
    rintro ⟨b, out⟩
    simp only [feed]
    split_ifs with h
    · refine (ih _).trans ?_
      simp only [List.append_nil, List.append_assoc]
      refine List.Sublist.append_left ?_ _
      have h1 : (upToNul (b ++ [c])).Sublist (b ++ [c]) := List.takeWhile_sublist _
      have := h1.append_right cs
      simpa using this
    · refine (ih _).trans ?_
      simp

theorem feedAll_sublist : ∀ (ops : List Op) (s : List Char × List Char),
    ((feedAll s ops).2 ++ (feedAll s ops).1).Sublist (s.2 ++ s.1 ++ (ops.map conBytes).flatten) := by
  intro ops
  induction ops with
  | nil => intro s; simp [feedAll]
  | cons op ops ih =>
    intro s
    rw [feedAll_cons]
    refine (ih _).trans ?_
    rw [List.map_cons, List.flatten_cons, ← List.append_assoc]
    refine List.Sublist.append_right ?_ _
    obtain ⟨b, out⟩ := s
    cases op with
    | put c => exact feed_sublist _ _
    | puts cs => exact feed_sublist _ _
    | flush =>
      simp only [feedAll, conBytes, List.append_nil]
      exact List.Sublist.append_left (List.takeWhile_sublist _) _

end C24

/-- **C24, all bytes**: whatever is written, in whatever pieces, the bytes are collected one by one in blocks of 4095 that
are ended early by `flush`; of every block the bytes up to its first NUL reach the terminal, and every write returns the
number of its bytes. -/
theorem C24_all_bytes (ops : List Console.Op) (hl : ∀ op ∈ ops, (conBytes op).length < 2 ^ 32) :
    runOps Console.step ⟨[], []⟩ ops =
      some (⟨(feedAll ([], []) ops).1, (feedAll ([], []) ops).2⟩, ops.map fun op => .ok (conCount op)) := by
  have gen : ∀ (ops : List Console.Op) (s : Console), s.buf.length < Console.cap →
      (∀ op ∈ ops, (conBytes op).length < 2 ^ 32) →
      runOps Console.step s ops =
        some (⟨(feedAll (s.buf, s.out) ops).1, (feedAll (s.buf, s.out) ops).2⟩, ops.map fun op => .ok (conCount op)) := by
    intro ops
    induction ops with
    | nil => intro s _ _; rfl
    | cons op ops ih =>
      intro s hb hl
      obtain ⟨h1, h2⟩ := C24.step_feed s op hb (hl op (by simp))
      rw [runOps_cons, h1]
      have h3 := ih ⟨(feedAll (s.buf, s.out) [op]).1, (feedAll (s.buf, s.out) [op]).2⟩ h2 fun op h => hl op (by simp [h])
      simp only [Res.obs, Option.bind_some, h3, Option.map_some, List.map_cons]
      rw [C24.feedAll_cons (s.buf, s.out) op ops]
  exact gen ops ⟨[], []⟩ (by simp [Console.cap]) hl

/-- **C24**: nothing is written twice, made up or exchanged, also in the presence of NUL bytes: what reaches the terminal
is what was written with some bytes missing. -/
theorem C24_nothing_added (ops : List Console.Op) (hl : ∀ op ∈ ops, (conBytes op).length < 2 ^ 32) :
    ∃ s outs, runOps Console.step ⟨[], []⟩ ops = some (s, outs) ∧ s.out.Sublist (ops.map conBytes).flatten := by
  refine ⟨_, _, C24_all_bytes ops hl, ?_⟩
  have := C24.feedAll_sublist ops ([], [])
  simp only [List.nil_append] at this
  exact (List.sublist_append_left _ _).trans this

example : feedAll ([], []) [.puts "ab\x00cd".toList, .flush, .put 'e', .flush] = ([], "abe".toList) := by decide

end Ecl.Props
