import Verif.Lemmas.SharedDisk

/-!
# C139: a shared file over a disk that refuses some of the bytes
-/
set_option autoImplicit false

namespace Ecl.Props
open SharedDisk
variable {α : Type _}
open C139

/-- **C139** (a write, decided): with fewer than 4096 bytes waiting, whole blocks of 4096 are handed over until one is
refused.  If none is, the rest waits and the number of bytes is returned.  If block `j` is refused, a debug build throws
and keeps the block, a release build returns -1 and drops it; what is behind the block is not taken. -/
theorem C139_write (m : Mode) (disk : Nat → Answer) (s : St α) (cs : List α) (hb : s.buf.length < 4096) :
    ((∀ i < (s.buf ++ cs).length / 4096, disk (s.asked + i) = none) →
      step m disk s (.write cs) = .ok (fine s (s.buf ++ cs) ((s.buf ++ cs).length / 4096)) cs.length) ∧
    (∀ j < (s.buf ++ cs).length / 4096, (∀ i < j, disk (s.asked + i) = none) → ∀ k, disk (s.asked + j) = some k →
      step m disk s (.write cs) = refused m s (s.buf ++ cs) j k) :=
  loop_eq m disk cs.length (cs.length + 1) s cs hb (by omega)

example (c : α) : (List.replicate 9000 c).length / 4096 = 2 := by rw [List.length_replicate]

/-- **C139** (a character): the same as a text of one character, if there is room in the buffer. -/
theorem C139_put (m : Mode) (disk : Nat → Answer) (s : St α) (c : α) (hb : s.buf.length < 4096) :
    step m disk s (.put c) = step m disk s (.write [c]) := put_short m disk s c hb

/-- **C139** (a write after a refusal): a full buffer is handed over first; if that is refused nothing is taken. -/
theorem C139_write_full (m : Mode) (disk : Nat → Answer) (s : St α) (cs : List α) (hb : s.buf.length = 4096)
    (hc : cs ≠ []) :
    (disk s.asked = none → step m disk s (.write cs) =
      step m disk ⟨[], s.out ++ s.buf, s.asked + 1, .noError⟩ (.write cs)) ∧
    (∀ k, disk s.asked = some k → step m disk s (.write cs) = refused m s s.buf 0 k) :=
  write_full m disk s cs hb hc

theorem C139.put_ends (m : Mode) (disk : Nat → Answer) (s : St α) (c : α) (hb : s.buf.length ≤ 4096) :
    Ends m disk s [c] (SharedDisk.put m disk s c) ∨
    ∃ s', SharedDisk.put m disk s c = .ok s' 0 ∧ s'.out ++ s'.buf = s.out ++ s.buf ∧ s'.buf = [] ∧
      s'.err = .noError := by
  by_cases hf : s.buf.length < 4096
  · exact .inl (put_short m disk s c hf ▸ write_short_ends m disk s [c] hf)
  · have hf : s.buf.length = 4096 := by omega
    obtain ⟨h0, h1⟩ := put_full m disk s c hf
    cases hd : disk s.asked with
    | none => exact .inr ⟨_, h0 hd, by simp, rfl, rfl⟩
    | some k =>
      have h2 := (write_full m disk s [c] hf (by simp)).2 k hd
      have := write_ends m disk s [c] hb
      rw [h2] at this
      rw [h1 k hd]
      exact .inl this

theorem C139.flush_cases (m : Mode) (disk : Nat → Answer) (s : St α) :
    (∃ s', SharedDisk.flush m disk s = .ok s' 1 ∧ s'.out = s.out ++ s.buf ∧ s'.buf = [] ∧ s'.err = .noError) ∨
    (∃ s', m = .debug ∧ SharedDisk.flush m disk s = .throw s' .writeError ∧ s'.buf = s.buf ∧ s'.err = s.err ∧
      ((∀ i k, disk i = some k → k = 0) → s'.out = s.out)) ∨
    (∃ s', m = .release ∧ SharedDisk.flush m disk s = .ok s' 0 ∧ s'.buf = [] ∧ s'.err = .writeError) := by
  unfold SharedDisk.flush
  by_cases hb : s.buf = []
  · simp only [hb, if_true]
    cases m
    · exact .inr (.inl ⟨_, rfl, rfl, hb, rfl, fun _ => rfl⟩)
    · exact .inr (.inr ⟨_, rfl, rfl, rfl, rfl⟩)
  · simp only [hb, if_false]
    cases hd : disk s.asked with
    | none => exact .inl ⟨_, rfl, rfl, rfl, rfl⟩
    | some k =>
      cases m
      · refine .inr (.inl ⟨_, rfl, rfl, rfl, rfl, fun hc => ?_⟩)
        simp [hc _ k hd]
      · exact .inr (.inr ⟨_, rfl, rfl, rfl, rfl⟩)

/-- **C139, partial** (a user who is told only of successes): if every call reports success and the last one is a flush,
the file has taken exactly the bytes given, in order.  Both builds, every disk, every history. -/
theorem C139_told_partial (m : Mode) (disk : Nat → Answer) (ops : List (SharedDisk.Op α)) (s : St α) (rs : List (Obs Int))
    (h : runOps (step m disk) opened (ops ++ [.flush]) = some (s, rs))
    (hr : rs = (ops ++ [SharedDisk.Op.flush]).map fun op => .ok (success op)) :
    s.out = (ops.map given).flatten ∧ s.buf = [] ∧ s.err = .noError := by
  have key : ∀ (ops : List (SharedDisk.Op α)) (s0 : St α), s0.buf.length ≤ 4096 → ∀ (s : St α) (rs : List (Obs Int)),
      runOps (step m disk) s0 (ops ++ [.flush]) = some (s, rs) →
      rs = (ops ++ [SharedDisk.Op.flush]).map (fun op => .ok (success op)) →
      s.out = s0.out ++ s0.buf ++ (ops.map given).flatten ∧ s.buf = [] ∧ s.err = .noError := by
    intro ops
    induction ops with
    | nil =>
      intro s0 _ s rs h hr
      rcases flush_cases m disk s0 with ⟨s', e, h1, h2, h3⟩ | ⟨s', _, e, _⟩ | ⟨s', _, e, _⟩
      · simp only [List.nil_append, runOps, step, e, Option.map_some, Option.some.injEq, Prod.mk.injEq] at h
        obtain ⟨rfl, _⟩ := h
        exact ⟨by simp [h1], h2, h3⟩
      · simp only [List.nil_append, runOps, step, e, Option.map_some, Option.some.injEq, Prod.mk.injEq] at h
        rw [← h.2] at hr; simp at hr
      · simp only [List.nil_append, runOps, step, e, Option.map_some, Option.some.injEq, Prod.mk.injEq] at h
        rw [← h.2] at hr; simp [success] at hr
    | cons op ops ih =>
      intro s0 hb s rs h hr
      have one : ∀ (s' : St α), step m disk s0 op = .ok s' (success op) → s'.buf.length ≤ 4096 →
          s'.out ++ s'.buf = s0.out ++ s0.buf ++ given op →
          s.out = s0.out ++ s0.buf ++ ((op :: ops).map given).flatten ∧ s.buf = [] ∧ s.err = .noError := by
        intro s' e hb' ho
        rw [List.cons_append, runOps, e] at h
        obtain ⟨⟨s2, rs2⟩, h2, h3⟩ := Option.map_eq_some_iff.1 h
        simp only [Prod.mk.injEq] at h3
        obtain ⟨rfl, rfl⟩ := h3
        rw [List.cons_append, List.map_cons, List.cons.injEq] at hr
        have := ih s' hb' s2 rs2 h2 hr.2
        rw [ho] at this
        simpa using this
      have no : ∀ (s' : St α) (n : Int), step m disk s0 op = .ok s' n → n = success op := by
        intro s' n e
        rw [List.cons_append, runOps, e] at h
        obtain ⟨⟨s2, rs2⟩, h2, h3⟩ := Option.map_eq_some_iff.1 h
        simp only [Prod.mk.injEq] at h3
        rw [← h3.2, List.cons_append, List.map_cons, List.cons.injEq] at hr
        exact Except.ok.inj hr.1
      have nothrow : ∀ (s' : St α) (f : Flag), step m disk s0 op ≠ .throw s' f := by
        intro s' f e
        rw [List.cons_append, runOps, e] at h
        obtain ⟨⟨s2, rs2⟩, h2, h3⟩ := Option.map_eq_some_iff.1 h
        simp only [Prod.mk.injEq] at h3
        rw [← h3.2, List.cons_append, List.map_cons, List.cons.injEq] at hr
        simp at hr
      cases op with
      | flush =>
        rcases flush_cases m disk s0 with ⟨s', e, h1, h2, _⟩ | ⟨s', _, e, _⟩ | ⟨s', _, e, _⟩
        · exact one s' e (by simp [h2]) (by simp [h1, h2, given])
        · exact absurd e (nothrow _ _)
        · have := no s' 0 e; simp [success] at this
      | write cs =>
        rcases write_ends m disk s0 cs hb with ⟨s', e, h1, h2, _⟩ | ⟨s', _, e, _⟩ | ⟨s', _, e, _⟩
        · exact one s' e h2 h1
        · exact absurd e (nothrow _ _)
        · have := no s' (-1) e; simp only [success] at this; omega
      | put c =>
        rcases put_ends m disk s0 c hb with (⟨s', e, h1, h2, _⟩ | ⟨s', _, e, _⟩ | ⟨s', _, e, _⟩) | ⟨s', e, _⟩
        · exact one s' e h2 h1
        · exact absurd e (nothrow _ _)
        · have := no s' (-1) e; simp [success] at this
        · have := no s' 0 e; simp [success] at this
  have := key ops opened (by simp [opened]) s rs h hr
  simpa [opened] using this

example (a b c : α) : ∃ s, runOps (step .release (fun _ => none)) opened ([.put a, .write [b, c]] ++ [.flush]) =
    some (s, [.ok 1, .ok 2, .ok 1]) ∧ s.out = [a, b, c] := by
  simp [runOps, step, opened, SharedDisk.put, SharedDisk.write, loop, Buf.append1, Buf.append, Buf.full, flushed,
    Shared.cap, SharedDisk.flush]

/-- **C139** (a disk that accepts): every character and text is taken and reported, in both builds. -/
theorem C139_accepted (m : Mode) (disk : Nat → Answer) (hd : ∀ i, disk i = none) (ops : List (SharedDisk.Op α))
    (hf : SharedDisk.Op.flush ∉ ops) :
    ∃ s, runOps (step m disk) opened ops = some (s, ops.map fun op => .ok (success op)) ∧
      s.out ++ s.buf = (ops.map given).flatten ∧ s.buf.length < 4096 ∧ s.err = .noError := by
  have one : ∀ (s0 : St α) (cs : List α), s0.buf.length < 4096 → s0.err = .noError →
      ∃ s', SharedDisk.write m disk s0 cs = .ok s' cs.length ∧ s'.out ++ s'.buf = s0.out ++ s0.buf ++ cs ∧
        s'.buf.length < 4096 ∧ s'.err = .noError := by
    intro s0 cs hb he
    have := (C139_write m disk s0 cs hb).1 fun i _ => hd _
    refine ⟨_, this, ?_, ?_, ?_⟩
    · simp only [fine, List.append_assoc, List.take_append_drop]
    · simp only [fine, List.length_drop]; omega
    · simp [fine, he]
  have key : ∀ (ops : List (SharedDisk.Op α)) (s0 : St α), s0.buf.length < 4096 → s0.err = .noError →
      SharedDisk.Op.flush ∉ ops →
      ∃ s, runOps (step m disk) s0 ops = some (s, ops.map fun op => .ok (success op)) ∧
        s.out ++ s.buf = s0.out ++ s0.buf ++ (ops.map given).flatten ∧ s.buf.length < 4096 ∧ s.err = .noError := by
    intro ops
    induction ops with
    | nil => intro s0 hb he _; exact ⟨s0, rfl, by simp, hb, he⟩
    | cons op ops ih =>
      intro s0 hb he hf
      have hs : ∃ s', step m disk s0 op = .ok s' (success op) ∧ s'.out ++ s'.buf = s0.out ++ s0.buf ++ given op ∧
          s'.buf.length < 4096 ∧ s'.err = .noError := by
        cases op with
        | flush => simp at hf
        | write cs => exact one s0 cs hb he
        | put c =>
          obtain ⟨s', h1, h2⟩ := one s0 [c] hb he
          exact ⟨s', (put_short m disk s0 c hb).trans h1, h2⟩
      obtain ⟨s', h1, h2, h3, h4⟩ := hs
      obtain ⟨s, h5, h6, h7⟩ := ih s' h3 h4 fun hx => hf (List.mem_cons_of_mem _ hx)
      refine ⟨s, by rw [runOps, h1]; simp [h5], ?_, h7⟩
      rw [h6, h2]; simp
  simpa [opened] using key ops opened (by simp [opened]) rfl hf

example (a : α) : SharedDisk.Op.flush ∉ [SharedDisk.Op.put a, .write [a, a]] := by simp

/-- **C139, partial** (debug builds): whatever is refused, nothing taken is lost and the order is kept, if a disk that
refuses a block stores nothing of it: the bytes of the file and of the buffer are what the calls say they have taken,
where a call that throws has taken some of its first bytes. -/
theorem C139_debug_partial (disk : Nat → Answer) (hc : ∀ i k, disk i = some k → k = 0)
    (ops : List (SharedDisk.Op α)) :
    ∃ s rs, runOps (step .debug disk) opened ops = some (s, rs) ∧ Takes ops rs (s.out ++ s.buf) := by
  have key : ∀ (ops : List (SharedDisk.Op α)) (s0 : St α), s0.buf.length ≤ 4096 →
      ∃ s rs l, runOps (step .debug disk) s0 ops = some (s, rs) ∧ Takes ops rs l ∧
        s.out ++ s.buf = s0.out ++ s0.buf ++ l := by
    intro ops
    induction ops with
    | nil => intro s0 _; exact ⟨s0, [], [], rfl, .none, by simp⟩
    | cons op ops ih =>
      intro s0 hb
      have fine : ∀ (s' : St α) (n : Int), step .debug disk s0 op = .ok s' n → s'.buf.length ≤ 4096 →
          s'.out ++ s'.buf = s0.out ++ s0.buf ++ (given op).take n.toNat →
          ∃ s rs l, runOps (step .debug disk) s0 (op :: ops) = some (s, rs) ∧ Takes (op :: ops) rs l ∧
            s.out ++ s.buf = s0.out ++ s0.buf ++ l := by
        intro s' n e hb' ho
        obtain ⟨s, rs, l, h1, h2, h3⟩ := ih s' hb'
        exact ⟨s, _, _, by rw [runOps, e]; simp [h1], .said op n h2, by rw [h3, ho]; simp⟩
      have bad : ∀ (s' : St α) (t : Nat), step .debug disk s0 op = .throw s' .writeError → s'.buf.length ≤ 4096 →
          s'.out ++ s'.buf = s0.out ++ s0.buf ++ (given op).take t →
          ∃ s rs l, runOps (step .debug disk) s0 (op :: ops) = some (s, rs) ∧ Takes (op :: ops) rs l ∧
            s.out ++ s.buf = s0.out ++ s0.buf ++ l := by
        intro s' t e hb' ho
        obtain ⟨s, rs, l, h1, h2, h3⟩ := ih s' hb'
        exact ⟨s, _, _, by rw [runOps, e]; simp [h1], .thrown op t h2, by rw [h3, ho]; simp⟩
      cases op with
      | flush =>
        rcases flush_cases .debug disk s0 with ⟨s', e, h1, h2, _⟩ | ⟨s', _, e, h1, _, h2⟩ | ⟨_, hm, _⟩
        · exact fine s' 1 e (by simp [h2]) (by simp [h1, h2, given])
        · exact bad s' 0 e (by rw [h1]; exact hb) (by simp [h1, h2 hc])
        · simp at hm
      | write cs =>
        rcases write_ends .debug disk s0 cs hb with ⟨s', e, h1, h2, _⟩ | ⟨s', _, e, h2, _, h3⟩ | ⟨_, hm, _⟩
        · exact fine s' _ e h2 (by simpa [given] using h1)
        · obtain ⟨t, ht⟩ := h3 hc
          exact bad s' t e (by omega) ht
        · simp at hm
      | put c =>
        rcases put_ends .debug disk s0 c hb with
          (⟨s', e, h1, h2, _⟩ | ⟨s', _, e, h2, _, h3⟩ | ⟨_, hm, _⟩) | ⟨s', e, h1, h2, _⟩
        · exact fine s' _ e h2 (by simpa [given] using h1)
        · obtain ⟨t, ht⟩ := h3 hc
          exact bad s' t e (by omega) ht
        · simp at hm
        · exact fine s' 0 e (by simp [h2]) (by simpa using h1)
  obtain ⟨s, rs, l, h1, h2, h3⟩ := key ops opened (by simp [opened])
  refine ⟨s, rs, h1, ?_⟩
  have : s.out ++ s.buf = l := by simpa [opened] using h3
  rwa [this]

example : ∀ i k, (fun i => if i = 3 then some 0 else none : Nat → Answer) i = some k → k = 0 := by
  intro i k h; simp at h; exact h.2.symm

/-- **C139, refuted** (release builds): bytes whose write was reported as complete are dropped when a later write fails,
and the flush at the end reports success. -/
theorem C139_fails_lost (as bs cs : List α) (ha : as.length < 4096) (hb : 4096 ≤ (as ++ bs).length)
    (hc : cs.length < 4096) (hne : cs ≠ []) :
    ∃ s, runOps (step .release (fun i => if i = 0 then some 0 else none)) opened
      [.write as, .write bs, .write cs, .flush] = some (s, [.ok as.length, .ok (-1), .ok cs.length, .ok 1]) ∧
      s.out = cs := by
  have h1 := (C139_write .release (fun i => if i = 0 then some 0 else none) opened as (by simp [opened])).1
    (by simp only [opened, List.nil_append]; intro i hi; omega)
  have q1 : ([] ++ as).length / 4096 = 0 := by simp; omega
  simp only [opened, q1, fine] at h1
  simp only [Nat.zero_mul, List.drop_zero, List.take_zero, List.nil_append, if_true, Nat.add_zero] at h1
  have h2 := (C139_write .release (fun i => if i = 0 then some 0 else none) (⟨as, [], 0, .noError⟩ : St α) bs ha).2 0
    (by simp only; omega) (by simp) 0 (by simp)
  simp only [refused, Nat.zero_mul, List.take_zero, List.append_nil, Nat.add_zero, Nat.zero_add] at h2
  have h3 := (C139_write .release (fun i => if i = 0 then some 0 else none) (⟨[], [], 1, .writeError⟩ : St α) cs
    (by simp)).1 (by simp only [List.nil_append]; intro i hi; omega)
  have q3 : ([] ++ cs).length / 4096 = 0 := by simp; omega
  simp only [q3, fine] at h3
  simp only [Nat.zero_mul, List.drop_zero, List.take_zero, List.nil_append, if_true, Nat.add_zero] at h3
  refine ⟨⟨[], cs, 2, .noError⟩, ?_, rfl⟩
  simp only [runOps, opened, h1, h2, h3]
  simp [step, SharedDisk.flush, hne]

example (c : Char) : (List.replicate 10 c).length < 4096 ∧
    4096 ≤ (List.replicate 10 c ++ List.replicate 4090 c).length := by
  rw [List.length_append, List.length_replicate, List.length_replicate]; omega

/-- **C139, refuted** (debug builds): after a refusal, a character is not taken although the disk accepts again; the call
does not throw but returns 0. -/
theorem C139_fails_character (as : List α) (b c : α) (ha : as.length = 4095) :
    ∃ s, runOps (step .debug (fun i => if i = 0 then some 0 else none)) opened
      [.write as, .put b, .put c, .flush] = some (s, [.ok 4095, .error .writeError, .ok 0, .error .writeError]) ∧
      s.out = as ++ [b] ∧ s.buf = [] := by
  have h1 := (C139_write .debug (fun i => if i = 0 then some 0 else none) opened as (by simp [opened])).1
    (by simp only [opened, List.nil_append]; intro i hi; omega)
  have q1 : ([] ++ as).length / 4096 = 0 := by simp; omega
  simp only [opened, q1, fine] at h1
  simp only [Nat.zero_mul, List.drop_zero, List.take_zero, List.nil_append, if_true, Nat.add_zero] at h1
  have h2 := (C139_write .debug (fun i => if i = 0 then some 0 else none) (⟨as, [], 0, .noError⟩ : St α) [b]
    (by simp only; omega)).2 0 (by simp [ha]) (by simp) 0 (by simp)
  rw [← C139_put _ _ _ _ (by simp only; omega)] at h2
  have ht : (as ++ [b]).take 4096 = as ++ [b] := List.take_of_length_le (by simp [ha])
  simp only [refused, Nat.zero_mul, List.take_zero, List.append_nil, Nat.add_zero, Nat.zero_add, List.drop_zero, ht,
    if_true] at h2
  have h3 := (put_full .debug (fun i => if i = 0 then some 0 else none) (⟨as ++ [b], [], 1, .noError⟩ : St α) c
    (by simp [ha])).1 (by simp)
  refine ⟨⟨[], as ++ [b], 2, .noError⟩, ?_, rfl, rfl⟩
  simp only [runOps, opened, h1, h2]
  simp [step, h3, SharedDisk.flush, ha]

/-- **C139, refuted** (debug builds): a write that throws has taken some of its bytes, and does not say how many; repeated
when the disk accepts again, they are in the file twice. -/
theorem C139_fails_repeated (cs : List α) (h1 : 4096 ≤ cs.length) (h2 : cs.length < 8192) (h3 : cs.length ≠ 4096) :
    ∃ s, runOps (step .debug (fun i => if i = 0 then some 0 else none)) opened [.write cs, .write cs, .flush] =
      some (s, [.error .writeError, .ok cs.length, .ok 1]) ∧ s.out = cs.take 4096 ++ cs := by
  have e1 := (C139_write .debug (fun i => if i = 0 then some 0 else none) opened cs (by simp [opened])).2 0
    (by simp only [opened, List.nil_append]; omega) (by simp) 0 (by simp [opened])
  simp only [opened, refused, Nat.zero_mul, List.take_zero, List.append_nil, Nat.add_zero, Nat.zero_add, List.drop_zero,
    if_true, List.nil_append] at e1
  have hl : (cs.take 4096).length = 4096 := by rw [List.length_take]; omega
  have hne : cs ≠ [] := by intro e; rw [e] at h1; simp at h1
  have e2 := (C139_write_full .debug (fun i => if i = 0 then some 0 else none)
    (⟨cs.take 4096, [], 1, .noError⟩ : St α) cs hl hne).1 (by simp)
  have e3 := (C139_write .debug (fun i => if i = 0 then some 0 else none)
    (⟨[], [] ++ cs.take 4096, 1 + 1, .noError⟩ : St α) cs (by simp)).1 (by simp)
  have q3 : cs.length / 4096 = 1 := by omega
  simp only [List.nil_append] at e3
  simp only [q3, fine, Nat.one_mul] at e3
  simp only [List.nil_append] at e2
  refine ⟨⟨[], cs.take 4096 ++ cs.take 4096 ++ cs.drop 4096, 4, .noError⟩, ?_, by simp⟩
  simp only [runOps, opened, e1, e2, e3]
  simp [step, SharedDisk.flush, show ¬ cs.length ≤ 4096 by omega]

/-- **C139, refuted** (debug builds): a block of which the disk stored a part before it refused is stored again from its
beginning. -/
theorem C139_fails_partly (cs : List α) (k : Nat) (h1 : cs.length < 4096) (hne : cs ≠ []) :
    ∃ s, runOps (step .debug (fun i => if i = 0 then some k else none)) opened [.write cs, .flush, .flush] =
      some (s, [.ok cs.length, .error .writeError, .ok 1]) ∧ s.out = cs.take k ++ cs := by
  have e1 := (C139_write .debug (fun i => if i = 0 then some k else none) opened cs (by simp [opened])).1
    (by simp only [opened, List.nil_append]; intro i hi; omega)
  have q1 : ([] ++ cs).length / 4096 = 0 := by simp; omega
  simp only [opened, q1, fine] at e1
  simp only [Nat.zero_mul, List.drop_zero, List.take_zero, List.nil_append, if_true, Nat.add_zero] at e1
  refine ⟨⟨[], cs.take k ++ cs, 2, .noError⟩, ?_, rfl⟩
  simp only [runOps, opened, e1]
  simp [step, SharedDisk.flush, hne]

/-- **C139, refuted** (debug builds): the error status never tells of a refusal. -/
theorem C139_fails_status (disk : Nat → Answer) (ops : List (SharedDisk.Op α)) (s : St α) (rs : List (Obs Int))
    (h : runOps (step .debug disk) opened ops = some (s, rs)) : s.err = .noError := by
  have key : ∀ (ops : List (SharedDisk.Op α)) (s0 : St α), s0.buf.length ≤ 4096 → s0.err = .noError →
      ∀ (s : St α) (rs : List (Obs Int)), runOps (step .debug disk) s0 ops = some (s, rs) → s.err = .noError := by
    intro ops
    induction ops with
    | nil => intro s0 _ he s rs h; simp only [runOps, Option.some.injEq, Prod.mk.injEq] at h; rw [← h.1]; exact he
    | cons op ops ih =>
      intro s0 hb he s rs h
      have next : ∀ s' : St α, (∃ n, step .debug disk s0 op = .ok s' n) ∨ (∃ f, step .debug disk s0 op = .throw s' f) →
          s'.buf.length ≤ 4096 → s'.err = .noError → s.err = .noError := by
        intro s' hs hb' he'
        rcases hs with ⟨n, e⟩ | ⟨f, e⟩ <;>
        · rw [runOps, e] at h
          obtain ⟨⟨s2, rs2⟩, h2, h3⟩ := Option.map_eq_some_iff.1 h
          simp only [Prod.mk.injEq] at h3
          rw [← h3.1]
          exact ih s' hb' he' s2 rs2 h2
      have both : ∀ s' : St α, (s'.err = .noError ∨ s'.err = s0.err) → s'.err = .noError := by
        intro s' h; rcases h with h | h
        · exact h
        · rw [h, he]
      cases op with
      | flush =>
        rcases flush_cases .debug disk s0 with ⟨s', e, h1, h2, h3⟩ | ⟨s', _, e, h1, h2, _⟩ | ⟨_, hm, _⟩
        · exact next s' (.inl ⟨_, e⟩) (by simp [h2]) h3
        · exact next s' (.inr ⟨_, e⟩) (by rw [h1]; exact hb) (by rw [h2, he])
        · simp at hm
      | write cs =>
        rcases write_ends .debug disk s0 cs hb with ⟨s', e, h1, h2, h3⟩ | ⟨s', _, e, h2, h3, _⟩ | ⟨_, hm, _⟩
        · exact next s' (.inl ⟨_, e⟩) h2 (both s' h3)
        · exact next s' (.inr ⟨_, e⟩) (by omega) (both s' h3)
        · simp at hm
      | put c =>
        rcases put_ends .debug disk s0 c hb with
          (⟨s', e, h1, h2, h3⟩ | ⟨s', _, e, h2, h3, _⟩ | ⟨_, hm, _⟩) | ⟨s', e, h1, h2, h3⟩
        · exact next s' (.inl ⟨_, e⟩) h2 (both s' h3)
        · exact next s' (.inr ⟨_, e⟩) (by omega) (both s' h3)
        · simp at hm
        · exact next s' (.inl ⟨_, e⟩) (by simp [h2]) h3
  exact key ops opened (by simp [opened]) rfl s rs h

example (a : α) : ∃ s, runOps (step .debug (fun _ => some 0)) opened [.put a, .flush] =
    some (s, [.ok 1, .error .writeError]) := by
  simp [runOps, step, opened, SharedDisk.put, Buf.append1, Buf.full, flushed, Shared.cap, SharedDisk.flush]

/-- **C139, refuted** (release builds): one refused flush, and the destruction of the handle deletes the file under all
other handles. -/
theorem C139_fails_deleted (env : Shared.Env) (n : Nat) (b : α) (ho : env.canOpen n = true)
    (hw : env.canWrite n = false) :
    runOps (Shared.step .release env) (Shared.World.init : Shared.World α)
      [.construct 0 n, .construct 1 n, .put 1 b, .flush 1, .destroy 1, .count 0] = none := by
  simp [runOps, Shared.step, Shared.World.init, Shared.openInst, Shared.register, Shared.lock, ho, hw, Shared.upd,
      Shared.flush, Shared.destroy, Shared.free, Shared.R.toRes, Shared.put, Buf.append1, Buf.full, Shared.cap]

/-! ## Agreement with the model of many handles -/

namespace C139
open Shared (World Env)

/-- Handle 0 of the world is the handle followed here. -/
structure Same (n : Nat) (w : World α) (s : St α) : Prop where
  hung : w.hung = false
  handle : ∃ id, w.handles 0 = some ⟨some id, s.buf⟩ ∧ ∃ k, w.heap id = some ⟨k, some n, s.err, s.err⟩
  file : w.file n = s.out

/-- The disk of an environment. -/
def diskOf (env : Env) (n : Nat) : Nat → Answer := fun _ => if env.canWrite n then none else some 0

/-- The same end of a call. -/
def SameEnd {β : Type _} (n : Nat) (f : β → Int) : Shared.R α β → Res (St α) Int → Prop
  | .ok w b, .ok s k => Same n w s ∧ f b = k
  | .throw w e, .throw s e' => Same n w s ∧ e = e'
  | .ub, .ub => True
  | _, _ => False

/-- True and false as numbers. -/
def bit : Bool → Int
  | true => 1
  | false => 0

theorem flush_same (m : Mode) (env : Env) (n : Nat) (w : World α) (s : St α) (hs : Same n w s) (hd : Shared.Handle α)
    (hh : w.handles 0 = some hd) :
    SameEnd n bit (Shared.flush m env w 0 hd) (SharedDisk.flush m (diskOf env n) s) := by
  obtain ⟨id, h1, k, h2⟩ := hs.handle
  rw [h1] at hh
  obtain rfl := Option.some.inj hh
  unfold Shared.flush SharedDisk.flush
  simp only [h2]
  by_cases hb : s.buf = []
  · rw [if_neg (by simp [hb]), if_pos hb]
    cases m
    · exact ⟨⟨hs.hung, ⟨id, h1, k, by simp [Shared.upd]⟩, hs.file⟩, rfl⟩
    · exact ⟨⟨hs.hung, ⟨id, by simp [Shared.upd], k, by simp [Shared.upd]⟩, hs.file⟩, rfl⟩
  · rw [if_neg hb]
    by_cases hw : env.canWrite n = true
    · rw [if_pos ⟨hw, hb⟩]
      simp only [diskOf, hw, if_true]
      exact ⟨⟨hs.hung, ⟨id, by simp [Shared.upd], k, by simp [Shared.upd]⟩, by simp [Shared.upd, hs.file]⟩, rfl⟩
    · rw [if_neg (by simp [hw])]
      simp only [diskOf, hw, if_false]
      cases m
      · exact ⟨⟨hs.hung, ⟨id, h1, k, by simp [Shared.upd]⟩, by simp [hs.file]⟩, rfl⟩
      · exact ⟨⟨hs.hung, ⟨id, by simp [Shared.upd], k, by simp [Shared.upd]⟩, by simp [hs.file]⟩, rfl⟩

theorem Same.buffer {n : Nat} {w : World α} {s : St α} (hs : Same n w s) (hd : Shared.Handle α)
    (hh : w.handles 0 = some hd) (buf : List α) :
    Same n { w with handles := Shared.upd w.handles 0 (some { hd with buf := buf }) } { s with buf := buf } := by
  obtain ⟨id, h1, k, h2⟩ := hs.handle
  rw [h1] at hh
  obtain rfl := Option.some.inj hh
  exact ⟨hs.hung, ⟨id, by simp [Shared.upd], k, h2⟩, hs.file⟩

theorem Same.buf_eq {n : Nat} {w : World α} {s : St α} (hs : Same n w s) (hd : Shared.Handle α)
    (hh : w.handles 0 = some hd) : hd.buf = s.buf := by
  obtain ⟨id, h1, _⟩ := hs.handle
  rw [h1] at hh
  obtain rfl := Option.some.inj hh
  rfl

/-- What follows an append. -/
theorem flushed_same (m : Mode) (env : Env) (n : Nat) (w : World α) (s : St α) (hs : Same n w s) (hd : Shared.Handle α)
    (hh : w.handles 0 = some hd) (f : World α → Shared.R α Int) (g : St α → Res (St α) Int)
    (hb : s.buf.length ≤ 4096)
    (hfg : ∀ w s', Same n w s' → s'.buf.length < 4096 → SameEnd n id (f w) (g s')) :
    SameEnd n id (if Buf.full Shared.cap hd.buf then
        match Shared.flush m env w 0 hd with
        | .ok w true => f w
        | .ok w false => .ok w (-1)
        | .throw w e => .throw w e
        | .hang w => .hang w
        | .ub => .ub
      else f w) (flushed m (diskOf env n) s g) := by
  unfold flushed
  rw [hs.buf_eq hd hh]
  by_cases hful : Buf.full Shared.cap s.buf = true
  · rw [if_pos hful, if_pos hful]
    have := flush_same m env n w s hs hd hh
    have he : ∀ s' k, SharedDisk.flush m (diskOf env n) s = .ok s' k → s'.buf = [] := by
      intro s' k e
      rcases flush_cases m (diskOf env n) s with ⟨s2, e2, _, h2, _⟩ | ⟨s2, _, e2, _⟩ | ⟨s2, _, e2, h2, _⟩ <;>
        rw [e2] at e
      · simp only [Res.ok.injEq] at e; rw [← e.1]; exact h2
      · simp at e
      · simp only [Res.ok.injEq] at e; rw [← e.1]; exact h2
    revert this he
    cases Shared.flush m env w 0 hd <;> cases SharedDisk.flush m (diskOf env n) s <;> intro h he <;>
      simp only [SameEnd] at h
    · rename_i w' b s' k
      obtain ⟨h1, h2⟩ := h
      have hbuf := he s' k rfl
      cases b
      · have h2 : k = 0 := h2.symm
        simp only [h2, if_true]; exact ⟨h1, rfl⟩
      · have h2 : k = 1 := h2.symm
        simp only [h2, if_neg (by omega : ¬ (1 : Int) = 0)]
        exact hfg _ _ h1 (by simp [hbuf])
    · exact h
    · trivial
  · rw [if_neg hful, if_neg hful]
    refine hfg w s hs ?_
    have : s.buf.length ≠ 4096 := by simpa [Buf.full, Shared.cap] using hful
    omega

theorem loop_same (m : Mode) (env : Env) (n : Nat) (r : Int) : ∀ (l : Nat) (f g : Nat) (w : World α) (s : St α)
    (cs : List α), Same n w s → s.buf.length ≤ 4096 → cs.length + s.buf.length / 4096 = l → l ≤ f → l ≤ g →
    SameEnd n id (Shared.loop m env r 0 f w cs) (loop m (diskOf env n) r g s cs) := by
  intro l
  induction l using Nat.strongRecOn with
  | _ l ih =>
    intro f g w s cs hs hb hl hf hg
    cases cs with
    | nil =>
      have e1 : Shared.loop m env r 0 f w [] = .ok w r := by cases f <;> rfl
      have e2 : loop m (diskOf env n) r g s [] = .ok s r := by cases g <;> rfl
      rw [e1, e2]; exact ⟨hs, rfl⟩
    | cons c cs =>
      simp only [List.length_cons] at hl
      obtain ⟨f, rfl⟩ : ∃ f', f = f' + 1 := ⟨f - 1, by omega⟩
      obtain ⟨g, rfl⟩ : ∃ g', g = g' + 1 := ⟨g - 1, by omega⟩
      obtain ⟨i, h1, k, h2⟩ := hs.handle
      rw [Shared.loop, loop, h1]
      simp only
      rw [append_eq _ _ hb]
      simp only
      have hs' := hs.buffer _ h1 ((s.buf ++ c :: cs).take 4096)
      refine flushed_same m env n _ _ hs' ⟨some i, (s.buf ++ c :: cs).take 4096⟩ (by simp [Shared.upd])
        (fun w => Shared.loop m env r 0 f w ((c :: cs).drop (min (4096 - s.buf.length) (c :: cs).length)))
        (fun s' => loop m (diskOf env n) r g s' ((c :: cs).drop (min (4096 - s.buf.length) (c :: cs).length)))
        (by simp only [List.length_take]; omega) ?_
      intro w2 s2 h3 h4
      have hlt : ((c :: cs).drop (min (4096 - s.buf.length) (c :: cs).length)).length < l := by
        simp only [List.length_drop, List.length_cons]
        omega
      exact ih _ hlt f g w2 s2 _ h3 (by omega) (by omega) (by omega) (by omega)

/-- A call of the class as a call on handle 0. -/
def onHandle : SharedDisk.Op α → Shared.Op α
  | .put c => .put 0 c
  | .write cs => .write 0 cs
  | .flush => .flush 0

/-- The number a user gets as the value a user gets. -/
def shownAs : SharedDisk.Op α → Obs Int → Obs Shared.Out
  | .flush, .ok k => .ok (.bool (k = 1))
  | _, .ok k => .ok (.num k)
  | _, .error e => .error e

/-- The same ends of calls. -/
def StepSame (n : Nat) (op : SharedDisk.Op α) : Res (World α) Shared.Out → Res (St α) Int → Prop
  | .ok w o, .ok s k => Same n w s ∧ s.buf.length ≤ 4096 ∧ .ok o = shownAs op (.ok k)
  | .throw w e, .throw s e' => Same n w s ∧ s.buf.length ≤ 4096 ∧ e = e'
  | _, _ => False

theorem step_buf (m : Mode) (disk : Nat → Answer) (s : St α) (op : SharedDisk.Op α) (hb : s.buf.length ≤ 4096) :
    (∃ s' k, step m disk s op = .ok s' k ∧ s'.buf.length ≤ 4096) ∨
    (∃ s' e, step m disk s op = .throw s' e ∧ s'.buf.length ≤ 4096) := by
  cases op with
  | flush =>
    rcases flush_cases m disk s with ⟨s', e, h1, h2, h3⟩ | ⟨s', _, e, h1, h2, _⟩ | ⟨s', _, e, h2, _⟩
    · exact .inl ⟨s', _, e, by simp [h2]⟩
    · exact .inr ⟨s', _, e, by rw [h1]; exact hb⟩
    · exact .inl ⟨s', _, e, by simp [h2]⟩
  | write cs =>
    rcases write_ends m disk s cs hb with ⟨s', e, h1, h2, h3⟩ | ⟨s', _, e, h2, h3, _⟩ | ⟨s', _, e, h2, _⟩
    · exact .inl ⟨s', _, e, h2⟩
    · exact .inr ⟨s', _, e, by omega⟩
    · exact .inl ⟨s', _, e, by simp [h2]⟩
  | put c =>
    rcases put_ends m disk s c hb with
      (⟨s', e, h1, h2, h3⟩ | ⟨s', _, e, h2, h3, _⟩ | ⟨s', _, e, h2, _⟩) | ⟨s', e, h1, h2, h3⟩
    · exact .inl ⟨s', _, e, h2⟩
    · exact .inr ⟨s', _, e, by omega⟩
    · exact .inl ⟨s', _, e, by simp [h2]⟩
    · exact .inl ⟨s', _, e, by simp [h2]⟩

theorem step_same (m : Mode) (env : Env) (n : Nat) (w : World α) (s : St α) (op : SharedDisk.Op α) (hs : Same n w s)
    (hb : s.buf.length ≤ 4096) (hop : (given op).length < 2 ^ 32) :
    StepSame n op (Shared.step m env w (onHandle op)) (step m (diskOf env n) s op) := by
  have hbuf := step_buf m (diskOf env n) s op hb
  obtain ⟨i, h1, k, h2⟩ := hs.handle
  have num : ∀ (r : Shared.R α Int) (q : Res (St α) Int), SameEnd n id r q →
      ((∃ s' k, q = .ok s' k ∧ s'.buf.length ≤ 4096) ∨ (∃ s' e, q = .throw s' e ∧ s'.buf.length ≤ 4096)) →
      op ≠ .flush → StepSame n op (r.toRes .num) q := by
    intro r q h hq hne
    rcases hq with ⟨s', k, rfl, hq⟩ | ⟨s', e, rfl, hq⟩ <;> cases r <;> simp only [SameEnd] at h
    · refine ⟨h.1, hq, ?_⟩
      obtain ⟨_, rfl⟩ := h
      cases op <;> first | rfl | exact absurd rfl hne
    · exact ⟨h.1, hq, h.2⟩
  cases op with
  | flush =>
    simp only [onHandle, Shared.step, hs.hung, h1]
    have h := flush_same m env n w s hs _ h1
    simp only [step] at hbuf ⊢
    revert h
    rcases hbuf with ⟨s', k, e, hq⟩ | ⟨s', f, e, hq⟩ <;> rw [e] <;>
      cases Shared.flush m env w 0 ⟨some i, s.buf⟩ <;> intro h <;> simp only [SameEnd] at h
    · refine ⟨h.1, hq, ?_⟩
      rename_i b
      obtain ⟨_, rfl⟩ := h
      cases b <;> rfl
    · exact ⟨h.1, hq, h.2⟩
  | write cs =>
    simp only [onHandle, Shared.step, hs.hung, h1]
    refine num _ _ ?_ hbuf (by simp)
    have hcs : cs.length < 4294967296 := hop
    simp only [Shared.write, if_pos hcs, step, SharedDisk.write]
    exact loop_same m env n _ _ _ _ w s cs hs hb rfl (by omega) (by omega)
  | put c =>
    simp only [onHandle, Shared.step, hs.hung, h1]
    refine num _ _ ?_ hbuf (by simp)
    simp only [Shared.put, step, SharedDisk.put]
    cases ha : Buf.append1 Shared.cap s.buf c with
    | ok p =>
      obtain ⟨buf, q⟩ := p
      have hlen : buf.length ≤ 4096 := by
        unfold Buf.append1 at ha
        rw [show Shared.cap = 4096 from rfl] at ha
        split at ha
        · simp only [Outcome.ok.injEq, Prod.mk.injEq] at ha; rw [← ha.1]; exact hb
        · split at ha
          · simp only [Outcome.ok.injEq, Prod.mk.injEq] at ha; rw [← ha.1]; simp; omega
          · simp at ha
      have hs' := hs.buffer _ h1 buf
      exact flushed_same m env n _ _ hs' ⟨some i, buf⟩ (by simp [Shared.upd]) (fun w => .ok w (q : Int)) (fun s => .ok s (q : Int)) hlen
        fun w2 s2 h3 _ => ⟨h3, rfl⟩
    | throw e =>
      unfold Buf.append1 at ha
      split at ha
      · simp at ha
      · split at ha <;> simp at ha
    | ub => trivial

end C139

/-- **C139** (agreement): the model of many handles (C25, C26), on a disk that takes everything or nothing, answers every
history on one handle in the same way and leaves the same file. -/
theorem C139_agrees (m : Mode) (env : Shared.Env) (n : Nat) (ho : env.canOpen n = true) (ops : List (SharedDisk.Op α))
    (hops : ∀ op ∈ ops, (given op).length < 2 ^ 32) :
    ∃ w s rs, runOps (step m (diskOf env n)) opened ops = some (s, rs) ∧
      runOps (Shared.step m env) Shared.World.init (.construct 0 n :: ops.map onHandle) =
        some (w, .ok .unit :: List.zipWith shownAs ops rs) ∧ w.file n = s.out := by
  have key : ∀ (ops : List (SharedDisk.Op α)) (w0 : Shared.World α) (s0 : St α), Same n w0 s0 → s0.buf.length ≤ 4096 →
      (∀ op ∈ ops, (given op).length < 2 ^ 32) →
      ∃ w s rs, runOps (step m (diskOf env n)) s0 ops = some (s, rs) ∧
        runOps (Shared.step m env) w0 (ops.map onHandle) = some (w, List.zipWith shownAs ops rs) ∧
        w.file n = s.out := by
    intro ops
    induction ops with
    | nil => intro w0 s0 h _ _; exact ⟨w0, s0, [], rfl, rfl, h.file⟩
    | cons op ops ih =>
      intro w0 s0 h hb hops
      have hst := step_same m env n w0 s0 op h hb (hops op (by simp))
      rw [List.map_cons, runOps, runOps]
      revert hst
      cases Shared.step m env w0 (onHandle op) <;> cases step m (diskOf env n) s0 op <;> intro hst <;>
        simp only [StepSame] at hst
      · obtain ⟨h1, h2, h3⟩ := hst
        obtain ⟨w, s, rs, e1, e2, e3⟩ := ih _ _ h1 h2 fun o ho => hops o (List.mem_cons_of_mem _ ho)
        refine ⟨w, s, _, by simp only [e1, Option.map_some]; rfl, ?_, e3⟩
        simp only [e2, Option.map_some, List.zipWith_cons_cons, h3]
      · obtain ⟨h1, h2, rfl⟩ := hst
        obtain ⟨w, s, rs, e1, e2, e3⟩ := ih _ _ h1 h2 fun o ho => hops o (List.mem_cons_of_mem _ ho)
        refine ⟨w, s, _, by simp only [e1, Option.map_some]; rfl, ?_, e3⟩
        simp only [e2, Option.map_some, List.zipWith_cons_cons]
        cases op <;> rfl
  have hc : ∃ w0, Shared.step m env (Shared.World.init : Shared.World α) (.construct 0 n) = .ok w0 .unit ∧
      Same n w0 opened := by
    simp only [Shared.step, Shared.World.init, Shared.openInst, Shared.register, Shared.lock, ho, Shared.upd]
    refine ⟨_, rfl, rfl, ⟨0, by simp [opened, Shared.upd], some 1, by simp [opened, Shared.upd]⟩, rfl⟩
  obtain ⟨w0, e0, h0⟩ := hc
  obtain ⟨w, s, rs, e1, e2, e3⟩ := key ops w0 opened h0 (by simp [opened]) hops
  exact ⟨w, s, rs, e1, by rw [runOps, e0]; simp [e2], e3⟩

end Ecl.Props
