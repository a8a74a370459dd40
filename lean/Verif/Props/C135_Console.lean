import Verif.Lemmas.ConsoleFailure

/-!
# C135: what becomes of console output if the terminal refuses it, and of output that is never flushed
-/
set_option autoImplicit false

namespace Ecl.Props
open ConsoleFailure ConsoleBlocks C135

/-- **C135.** In a release build a write always returns the number of its bytes and never says anything else: the bytes
waiting and the new ones are handed over in blocks of 4095, of each of which the terminal shows what it likes; what
remains waits. -/
theorem C135_write_release (term : ℕ → Answer) (s : St) (cs : List Char) (hb : s.buf.length < 4095)
    (hc : cs.length < 2 ^ 32) :
    puts .release term s cs =
      .ok ⟨rest 4095 (s.buf ++ cs), s.out ++ shownFrom term s.asked (blocks 4095 (s.buf ++ cs)),
        s.asked + (blocks 4095 (s.buf ++ cs)).length⟩ cs.length := by
  rw [puts_eq _ _ _ _ (by simpa using hc) hb, after_rel]

example : blocks 3 ['a', 'b', 'c', 'd', 'e', 'f', 'g'] = [['a', 'b', 'c'], ['d', 'e', 'f']] ∧
    rest 3 ['a', 'b', 'c', 'd', 'e', 'f', 'g'] = ['g'] := by decide

/-- **C135.** In a debug build the same happens as long as the terminal accepts; the first refusal ends the write with
a `WriteError`, nothing is left waiting and the bytes behind the refused block are not handed over. -/
theorem C135_write_debug (term : ℕ → Answer) (s : St) (cs : List Char) (hb : s.buf.length < 4095)
    (hc : cs.length < 2 ^ 32) :
    ((∀ i < (blocks 4095 (s.buf ++ cs)).length, term (s.asked + i) = none) →
      puts .debug term s cs =
        .ok ⟨rest 4095 (s.buf ++ cs), s.out ++ shownFrom term s.asked (blocks 4095 (s.buf ++ cs)),
          s.asked + (blocks 4095 (s.buf ++ cs)).length⟩ cs.length) ∧
    ∀ j < (blocks 4095 (s.buf ++ cs)).length, (∀ i < j, term (s.asked + i) = none) → (term (s.asked + j)).isSome →
      puts .debug term s cs =
        .throw ⟨[], s.out ++ shownFrom term s.asked ((blocks 4095 (s.buf ++ cs)).take (j + 1)), s.asked + j + 1⟩
          .writeError := by
  rw [puts_eq _ _ _ _ (by simpa using hc) hb]
  refine ⟨fun h => ?_, fun j hj h1 h2 => after_deb _ _ _ _ _ j hj h1 h2⟩
  by_cases he : blocks 4095 (s.buf ++ cs) = []
  · rw [he]; simp [after, shownFrom]
  · exact after_accept _ _ _ _ _ _ h he

/-- **C135.** A single character is a write of one byte. -/
theorem C135_character (m : Mode) (term : ℕ → Answer) (s : St) (c : Char) (hb : s.buf.length < 4095) :
    step m term s (.put c) = step m term s (.puts [c]) := put_eq m term s c hb

/-- **C135.** Writes of less than 2^32 bytes end: the passes that are followed suffice, more change nothing. -/
theorem C135_passes (m : Mode) (term : ℕ → Answer) (s : St) (cs : List Char) (hb : s.buf.length < 4095)
    (hc : cs.length < 2 ^ 32) (k : ℕ) (hk : cs.length < k) :
    passes m term cs k s 0 = passes m term cs (cs.length + 1) s 0 ∧ puts m term s cs ≠ .endless := by
  have hc' : cs.length < 4294967296 := by simpa using hc
  rw [passes_eq m term cs hc' k s 0 (Nat.zero_le _) (by omega) hb,
    passes_eq m term cs hc' _ s 0 (Nat.zero_le _) (by omega) hb, puts_eq _ _ _ _ hc' hb]
  exact ⟨rfl, after_ne _ _ _ _ _ _⟩

/-- The number a call returns if all is well. -/
def consoleCount : Op → ℕ
  | .put _ => 1
  | .puts cs => cs.length
  | .flush => 0
  | .destroy => 0

/-- One call on a console: what it leaves behind if it returns, and if it throws. -/
theorem C135.step_told (term : ℕ → Answer) (op : Op) (hd : op ≠ .destroy) (h0 : '\x00' ∉ bytes op)
    (hl : (bytes op).length < 2 ^ 32) (s : St) (hb : s.buf.length < 4095) (hn : '\x00' ∉ s.buf) (m : Mode)
    (hm : m = .debug ∨ ∀ i, term i = none) :
    (∃ s', step m term s op = .ok s' (consoleCount op) ∧ s'.out ++ s'.buf = s.out ++ s.buf ++ bytes op ∧
      s'.buf.length < 4095 ∧ '\x00' ∉ s'.buf ∧ (op = .flush → s'.buf = [])) ∨
    ∃ s', m = .debug ∧ step m term s op = .throw s' .writeError ∧ s'.buf = [] ∧ ∃ i, (term i).isSome := by
  have write : ∀ cs : List Char, '\x00' ∉ cs → cs.length < 2 ^ 32 →
      (∃ s', puts m term s cs = .ok s' cs.length ∧ s'.out ++ s'.buf = s.out ++ s.buf ++ cs ∧
        s'.buf.length < 4095 ∧ '\x00' ∉ s'.buf) ∨
      ∃ s', m = .debug ∧ puts m term s cs = .throw s' .writeError ∧ s'.buf = [] ∧ ∃ i, (term i).isSome := by
    intro cs hcs hlen
    obtain ⟨j1, j2, j3⟩ := join_blocks _ (s.buf ++ cs) (le_refl _)
    have hall : '\x00' ∉ s.buf ++ cs := by
      intro hx; rcases List.mem_append.1 hx with hx | hx
      · exact hn hx
      · exact hcs hx
    have hrest : '\x00' ∉ rest 4095 (s.buf ++ cs) := by
      intro hx; exact hall (List.mem_of_mem_drop hx)
    have good : (∀ i < (blocks 4095 (s.buf ++ cs)).length, term (s.asked + i) = none) →
        puts m term s cs =
        .ok ⟨rest 4095 (s.buf ++ cs), s.out ++ shownFrom term s.asked (blocks 4095 (s.buf ++ cs)),
          s.asked + (blocks 4095 (s.buf ++ cs)).length⟩ cs.length := by
      intro h
      cases m
      · exact (C135_write_debug term s cs hb hlen).1 h
      · exact C135_write_release term s cs hb hlen
    by_cases h : ∀ i < (blocks 4095 (s.buf ++ cs)).length, term (s.asked + i) = none
    · refine .inl ⟨_, good h, ?_, j2, hrest⟩
      simp only []
      rw [shown_accept term _ _ h (fun b hb' hx => hall ((j3 b hb').2 _ hx)), List.append_assoc, j1,
        List.append_assoc]
    · have hex : ∃ i, i < (blocks 4095 (s.buf ++ cs)).length ∧ (term (s.asked + i)).isSome := by
        by_contra hno
        push Not at hno
        exact h fun i hi => by
          have := hno i hi
          simpa using this
      classical
      rcases hm with rfl | hm
      · refine .inr ⟨_, rfl, (C135_write_debug term s cs hb hlen).2 (Nat.find hex) (Nat.find_spec hex).1 ?_
          (Nat.find_spec hex).2, rfl, _, (Nat.find_spec hex).2⟩
        intro i hi
        have := Nat.find_min hex hi
        have hlt : i < (blocks 4095 (s.buf ++ cs)).length := lt_trans hi (Nat.find_spec hex).1
        have h2 : ¬ (term (s.asked + i)).isSome := fun h => this ⟨hlt, h⟩
        simpa using h2
      · exact absurd (fun i _ => hm _) h
  cases op with
  | put c =>
    rw [C135_character m term s c hb]
    rcases write [c] h0 (by simp) with ⟨s', h1, h2, h3, h4⟩ | ⟨s', h1⟩
    · exact .inl ⟨s', h1, h2, h3, h4, by simp⟩
    · exact .inr ⟨s', h1⟩
  | puts cs =>
    rcases write cs h0 hl with ⟨s', h1, h2, h3, h4⟩ | ⟨s', h1⟩
    · exact .inl ⟨s', h1, h2, h3, h4, by simp⟩
    · exact .inr ⟨s', h1⟩
  | flush =>
    rcases ht : term s.asked with _ | k
    · refine .inl ⟨⟨[], s.out ++ s.buf, s.asked + 1⟩, ?_, by simp [bytes], by simp, by simp, by simp⟩
      show flush m term s = _
      unfold flush
      simp only [ht]
      rw [takeWhile_all hn]; rfl
    · rcases hm with rfl | hm
      · refine .inr ⟨⟨[], s.out ++ s.buf.take k, s.asked + 1⟩, rfl, ?_, rfl, s.asked, by simp [ht]⟩
        show flush .debug term s = _
        unfold flush
        simp only [ht]
        rw [takeWhile_all hn]
      · rw [hm] at ht; cases ht
  | destroy => exact absurd rfl hd

/-- **C135, partial**: in a debug build, or with a terminal that accepts, bytes that are not NUL are not lost unnoticed:
if every call of a history returned, and the last is a flush, the terminal shows all bytes written, in order, and every
write returned their number.  Missing: release builds (`C135_fails_silent`), consoles that are destroyed
(`C135_fails_destroyed`), writes of 2^32 bytes (`C135_fails_endless`). -/
theorem C135_told_partial (m : Mode) (term : ℕ → Answer) (hm : m = .debug ∨ ∀ i, term i = none) (ops : List Op)
    (hd : Op.destroy ∉ ops) (h0 : ∀ op ∈ ops, '\x00' ∉ bytes op) (hl : ∀ op ∈ ops, (bytes op).length < 2 ^ 32)
    (s : St) (rs : List (Obs ℕ)) (h : run m term ⟨[], [], 0⟩ (ops ++ [.flush]) = some (s, rs))
    (hr : ∀ r ∈ rs, ∃ n, r = .ok n) :
    s.out = (ops.map bytes).flatten ∧ s.buf = [] ∧ rs = (ops ++ [Op.flush]).map fun op => .ok (consoleCount op) := by
  have key : ∀ (ops : List Op) (s0 : St) (s : St) (rs : List (Obs ℕ)), s0.buf.length < 4095 → '\x00' ∉ s0.buf →
      Op.destroy ∉ ops → (∀ op ∈ ops, '\x00' ∉ bytes op) → (∀ op ∈ ops, (bytes op).length < 2 ^ 32) →
      run m term s0 (ops ++ [.flush]) = some (s, rs) → (∀ r ∈ rs, ∃ n, r = .ok n) →
      s.out = s0.out ++ s0.buf ++ (ops.map bytes).flatten ∧ s.buf = [] ∧
        rs = (ops ++ [Op.flush]).map fun op => .ok (consoleCount op) := by
    intro ops
    induction ops with
    | nil =>
      intro s0 s rs hb hn _ _ _ h hr
      simp only [List.nil_append, run] at h
      rcases C135.step_told term .flush (by simp) (by simp [bytes]) (by simp [bytes]) s0 hb hn m hm with
        ⟨s', h1, h2, h3, h4, h5⟩ | ⟨s', _, h1, h2, _⟩
      · rw [h1] at h
        simp only [Option.map_some, Option.some.injEq, Prod.mk.injEq] at h
        obtain ⟨rfl, rfl⟩ := h
        rw [h5 rfl] at h2
        simp only [List.append_nil, bytes] at h2
        simp [h2, h5 rfl]
      · rw [h1] at h
        simp only [Option.map_some, Option.some.injEq, Prod.mk.injEq] at h
        obtain ⟨rfl, rfl⟩ := h
        obtain ⟨n, hn'⟩ := hr (.error .writeError) (by simp)
        cases hn'
    | cons op ops ih =>
      intro s0 s rs hb hn hd h0 hl h hr
      simp only [List.cons_append, run] at h
      rcases C135.step_told term op (fun e => hd (by simp [e])) (h0 op (by simp)) (hl op (by simp)) s0 hb hn m hm with
        ⟨s', h1, h2, h3, h4, _⟩ | ⟨s', _, h1, h2, _⟩
      · rw [h1] at h
        simp only [] at h
        rcases hrun : run m term s' (ops ++ [.flush]) with _ | ⟨s1, rs1⟩
        · rw [hrun] at h; simp at h
        · rw [hrun] at h
          simp only [Option.map_some, Option.some.injEq, Prod.mk.injEq] at h
          obtain ⟨rfl, rfl⟩ := h
          obtain ⟨g1, g2, g3⟩ := ih s' s1 rs1 h3 h4 (fun e => hd (by simp [e])) (fun o ho => h0 o (by simp [ho]))
            (fun o ho => hl o (by simp [ho])) hrun (fun r hr' => hr r (by simp [hr']))
          refine ⟨?_, g2, ?_⟩
          · rw [g1, h2]; simp
          · rw [g3]; simp
      · rw [h1] at h
        simp only [] at h
        rcases hrun : run m term s' (ops ++ [.flush]) with _ | ⟨s1, rs1⟩
        · rw [hrun] at h; simp at h
        · rw [hrun] at h
          simp only [Option.map_some, Option.some.injEq, Prod.mk.injEq] at h
          obtain ⟨rfl, rfl⟩ := h
          obtain ⟨n, hn'⟩ := hr (.error .writeError) (by simp)
          cases hn'
  simpa using key ops ⟨[], [], 0⟩ s rs (by simp) (by simp) hd h0 hl h hr

/-- **C135.** A terminal that accepts makes every call return. -/
theorem C135_accepted (m : Mode) (term : ℕ → Answer) (hm : ∀ i, term i = none) (ops : List Op)
    (hd : Op.destroy ∉ ops) (h0 : ∀ op ∈ ops, '\x00' ∉ bytes op) (hl : ∀ op ∈ ops, (bytes op).length < 2 ^ 32) :
    ∃ s, run m term ⟨[], [], 0⟩ ops = some (s, ops.map fun op => .ok (consoleCount op)) ∧
      s.out ++ s.buf = (ops.map bytes).flatten ∧ s.buf.length < 4095 := by
  have key : ∀ (ops : List Op) (s0 : St), s0.buf.length < 4095 → '\x00' ∉ s0.buf →
      Op.destroy ∉ ops → (∀ op ∈ ops, '\x00' ∉ bytes op) → (∀ op ∈ ops, (bytes op).length < 2 ^ 32) →
      ∃ s, run m term s0 ops = some (s, ops.map fun op => .ok (consoleCount op)) ∧
        s.out ++ s.buf = s0.out ++ s0.buf ++ (ops.map bytes).flatten ∧ s.buf.length < 4095 := by
    intro ops
    induction ops with
    | nil => intro s0 hb _ _ _ _; exact ⟨s0, rfl, by simp, hb⟩
    | cons op ops ih =>
      intro s0 hb hn hd h0 hl
      rcases C135.step_told term op (fun e => hd (by simp [e])) (h0 op (by simp)) (hl op (by simp)) s0 hb hn m
        (.inr hm) with ⟨s', h1, h2, h3, h4, _⟩ | ⟨s', _, _, _, i, hi⟩
      · obtain ⟨s, g1, g2, g3⟩ := ih s' h3 h4 (fun e => hd (by simp [e])) (fun o ho => h0 o (by simp [ho]))
          (fun o ho => hl o (by simp [ho]))
        refine ⟨s, ?_, ?_, g3⟩
        · simp only [run, h1, g1, Option.map_some, List.map_cons]
        · rw [g2, h2]; simp
      · rw [hm] at hi; simp at hi
  simpa using key ops ⟨[], [], 0⟩ (by simp) (by simp) hd h0 hl

/-- The hypotheses are met; the second flush of this terminal is refused. -/
example : run .debug (fun i => if i = 1 then some 0 else none) ⟨[], [], 0⟩
      [.put 'a', .flush, .puts ['b', 'c'], .flush, .put 'd', .flush] =
    some (⟨[], ['a', 'd'], 3⟩, [.ok 1, .ok 0, .ok 2, .error .writeError, .ok 1, .ok 0]) := by decide +kernel

/-- **C135, refuted**: in a release build everything can be lost without a sign: on a terminal that refuses everything
every write of every history returns the number of its bytes. -/
theorem C135_fails_silent (ops : List Op) (hl : ∀ op ∈ ops, (bytes op).length < 2 ^ 32) :
    ∃ s, run .release (fun _ => some 0) ⟨[], [], 0⟩ ops = some (s, ops.map fun op => .ok (consoleCount op)) ∧
      s.out = [] := by
  have zero : ∀ (bs : List (List Char)) (i : ℕ), shownFrom (fun _ => some 0) i bs = [] := by
    intro bs
    induction bs with
    | nil => intro i; rfl
    | cons b bs ih => intro i; rw [shownFrom, ih]; simp [shown]
  have key : ∀ (ops : List Op) (s0 : St), s0.buf.length < 4095 → s0.out = [] →
      (∀ op ∈ ops, (bytes op).length < 2 ^ 32) →
      ∃ s, run .release (fun _ => some 0) s0 ops = some (s, ops.map fun op => .ok (consoleCount op)) ∧ s.out = [] := by
    intro ops
    induction ops with
    | nil => intro s0 _ h _; exact ⟨s0, rfl, h⟩
    | cons op ops ih =>
      intro s0 hb ho hl
      have one : ∃ s', step .release (fun _ => some 0) s0 op = .ok s' (consoleCount op) ∧ s'.buf.length < 4095 ∧
          s'.out = [] := by
        have write : ∀ cs : List Char, cs.length < 2 ^ 32 → ∃ s',
            puts .release (fun _ => some 0) s0 cs = .ok s' cs.length ∧ s'.buf.length < 4095 ∧ s'.out = [] := by
          intro cs hcs
          refine ⟨_, C135_write_release _ s0 cs hb hcs, (join_blocks _ _ (le_refl _)).2.1, ?_⟩
          simp only []
          rw [zero, ho]; rfl
        cases op with
        | put c =>
          rw [C135_character _ _ s0 c hb]
          exact write [c] (by simp)
        | puts cs => exact write cs (hl (.puts cs) (by simp))
        | flush => exact ⟨_, rfl, by simp, by simp [ho]⟩
        | destroy => exact ⟨_, rfl, by simp, by simp [ho]⟩
      obtain ⟨s', h1, h2, h3⟩ := one
      obtain ⟨s, g1, g2⟩ := ih s' h2 h3 (fun o ho' => hl o (by simp [ho']))
      refine ⟨s, ?_, g2⟩
      simp only [run, h1, g1, Option.map_some, List.map_cons]
  exact key ops ⟨[], [], 0⟩ (by simp) rfl hl

/-- **C135, refuted**: a console that is destroyed without a flush takes what is waiting with it. -/
theorem C135_fails_destroyed (m : Mode) (term : ℕ → Answer) (cs : List Char) (h : cs.length < 4095) :
    run m term ⟨[], [], 0⟩ [.puts cs, .destroy] = some (⟨[], [], 0⟩, [.ok cs.length, .ok 0]) := by
  have hb : blocks 4095 ([] ++ cs) = [] ∧ rest 4095 ([] ++ cs) = cs := by
    rw [List.nil_append]; exact blocks_short h
  have hp : puts m term ⟨[], [], 0⟩ cs = .ok ⟨cs, [], 0⟩ cs.length := by
    rw [puts_eq _ _ _ _ (by omega) (by simp), hb.1, hb.2, after]
  simp [run, step, hp]

example : run .debug (fun _ => none) ⟨[], [], 0⟩ [.puts ['h', 'i'], .destroy] =
    some (⟨[], [], 0⟩, [.ok 2, .ok 0]) := C135_fails_destroyed .debug _ ['h', 'i'] (by decide)

/-- **C135, refuted**: a write that throws has put a part of its bytes on the terminal, and does not say which; if it
is repeated, that part is shown twice. -/
theorem C135_fails_repeated (k : ℕ) (cs : List Char) (h1 : 4095 ≤ cs.length) (h2 : cs.length < 8190)
    (h0 : '\x00' ∉ cs) (hk : k ≤ 4095) :
    run .debug (fun i => if i = 0 then some k else none) ⟨[], [], 0⟩ [.puts cs, .puts cs, .flush] =
      some (⟨[], cs.take k ++ cs, 3⟩, [.error .writeError, .ok cs.length, .ok 0]) := by
  have hd : (cs.drop 4095).length < 4095 := by rw [List.length_drop]; omega
  have hb : blocks 4095 ([] ++ cs) = [cs.take 4095] ∧ rest 4095 ([] ++ cs) = cs.drop 4095 := by
    rw [List.nil_append, (blocks_long (by norm_num) h1).1, (blocks_long (by norm_num) h1).2, (blocks_short hd).1,
      (blocks_short hd).2]
    exact ⟨rfl, rfl⟩
  have ht : '\x00' ∉ cs.take 4095 := fun hx => h0 (List.mem_of_mem_take hx)
  have hdr : '\x00' ∉ cs.drop 4095 := fun hx => h0 (List.mem_of_mem_drop hx)
  have p1 : puts .debug (fun i => if i = 0 then some k else none) ⟨[], [], 0⟩ cs =
      .throw ⟨[], cs.take k, 1⟩ .writeError := by
    rw [puts_eq _ _ _ _ (by omega) (by simp), hb.1, hb.2, after_debug (k := k) (by simp)]
    unfold shown
    simp only []
    rw [takeWhile_all ht, List.take_take, Nat.min_eq_left hk]
    simp
  have p2 : puts .debug (fun i => if i = 0 then some k else none) ⟨[], cs.take k, 1⟩ cs =
      .ok ⟨cs.drop 4095, cs.take k ++ cs.take 4095, 2⟩ cs.length := by
    rw [puts_eq _ _ _ _ (by omega) (by simp), hb.1, hb.2, after_none (by simp), after]
    unfold shown
    simp only []
    rw [takeWhile_all ht]
  have p3 : flush .debug (fun i => if i = 0 then some k else none) ⟨cs.drop 4095, cs.take k ++ cs.take 4095, 2⟩ =
      .ok ⟨[], cs.take k ++ cs, 3⟩ 0 := by
    unfold flush
    simp only []
    rw [if_neg (by decide), takeWhile_all hdr]
    simp only [List.append_assoc, List.take_append_drop]
  simp [run, step, p1, p2, p3]

/-- **C135, refuted**: a write of 2^32 bytes or more never ends, whatever the terminal answers in a release build; on a
terminal that accepts, the output grows without bound. -/
theorem C135_fails_endless (m : Mode) (term : ℕ → Answer) (s : St) (cs : List Char) (hb : s.buf.length < 4095)
    (hc : 2 ^ 32 ≤ cs.length) :
    ((m = .release ∨ ∀ i, term i = none) → (∀ k, ∃ s' w, passes m term cs k s 0 = .running s' w) ∧
      step m term s (.puts cs) = .endless) ∧
    ((∀ i, term i = none) → '\x00' ∉ s.buf → '\x00' ∉ cs →
      ∀ n, ∃ k s' w, passes m term cs k s 0 = .running s' w ∧ n ≤ s'.out.length) := by
  have hc' : 4294967296 ≤ cs.length := by simpa using hc
  refine ⟨fun hm => ⟨fun k => running m term hm cs hc' k s 0 (by norm_num) hb, ?_⟩, fun hm hn h0 n =>
    grows m term hm cs h0 hc' n s 0 ⟨by norm_num, hb, hn⟩⟩
  obtain ⟨s', w, h⟩ := running m term hm cs hc' (cs.length + 1) s 0 (by norm_num) hb
  show puts m term s cs = _
  unfold puts
  rw [h]

example : 2 ^ 32 ≤ (List.replicate (2 ^ 32) 'a').length := by rw [List.length_replicate]

/-- The same call for the consoles of C24. -/
def plainCall : Op → Console.Op
  | .put c => .put c
  | .puts cs => .puts cs
  | .flush => .flush
  | .destroy => .flush

/-- **C135.** On a terminal that accepts, the consoles are those of C24, in both builds, for all bytes: each call
leaves the same buffer and the same output and returns the same number, and it does not end if it does not there. -/
theorem C135_agrees (m : Mode) (s : St) (op : Op) (hd : op ≠ .destroy) (hb : s.buf.length < 4095) :
    match step m (fun _ => none) s op, Console.step ⟨s.buf, s.out⟩ (plainCall op) with
    | .ok s' n, .ok c n' => c = ⟨s'.buf, s'.out⟩ ∧ n = n'
    | .endless, .ub => True
    | _, _ => False := by
  have acc : ∀ cs : List Char, cs.length < 4294967296 → puts m (fun _ => none) s cs =
      .ok ⟨rest 4095 (s.buf ++ cs), s.out ++ shownFrom (fun _ => none) s.asked (blocks 4095 (s.buf ++ cs)),
        s.asked + (blocks 4095 (s.buf ++ cs)).length⟩ cs.length := by
    intro cs hc
    cases m
    · exact (C135_write_debug _ s cs hb (by simpa using hc)).1 fun _ _ => rfl
    · exact C135_write_release _ s cs hb (by simpa using hc)
  cases op with
  | put c =>
    rw [C135_character _ _ _ _ hb]
    show match puts m (fun _ => none) s [c], Console.step ⟨s.buf, s.out⟩ (.put c) with
      | .ok s' n, .ok c n' => c = ⟨s'.buf, s'.out⟩ ∧ n = n'
      | .endless, .ub => True
      | _, _ => False
    rw [acc [c] (by simp)]
    have hput : Console.put ⟨s.buf, s.out⟩ c =
        .ok (⟨rest 4095 (s.buf ++ [c]), s.out ++ shownFrom (fun _ => none) s.asked (blocks 4095 (s.buf ++ [c]))⟩, 1) := by
      unfold Console.put Buf.append1
      rw [if_neg (by rw [full_iff]; simp only []; omega), if_pos (by simp only [Console.cap]; omega)]
      simp only [Outcome.bind_ok]
      by_cases hf : (s.buf ++ [c]).length = 4095
      · rw [if_pos ((full_iff _).2 hf), (blocks_full hf).1, (blocks_full hf).2]
        simp [Console.flush, shownFrom, shown]
      · have hl : (s.buf ++ [c]).length < 4095 := by
          rw [List.length_append, List.length_singleton] at hf ⊢; omega
        rw [if_neg (fun h => hf ((full_iff _).1 h)), (blocks_short hl).1, (blocks_short hl).2]
        simp [shownFrom]
    simp [Console.step, hput]
  | puts cs =>
    by_cases hc : cs.length < 4294967296
    · have h := acc cs hc
      have hp : Console.puts ⟨s.buf, s.out⟩ cs = .ok (⟨rest 4095 (s.buf ++ cs),
          s.out ++ shownFrom (fun _ => none) s.asked (blocks 4095 (s.buf ++ cs))⟩, cs.length) := by
        unfold Console.puts
        rw [if_pos hc, loop_eq _ _ cs s.asked (by omega) hb]
        rfl
      simp [step, plainCall, Console.step, h, hp]
    · have h := ((C135_fails_endless m (fun _ => none) s cs hb (by simpa using hc)).1 (.inr fun _ => rfl)).2
      have hp : Console.puts ⟨s.buf, s.out⟩ cs = .ub := by
        unfold Console.puts
        rw [if_neg hc]
      rw [h]
      simp [plainCall, Console.step, hp]
  | flush => simp [step, flush, plainCall, Console.step, Console.flush]
  | destroy => exact absurd rfl hd

end Ecl.Props
