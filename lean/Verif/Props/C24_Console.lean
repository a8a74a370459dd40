import Verif.Model.Console
import Mathlib.Data.List.TakeWhile

/-!
# C24: console output, and C70: console input
-/
set_option autoImplicit false
set_option linter.unusedSimpArgs false

namespace Ecl.Props
open Console (Op)

/-! ## C24 -/

/-- The bytes handed over by a call. -/
def conBytes : Op → List Char
  | .put c => [c]
  | .puts cs => cs
  | .flush => []

/-- The number a call should return: the number of bytes it took. -/
def conCount : Op → Nat
  | .put _ => 1
  | .puts cs => cs.length
  | .flush => 0

private theorem takeWhile_noNul {l : List Char} (h : '\x00' ∉ l) : l.takeWhile (· ≠ '\x00') = l := by
  rw [List.takeWhile_eq_self_iff]
  intro c hc
  simp only [decide_eq_true_eq, ne_eq]
  rintro rfl; exact h hc

private theorem loop_ok : ∀ (f : Nat) (s : Console) (cs : List Char), '\x00' ∉ s.buf → '\x00' ∉ cs →
    s.buf.length < Console.cap → cs.length < f →
    ∃ s', Console.loop f s cs = .ok s' ∧ s'.out ++ s'.buf = s.out ++ s.buf ++ cs ∧
      '\x00' ∉ s'.buf ∧ s'.buf.length < Console.cap := by
  intro f
  induction f with
  | zero => intro s cs _ _ _ h; omega
  | succ f ih =>
    intro s cs hb hc hl hf
    cases cs with
    | nil => exact ⟨s, by simp [Console.loop], by simp, hb, hl⟩
    | cons c cs =>
      unfold Console.loop
      simp only [Buf.append]
      rw [if_neg (by omega)]
      by_cases h : (c :: cs).length ≤ Console.cap - s.buf.length
      · rw [if_pos h]
        simp only [Outcome.bind_ok, List.drop_length]
        have hn : '\x00' ∉ s.buf ++ (c :: cs) := by
          intro h; rcases List.mem_append.1 h with h | h
          · exact hb h
          · exact hc h
        by_cases hfull : Buf.full Console.cap (s.buf ++ c :: cs) = true
        · rw [if_pos hfull]
          refine ⟨Console.flush ⟨s.buf ++ c :: cs, s.out⟩, by cases f <;> simp [Console.loop], ?_, ?_, ?_⟩
          · simp only [Console.flush]; rw [takeWhile_noNul hn]; simp
          · simp [Console.flush]
          · simp [Console.flush, Console.cap]
        · rw [if_neg hfull]
          refine ⟨⟨s.buf ++ c :: cs, s.out⟩, by cases f <;> simp [Console.loop], by simp, hn, ?_⟩
          simp only [Buf.full, beq_iff_eq, List.length_append] at hfull ⊢
          omega
      · rw [if_neg h]
        simp only [Outcome.bind_ok]
        have hk : 0 < Console.cap - s.buf.length := by omega
        generalize hK : Console.cap - s.buf.length = K at h hk
        have hn : '\x00' ∉ s.buf ++ (c :: cs).take K := by
          intro h; rcases List.mem_append.1 h with h | h
          · exact hb h
          · exact hc (List.mem_of_mem_take h)
        have hfull : Buf.full Console.cap (s.buf ++ (c :: cs).take K) = true := by
          simp only [Buf.full, beq_iff_eq, List.length_append, List.length_take]
          omega
        rw [if_pos hfull]
        obtain ⟨s', h1, h2, h3, h4⟩ := ih (Console.flush ⟨s.buf ++ (c :: cs).take K, s.out⟩)
          ((c :: cs).drop K) (by simp [Console.flush])
          (fun h => hc (List.mem_of_mem_drop h)) (by simp [Console.flush, Console.cap])
          (by simp only [List.length_drop]; omega)
        refine ⟨s', h1, ?_, h3, h4⟩
        rw [h2]
        simp only [Console.flush]
        rw [takeWhile_noNul hn]
        simp only [List.append_nil, List.append_assoc]
        rw [List.take_append_drop]

/-- **C24, partial**: for every sequence of writes and flushes whose bytes are not NUL, followed by a
flush, every byte written reaches the terminal, once, in order, and every write returns the number of
its bytes.  Missing: NUL bytes (`C24_fails_nul`). -/
theorem C24_complete_partial (ops : List Op) (h0 : ∀ op ∈ ops, '\x00' ∉ conBytes op)
    (hl : ∀ op ∈ ops, (conBytes op).length < 2 ^ 32) :
    runOps Console.step ⟨[], []⟩ (ops ++ [.flush]) =
      some (⟨[], (ops.map conBytes).flatten⟩, (ops ++ [Op.flush]).map fun op => .ok (conCount op)) := by
  have key : ∀ (ops : List Op) (s : Console), '\x00' ∉ s.buf → s.buf.length < Console.cap →
      (∀ op ∈ ops, '\x00' ∉ conBytes op) → (∀ op ∈ ops, (conBytes op).length < 2 ^ 32) →
      runOps Console.step s (ops ++ [.flush]) =
        some (⟨[], s.out ++ s.buf ++ (ops.map conBytes).flatten⟩,
          (ops ++ [Op.flush]).map fun op => .ok (conCount op)) := by
    intro ops
    induction ops with
    | nil =>
      intro s hb _ _ _
      simp [runOps, Console.step, Console.flush, conCount]
      have := takeWhile_noNul hb
      simpa using this
    | cons op ops ih =>
      intro s hb hc h0 hl
      rw [List.cons_append, runOps_cons]
      have one : ∃ s', Console.step s op = .ok s' (conCount op) ∧
          s'.out ++ s'.buf = s.out ++ s.buf ++ conBytes op ∧ '\x00' ∉ s'.buf ∧
          s'.buf.length < Console.cap := by
        cases op with
        | put c =>
          have hc0 : '\x00' ∉ [c] := h0 (.put c) (by simp)
          have hn : '\x00' ∉ s.buf ++ [c] := by
            intro h; rcases List.mem_append.1 h with h | h
            · exact hb h
            · exact hc0 h
          have hnf : ¬ (Buf.full Console.cap s.buf = true) := by
            simp only [Buf.full, beq_iff_eq]; omega
          simp only [Console.step, Console.put, Buf.append1]
          rw [if_neg hnf, if_pos hc]
          simp only [Outcome.bind_ok]
          by_cases hf : Buf.full Console.cap (s.buf ++ [c]) = true
          · rw [if_pos hf]
            refine ⟨_, rfl, ?_, by simp [Console.flush], by simp [Console.flush, Console.cap]⟩
            simp only [Console.flush]; rw [takeWhile_noNul hn]; simp [conBytes]
          · rw [if_neg hf]
            refine ⟨_, rfl, by simp [conBytes], hn, ?_⟩
            simp only [Buf.full, beq_iff_eq, List.length_append, List.length_cons, List.length_nil] at hf ⊢
            omega
        | puts cs =>
          have hlen : cs.length < 4294967296 := by simpa [conBytes] using hl (.puts cs) (by simp)
          obtain ⟨s', h1, h2, h3, h4⟩ := loop_ok (2 * cs.length + 1) s cs hb
            (by simpa [conBytes] using h0 (.puts cs) (by simp)) hc (by omega)
          refine ⟨s', ?_, by simpa [conBytes] using h2, h3, h4⟩
          simp [Console.step, Console.puts, hlen, h1, conCount]
        | flush =>
          refine ⟨Console.flush s, rfl, ?_, by simp [Console.flush], by simp [Console.flush, Console.cap]⟩
          simp only [Console.flush]; rw [takeWhile_noNul hb]; simp [conBytes]
      obtain ⟨s', h1, h2, h3, h4⟩ := one
      rw [h1]
      simp only [Res.obs, Option.bind_some]
      rw [ih s' h3 h4 (fun o ho => h0 o (by simp [ho])) (fun o ho => hl o (by simp [ho]))]
      simp [h2]
  simpa using key ops ⟨[], []⟩ (by simp) (by simp [Console.cap]) h0 hl

example : (∀ op ∈ [Op.put 'a', .puts (List.replicate 5000 'b'), .flush, .puts ['c', '\n']],
    '\x00' ∉ conBytes op) := by
  intro op h
  simp only [List.mem_cons, List.not_mem_nil, or_false] at h
  rcases h with rfl | rfl | rfl | rfl
  · simp [conBytes]
  · intro h; exact absurd (List.mem_replicate.1 h).2 (by decide)
  · simp [conBytes]
  · simp [conBytes]

/-- **C24, refuted**: a NUL byte, and every byte buffered behind it, never reaches the terminal. -/
theorem C24_fails_nul (a b : List Char) (ha : '\x00' ∉ a) (hl : (a ++ '\x00' :: b).length < 4095) :
    runOps Console.step ⟨[], []⟩ [.puts (a ++ '\x00' :: b), .flush] =
      some (⟨[], a⟩, [.ok (a ++ '\x00' :: b).length, .ok 0]) := by
  have h1 : (a ++ '\x00' :: b).length < 4294967296 := by omega
  have hne : ∃ x xs, a ++ '\x00' :: b = x :: xs := by
    cases a with
    | nil => exact ⟨_, _, rfl⟩
    | cons x xs => exact ⟨_, _, rfl⟩
  have htw : (a ++ '\x00' :: b).takeWhile (· ≠ '\x00') = a := by
    rw [List.takeWhile_append_of_pos]
    · simp
    · intro c hc; simp only [ne_eq, decide_eq_true_eq]; rintro rfl; exact ha hc
  obtain ⟨x, xs, hx⟩ := hne
  rw [hx] at h1 htw hl ⊢
  have hloop : Console.loop (2 * (x :: xs).length + 1) ⟨[], []⟩ (x :: xs) = .ok ⟨x :: xs, []⟩ := by
    have hnf : ¬ (Buf.full Console.cap (x :: xs) = true) := by
      simp only [Buf.full, beq_iff_eq, Console.cap]; omega
    unfold Console.loop
    simp only [Buf.append, List.length_nil, Nat.sub_zero]
    rw [if_neg (by omega), if_pos (by simp only [Console.cap]; omega)]
    simp only [Outcome.bind_ok, List.nil_append, List.drop_length]
    rw [if_neg hnf]
    simp [Console.loop]
  have hp : Console.puts ⟨[], []⟩ (x :: xs) = .ok (⟨x :: xs, []⟩, (x :: xs).length) := by
    unfold Console.puts
    rw [if_pos h1, hloop]
    rfl
  simp only [runOps, Console.step, hp, Console.flush, Option.map_some, List.nil_append]
  rw [htw]

/-! ## C70 -/

/-- **C70, partial**: reading one character delivers the next byte of the standard input and reports one
byte, for every byte other than 255, in both build modes. -/
theorem C70_read_partial (m : Mode) (b : Nat) (rest : List Nat) (hb : b < 255) :
    ∃ c, Console.readChar m (b :: rest) = .ok (rest, c, 1) ∧ c % 256 = b := by
  have h1 : ((b : Int) % 256) = b := by omega
  refine ⟨if (b : Int) < 128 then b else b - 256, ?_, ?_⟩
  · unfold Console.readChar
    simp only [h1, List.tail_cons]
    rw [if_neg (by split <;> omega)]
  · split <;> omega

/-- **C70, refuted**: the byte 255 is taken for the end of the input. -/
theorem C70_fails_byte_255 (rest : List Nat) :
    Console.readChar .debug (255 :: rest) = .throw .readError ∧
      Console.readChar .release (255 :: rest) = .ok (rest, -1, 0) ∧
      Console.readChar .release [] = .ok ([], -1, 0) := by
  unfold Console.readChar
  simp

/-- **C70**: at the end of the input both forms of `read` throw in debug builds and return 0 in release
builds. -/
theorem C70_end_of_input (n : Nat) :
    Console.readChar .debug [] = .throw .readError ∧ Console.readLine .debug [] n = .throw .readError ∧
      (∃ c, Console.readChar .release [] = .ok ([], c, 0)) ∧
      Console.readLine .release [] n = .ok ([], [], 0) := ⟨rfl, rfl, ⟨_, rfl⟩, rfl⟩

/-- **C70, partial**: reading a line delivers a non-empty prefix of the input: at most `n-1` bytes, up
to and including the first newline; if the input has no NUL byte, the returned length is the number of
bytes delivered, and the rest stays to be read. -/
theorem C70_line_partial (m : Mode) (input : List Nat) (n : Nat) (hn : 2 ≤ n) (h0 : 0 ∉ input)
    (hi : input ≠ []) :
    ∃ bs rest, Console.readLine m input n = .ok (rest, bs, bs.length) ∧ bs ++ rest = input ∧
      0 < bs.length ∧ bs.length ≤ n - 1 ∧ 10 ∉ bs.dropLast ∧
      (bs.length < n - 1 → rest = [] ∨ bs.getLast? = some 10) := by
  have key : ∀ (k : Nat) (l : List Nat), Console.fgetsBytes k l <+: l ∧
      (Console.fgetsBytes k l).length ≤ k ∧ 10 ∉ (Console.fgetsBytes k l).dropLast ∧
      ((Console.fgetsBytes k l).length < k → Console.fgetsBytes k l = l ∨
        (Console.fgetsBytes k l).getLast? = some 10) := by
    intro k
    induction k with
    | zero => intro l; simp [Console.fgetsBytes]
    | succ k ih =>
      intro l
      cases l with
      | nil => simp [Console.fgetsBytes]
      | cons b bs =>
        unfold Console.fgetsBytes
        by_cases hb : b = 10
        · subst hb; simp
        · rw [if_neg hb]
          obtain ⟨i1, i2, i3, i4⟩ := ih bs
          refine ⟨by simpa using i1, by simpa using i2, ?_, ?_⟩
          · cases hf : Console.fgetsBytes k bs with
            | nil => simp
            | cons x xs =>
              rw [hf] at i3
              simp only [List.dropLast_cons₂, List.mem_cons, not_or]
              exact ⟨fun h => hb h.symm, i3⟩
          · intro hlt
            simp only [List.length_cons] at hlt
            rcases i4 (by omega) with h | h
            · left; rw [h]
            · right
              cases hf : Console.fgetsBytes k bs with
              | nil => rw [hf] at h; simp at h
              | cons x xs => rw [hf] at h; rw [List.getLast?_cons_cons]; exact h
  obtain ⟨k1, k2, k3, k4⟩ := key (n - 1) input
  obtain ⟨rest, hr⟩ := k1
  have hnz : 0 ∉ Console.fgetsBytes (n - 1) input := by
    intro h; exact h0 (by rw [← hr]; exact List.mem_append_left _ h)
  have htw : (Console.fgetsBytes (n - 1) input).takeWhile (· ≠ 0) = Console.fgetsBytes (n - 1) input := by
    rw [List.takeWhile_eq_self_iff]
    intro c hc
    simp only [decide_eq_true_eq, ne_eq]
    rintro rfl; exact hnz hc
  refine ⟨Console.fgetsBytes (n - 1) input, rest, ?_, hr, ?_, k2, k3, ?_⟩
  · unfold Console.readLine
    rw [if_neg hi]
    simp only
    rw [htw]
    congr 2
    have := congrArg (List.drop (Console.fgetsBytes (n - 1) input).length) hr
    rw [List.drop_left] at this
    exact this.symm
  · cases input with
    | nil => exact absurd rfl hi
    | cons b bs =>
      obtain ⟨k, rfl⟩ : ∃ k, n = k + 2 := ⟨n - 2, by omega⟩
      simp only [Nat.add_one_sub_one, Console.fgetsBytes]
      split <;> simp
  · intro hlt
    rcases k4 hlt with h | h
    · left
      rw [h] at hr
      simpa using hr
    · exact .inr h

/-- **C70, refuted**: a NUL byte in a line makes the returned length shorter than the bytes consumed. -/
theorem C70_fails_nul : Console.readLine .debug [97, 0, 98, 10, 99] 100 = .ok ([99], [97, 0, 98, 10], 1) := by
  decide

example : Console.readLine .debug [104, 105, 10, 120] 3 = .ok ([10, 120], [104, 105], 2) ∧
    Console.readLine .debug [10, 120] 3 = .ok ([120], [10], 1) := by decide

end Ecl.Props
