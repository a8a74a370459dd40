import Verif.Spec.Terminals
import Verif.Spec.Text
import Verif.Props.C10_C15_Converters
import Mathlib.Data.List.TakeWhile

/-!
# C103: the terminal programs send what is typed
-/
set_option autoImplicit false
set_option linter.unusedSimpArgs false

namespace Ecl.Props
open Ecl Ecl.Terminal Ecl.Spec

/-! ## Lemmas -/

private theorem line_append : ∀ (n : Nat) (i : Text), (line n i).1 ++ (line n i).2 = i
  | 0, i => by simp [line]
  | _ + 1, [] => by simp [line]
  | n + 1, c :: cs => by
    simp only [line]
    split
    · simp
    · simp [line_append n cs]

private theorem line_length : ∀ (n : Nat) (i : Text), (line n i).1.length ≤ n
  | 0, i => by simp [line]
  | _ + 1, [] => by simp [line]
  | n + 1, c :: cs => by
    simp only [line]
    split
    · simp
    · simpa using line_length n cs

private theorem cstr_eq {t : Text} (h : '\x00' ∉ t) : cstr t = t := by
  refine List.takeWhile_eq_self_iff.2 fun c hc => ?_
  simp only [ne_eq, decide_eq_true_eq]
  rintro rfl
  exact h hc

/-- One round. -/
theorem writer_cons (each : Text → List Ev × Option End) {i : Text} (h : i ≠ []) :
    writer each i = match each (line 79 i).1 with
      | (es, some e) => (es, e)
      | (es, none) => (es ++ (writer each (line 79 i).2).1, (writer each (line 79 i).2).2) := by
  have : fgets 80 i = some (line 79 i) := by simp [fgets, h]
  rw [writer]
  split
  · rename_i h2; rw [this] at h2; cases h2
  · rename_i l rest h2
    rw [this] at h2
    have h3 := Option.some.inj h2
    rw [h3]
    rfl

theorem writer_nil (each : Text → List Ev × Option End) : writer each [] = ([], .eof) := by
  rw [writer]; simp [fgets]

private theorem sent_append (a b : List Ev) : sent (a ++ b) = sent a ++ sent b := by simp [sent]
private theorem screen_append (a b : List Ev) : screen (a ++ b) = screen a ++ screen b := by simp [screen]

/-- A writer that sends every line. -/
private theorem writer_sends (each : Text → List Ev × Option End) (h1 : ∀ l, (each l).2 = none)
    (h2 : ∀ l, sent (each l).1 = bytes (cstr l))
    (h3 : ∀ l bs, .send bs ∈ (each l).1 → bs = bytes (cstr l)) :
    ∀ (n : Nat) (i : Text), i.length = n → '\x00' ∉ i →
      sent (writer each i).1 = codes i ∧ (writer each i).2 = .eof ∧
      ∀ bs, .send bs ∈ (writer each i).1 → 0 < bs.length ∧ bs.length ≤ 79 := by
  intro n
  induction n using Nat.strong_induction_on with
  | _ n ih =>
    intro i hn h0
    by_cases hi : i = []
    · subst hi; rw [writer_nil]; simp [sent, codes]
    · have ha := line_append 79 i
      have hlt : (line 79 i).2.length < i.length := line_lt 78 i hi
      have hl0 : '\x00' ∉ (line 79 i).1 := fun h => h0 (by rw [← ha]; simp [h])
      have hr0 : '\x00' ∉ (line 79 i).2 := fun h => h0 (by rw [← ha]; simp [h])
      obtain ⟨k1, k2, k3⟩ := ih _ (by omega) _ rfl hr0
      have hw : writer each i = ((each (line 79 i).1).1 ++ (writer each (line 79 i).2).1, (writer each (line 79 i).2).2) := by
        rw [writer_cons each hi]
        have := h1 (line 79 i).1
        split <;> rename_i es h <;> rw [h] at this ⊢
        · cases this
      rw [hw]
      refine ⟨?_, k2, ?_⟩
      · rw [sent_append, h2, k1, cstr_eq hl0]
        conv_rhs => rw [← ha]
        simp [codes, bytes]
      · intro bs hbs
        rcases List.mem_append.1 hbs with hbs | hbs
        · rw [h3 _ _ hbs, cstr_eq hl0]
          have := line_length 79 i
          have hlen := congrArg List.length ha
          rw [List.length_append] at hlen
          simp only [bytes, List.length_map]
          omega
        · exact k3 bs hbs

/-- **C103**: the terminal of a serial port sends exactly what is typed, in pieces of at most 79 characters, until
the input ends.  (For text without NUL characters.) -/
theorem C103_serial (ts : Bool) (input : List Char) (h : '\x00' ∉ input) :
    sent (serialWriter ts input).1 = codes input ∧ (serialWriter ts input).2 = .eof ∧
      ∀ bs, .send bs ∈ (serialWriter ts input).1 → 0 < bs.length ∧ bs.length ≤ 79 := by
  refine writer_sends _ (fun l => rfl) (fun l => ?_) (fun l bs hb => ?_) _ input rfl h
  · cases ts <;> simp [serialEach, sent]
  · cases ts <;> simpa [serialEach] using hb

/-- **C103**: the terminals of sockets send exactly what is typed, in pieces of at most 79 characters, and show it. -/
theorem C103_socket (ts : Bool) (input : List Char) (h : '\x00' ∉ input) :
    (sent (socketWriter ts input).1 = codes input ∧ (socketWriter ts input).2 = .eof ∧
      ∀ bs, .send bs ∈ (socketWriter ts input).1 → 0 < bs.length ∧ bs.length ≤ 79) ∧
    screen (socketWriter ts input).1 = input := by
  refine ⟨writer_sends _ (fun l => rfl) (fun l => ?_) (fun l bs hb => ?_) _ input rfl h, ?_⟩
  · cases ts <;> simp [socketEach, sent]
  · cases ts <;> simpa [socketEach] using hb
  · have gen : ∀ (n : Nat) (i : Text), i.length = n → '\x00' ∉ i → screen (socketWriter ts i).1 = i := by
      intro n
      induction n using Nat.strong_induction_on with
      | _ n ih =>
        intro i hn h0
        unfold socketWriter
        by_cases hi : i = []
        · subst hi; rw [writer_nil]; simp [screen]
        · have ha := line_append 79 i
          have hlt : (line 79 i).2.length < i.length := line_lt 78 i hi
          have hl0 : '\x00' ∉ (line 79 i).1 := fun h => h0 (by rw [← ha]; simp [h])
          have hr0 : '\x00' ∉ (line 79 i).2 := fun h => h0 (by rw [← ha]; simp [h])
          have k := ih _ (by omega) _ rfl hr0
          rw [writer_cons _ hi]
          simp only [socketEach]
          rw [screen_append, show (writer (socketEach ts) (line 79 i).2).1 = (socketWriter ts (line 79 i).2).1 from rfl, k]
          conv_rhs => rw [← ha]
          congr 1
          cases ts <;> simp [screen, cstr_eq hl0]
    exact gen _ input rfl h

example : '\x00' ∉ "ls -l\nexit\n".toList := by decide
example : serialWriter false "ls\nq".toList = ([.send [108, 115, 10], .send [113]], .eof) := by
  unfold serialWriter
  rw [writer_cons _ (by decide)]
  simp only [serialEach, show (line 79 "ls\nq".toList) = ("ls\n".toList, "q".toList) by decide]
  rw [writer_cons _ (by decide)]
  simp only [show (line 79 "q".toList) = ("q".toList, []) by decide, writer_nil]
  decide

/-- **C103** fails: what follows a NUL character in a line is not sent. -/
theorem C103_fails_nul (ts : Bool) (a b : List Char) (ha : '\n' ∉ a) (hb : '\n' ∉ b) (hn : '\x00' ∉ a)
    (hlen : a.length + b.length ≤ 77) : sent (serialWriter ts (a ++ '\x00' :: b ++ ['\n'])).1 = codes a := by
  have hline : ∀ (l : List Char) (n : Nat), '\n' ∉ l → l.length < n → line n (l ++ ['\n']) = (l ++ ['\n'], []) := by
    intro l
    induction l with
    | nil => intro n _ hn; cases n <;> simp [line] at hn ⊢
    | cons c cs ih =>
      intro n hc hn
      cases n with
      | zero => simp at hn
      | succ n =>
        simp only [List.mem_cons, not_or] at hc
        have := ih n hc.2 (by simpa using hn)
        simp [line, this, Ne.symm hc.1]
  have h1 := hline (a ++ '\x00' :: b) 79 (by simp [ha, hb]) (by simp; omega)
  unfold serialWriter
  rw [writer_cons _ (by simp), h1]
  have hc : cstr (a ++ '\x00' :: b ++ ['\n']) = a := by
    unfold cstr
    rw [List.append_assoc, List.takeWhile_append_of_pos]
    · simp
    · intro c hc
      simp only [ne_eq, decide_eq_true_eq]
      rintro rfl
      exact hn hc
  simp only [serialEach, writer_nil, hc]
  cases ts <;> simp [sent, bytes, codes]

/-! ## The hexadecimal terminal -/

private theorem hex_char {c : Char} {a : Nat} (h : Hex c a) : c ≠ '\n' ∧ c ≠ '\x00' := by
  have h1 : ∀ c ∈ "0123456789abcdef".toList, c ≠ '\n' ∧ c ≠ '\x00' := by decide
  have h2 : ∀ c ∈ "0123456789ABCDEF".toList, c ≠ '\n' ∧ c ≠ '\x00' := by decide
  rcases h with h | h
  · exact h1 c (List.of_mem_zip h).1
  · exact h2 c (List.of_mem_zip h).1

private theorem hexText_chars {s : List Char} {bs : List Nat} (h : HexText s bs) : ∀ c ∈ s, c ≠ '\n' ∧ c ≠ '\x00' := by
  induction h with
  | nil => simp
  | blank _ ih => intro c hc; rcases List.mem_cons.1 hc with rfl | hc; · decide
                  · exact ih c hc
  | tok h1 h2 _ ih =>
    intro c hc
    simp only [List.mem_cons] at hc
    rcases hc with rfl | rfl | rfl | rfl | hc
    · decide
    · decide
    · exact hex_char h1
    · exact hex_char h2
    · exact ih c hc

private theorem line_all : ∀ (l : List Char) (n : Nat), '\n' ∉ l → l.length ≤ n → line n l = (l, [])
  | [], n, _, _ => by cases n <;> rfl
  | c :: cs, 0, _, h => by simp at h
  | c :: cs, n + 1, h, hn => by
    simp only [List.mem_cons, not_or] at h
    simp [line, Ne.symm h.1, line_all cs n h.2 (by simpa using hn)]

private theorem line_newline (rest : List Char) : ∀ (l : List Char) (n : Nat), '\n' ∉ l → l.length < n →
    line n (l ++ '\n' :: rest) = (l ++ ['\n'], rest)
  | [], 0, _, h => by simp at h
  | [], n + 1, _, _ => by simp [line]
  | c :: cs, 0, _, h => by simp at h
  | c :: cs, n + 1, h, hn => by
    simp only [List.mem_cons, not_or] at h
    simp [line, Ne.symm h.1, line_newline rest cs n h.2 (by simpa using hn)]

/-- **C103** fails: the hexadecimal terminal sends nothing for any complete line: the end of the line is taken for a
part of the bytes and refused.  A debug build ends with the exception; a release build asks for the first of
no bytes. -/
theorem C103_fails_hex_line (ts : Bool) (l rest : List Char) (hn : '\n' ∉ l) (h0 : '\x00' ∉ l) (hlen : l.length ≤ 78) :
    hexWriter .debug ts (l ++ '\n' :: rest) = ([], .terminated) ∧
    hexWriter .release ts (l ++ '\n' :: rest) = ([.show ['\n']], .undefined) := by
  have hl := line_newline rest l 79 hn (by omega)
  have hc : cstr (l ++ ['\n']) = l ++ ['\n'] := cstr_eq (by simp [h0])
  obtain ⟨r1, r2⟩ := C12_rejects (l ++ ['\n']) (by
    rintro ⟨bs, pre, t, e, hp, ht⟩
    have hm : '\n' ∈ pre ++ t := by rw [← e]; simp
    rcases List.mem_append.1 hm with hm | hm
    · exact (hexText_chars hp _ hm).1 rfl
    · rcases ht with rfl | rfl | rfl | ⟨h, a, hh, rfl⟩
      · simp at hm
      · simp at hm
      · simp at hm
      · simp only [List.mem_cons, List.not_mem_nil, or_false] at hm
        rcases hm with hm | hm | hm
        · exact absurd hm (by decide)
        · exact absurd hm (by decide)
        · exact (hex_char hh).1 hm.symm)
  constructor
  · unfold hexWriter
    rw [writer_cons _ (by simp), hl]
    simp only [hexEach, hc, r1]
  · unfold hexWriter
    rw [writer_cons _ (by simp), hl]
    simp only [hexEach, hc, r2, if_true]

/-- **C103** (partial): what the hexadecimal terminal does with bytes typed without the end of a line, followed by
the end of the input.  Missing: complete lines, and lines of more than 79 characters. -/
theorem C103_hex_partial (m : Mode) (ts : Bool) (l : List Char) (bs : List Nat) (h : HexText l bs) (hb : bs ≠ [])
    (hlen : l.length ≤ 79) : sent (hexWriter m ts l).1 = bs ∧ (hexWriter m ts l).2 = .eof := by
  have hl := line_all l 79 (fun hm => (hexText_chars h _ hm).1 rfl) hlen
  have hc : cstr l = l := cstr_eq (fun hm => (hexText_chars h _ hm).2 rfl)
  have hne : l ≠ [] := by rintro rfl; cases h; exact hb rfl
  unfold hexWriter
  rw [writer_cons _ hne, hl]
  simp only [hexEach, hc, C12_accepts m l bs h, if_neg hb, writer_nil]
  cases ts <;> simp [sent]

example : HexText "0x41 0xfF".toList [65, 255] :=
  .tok (a := 4) (b := 1) (by decide) (by decide) (.blank (.tok (a := 15) (b := 15) (by decide) (by decide) .nil))
example : '\n' ∉ "0x41 0xfF".toList ∧ '\x00' ∉ "0x41 0xfF".toList ∧ "0x41 0xfF".toList.length ≤ 78 := by decide

/-- **C103** fails: a line of more than 79 characters is cut, here in the middle of its 20th byte, which is dropped. -/
theorem C103_fails_hex_long (ts : Bool) :
    sent (hexWriter .debug ts ((List.replicate 20 "0x41".toList).flatten)).1 = List.replicate 19 65 ∧
    (hexWriter .debug ts ((List.replicate 20 "0x41".toList).flatten)).2 = .terminated := by
  unfold hexWriter
  rw [writer_cons _ (by decide)]
  have h1 : hexEach .debug ts (line 79 (List.replicate 20 "0x41".toList).flatten).1 =
      ([.show ['\n'], .send (List.replicate 19 65)] ++ (if ts then [.stamp, .time] else []), none) := by
    cases ts <;> decide +kernel
  have h2 : (line 79 (List.replicate 20 "0x41".toList).flatten).2 = ['1'] := by decide +kernel
  simp only [h1, h2]
  rw [writer_cons _ (by decide)]
  have h3 : hexEach .debug ts (line 79 ['1']).1 = ([], some .terminated) := by cases ts <;> decide +kernel
  simp only [h3]
  cases ts <;> simp [sent]

end Ecl.Props
