import Verif.Lemmas.StringStream
import Verif.Props.C23_StringDevice

/-!
# C118: string streams
-/
set_option autoImplicit false
set_option linter.unusedSimpArgs false

namespace Ecl.Props
open Ecl.Spec Ecl.Spec.Values Ecl.StringStream Ecl.TextStream

namespace C118

/-- Calls within the guard of `C118_text_partial`: a single character needs a stream not cleared since
the last bulk write, and fewer than 256 single characters since then; integers are in the range of
their type and not its minimum; real numbers fit the buffer of 30; the sizes stay below the limits of
`int` and `long`. -/
def Fine (t : Text) : Op → Prop
  | .putChar _ => (∃ k, t.run = some k ∧ k < 256) ∧ t.all.length < 2 ^ 62
  | .putText x => x.length + 256 < 2 ^ 31 ∧ t.all.length + x.length ≤ 2 ^ 62
  | .putInt ty i => InRange ty.bits ty.signed i ∧ i.natAbs ≤ ty.max ∧ t.all.length + 30 ≤ 2 ^ 62
  | .putBool _ => t.all.length + 30 ≤ 2 ^ 62
  | .putReal q => |q| < 10 ^ 19 ∧ t.all.length + 30 ≤ 2 ^ 62
  | _ => True

/-- Values that survive: integers in the range of their type and below `10*(maximum/10)` (C42),
words, booleans, and real numbers that fit the buffer of 30. -/
def Good : Item → Prop
  | .num t i => InRange t.bits t.signed i ∧ i.natAbs < 10 * (t.max / 10)
  | .word w => w ≠ [] ∧ (∀ c ∈ w, ¬ IsBlank c) ∧ w.length + 256 < 2 ^ 31
  | .bool _ => True
  | .real q => |q| < 10 ^ 19

/-- The most characters a use adds to the text. -/
def room : Use → Nat
  | .write (.word w) => w.length + 1
  | .write _ => 31
  | _ => 0

end C118
open C118

private theorem step_holds (s : Stream) (t : Text) (op : Op) (h : Holds s t) (hf : Fine t op) :
    ∃ s', (step s op).obs = some (s', (textStep t op).2) ∧ Holds s' (textStep t op).1 := by
  cases op with
  | putChar c =>
    obtain ⟨⟨k, hk, hk'⟩, hb⟩ := hf
    obtain ⟨s', h1, h2⟩ := h.putChar c k hk hk' (by simpa using hb)
    exact ⟨s', by simp [step, h1, wrote, Res.obs, textStep], h2⟩
  | putText x =>
    obtain ⟨s', h1, h2⟩ := h.putText x (by simpa using hf.1) (by simpa using hf.2)
    exact ⟨s', by simp [step, h1, wrote, Res.obs, textStep], h2⟩
  | putInt ty i =>
    obtain ⟨s', h1, h2⟩ := h.putInt ty i hf.1 hf.2.1 (by simpa using hf.2.2)
    exact ⟨s', by simp [step, h1, wrote, Res.obs, textStep], h2⟩
  | putBool b =>
    have hf : t.all.length + 30 ≤ 4611686018427387904 := by simpa [Fine] using hf
    obtain ⟨s', h1, h2⟩ := h.putText (if b then "true" else "false").toList
      (by cases b <;> simp) (by cases b <;> simp <;> omega)
    refine ⟨s', ?_, h2⟩
    have : putBool s b = .ok s' := by
      unfold putBool
      rw [← h1]
      cases b <;> rfl
    simp [step, this, wrote, Res.obs, textStep]
  | putReal q =>
    obtain ⟨s', h1, h2⟩ := h.putReal q hf.1 (by simpa using hf.2)
    exact ⟨s', by simp [step, h1, wrote, Res.obs, textStep], h2⟩
  | getChar old =>
    obtain ⟨s', h1, h2⟩ := h.extract (getChar t.raw old) (getChar_suffix _ _ _)
    exact ⟨s', by simp [step, h.raw, h1, took, Res.obs, textStep], h2⟩
  | getInt ty old =>
    obtain ⟨s', h1, h2⟩ := h.extract (getInt ty old) (getInt_suffix _ _ _)
    exact ⟨s', by simp [step, h1, took, Res.obs, textStep], h2⟩
  | getWord old =>
    obtain ⟨s', h1, h2⟩ := h.extract (getWord old) (getWord_suffix _ _)
    exact ⟨s', by simp [step, h1, took, Res.obs, textStep], h2⟩
  | getBool old =>
    obtain ⟨s', h1, h2⟩ := h.extract (getBool old) (getBool_suffix _ _)
    exact ⟨s', by simp [step, h1, took, Res.obs, textStep], h2⟩
  | getReal old =>
    obtain ⟨s', h1, h2⟩ := h.extract (getFloat old) (getFloat_suffix _ _)
    exact ⟨s', by simp [step, h1, took, Res.obs, textStep], h2⟩
  | rawReads on => exact ⟨_, rfl, h.dev, h.buf, h.fmt, rfl⟩
  | clear => exact ⟨_, rfl, ⟨0, StrDev.Rel.clear s.dev, rfl⟩, h.buf, h.fmt, h.raw⟩
  | str =>
    obtain ⟨p, hR, hu⟩ := h.dev
    have h1 : StrDev.str s.dev = .ok t.all := by
      unfold StrDev.str
      rw [hR.w, StrDev.load_ok t.all s.dev.mem hR.cell _ 0 (by simp)]; simp
    exact ⟨s, by simp [step, h1, Res.obs, textStep], h⟩
  | cstr =>
    obtain ⟨p, hR, hu⟩ := h.dev
    obtain ⟨d, h1, h2⟩ := hR.cstr
    exact ⟨{ s with dev := d }, by simp [step, h1, Res.obs, textStep], ⟨p, h2, hu⟩, h.buf, h.fmt, h.raw⟩

/-- **C118, partial**: over every history of calls within the guard a string stream returns what the
calls on a plain text return, and no call is undefined.  Missing: runs of single characters and single
characters after `clear()` (refuted below), the minimum of a signed type and real numbers from `10^19`
on. -/
theorem C118_text_partial (ops : List Op) (hl : Legal textStep Fine ⟨[], [], false, some 0⟩ ops) :
    ∃ s s', new = .ok s ∧
      runOps step s ops = some (s', (runSpec textStep ⟨[], [], false, some 0⟩ ops).2) := by
  obtain ⟨s, h1, h2⟩ := new_holds
  obtain ⟨s', h, _⟩ := refines step textStep Fine Holds step_holds ops _ _ h2 hl
  exact ⟨s, s', h1, h⟩

/-! ## Values -/

/-- The text of a value. -/
private def itemText : Item → List Char
  | .num _ i => numeral i
  | .word w => w
  | .bool b => (if b then "true" else "false").toList
  | .real q => Conv.fixedText 6 q

/-- The text of values. -/
private def itemsText : List Item → List Char
  | [] => []
  | x :: xs => itemText x ++ ' ' :: itemsText xs

private theorem itemsText_append (xs ys : List Item) : itemsText (xs ++ ys) = itemsText xs ++ itemsText ys := by
  induction xs with
  | nil => rfl
  | cons x xs ih => simp [itemsText, ih]

private theorem read_num (t : ITy) (i old : Int) (rest : List Char) (hi : InRange t.bits t.signed i)
    (hb : i.natAbs < 10 * (t.max / 10)) :
    getInt t old (numeral i ++ ' ' :: rest) = ⟨i, .noError, rest⟩ := by
  have hdig : Digits (Nat.toDigits 10 i.natAbs) := by
    obtain ⟨c, cs, h, _⟩ := Conv.toDigits_cons i.natAbs
    exact ⟨by simp [h], fun c hc => Conv.toDigits_isDigit hc⟩
  have hval : decValue (Nat.toDigits 10 i.natAbs) = i.natAbs := Nat.ofDigitChars_ten_toDigits
  have hsmall : i.natAbs < 10 ^ 25 := by
    cases t <;> simp [ITy.bits, ITy.signed, InRange] at hi <;> omega
  have hsg : i < 0 → t.signed = true := by
    intro hn; cases t <;> simp [ITy.bits, ITy.signed, InRange] at hi ⊢ <;> omega
  have key := C42_decimal_partial t old [] (if i < 0 then ['-'] else [])
    (Nat.toDigits 10 i.natAbs) (' ' :: rest) (by decide) (by
      by_cases h : i < 0
      · rw [if_pos h]; exact .inr (.inr ⟨rfl, hsg h⟩)
      · rw [if_neg h]; exact .inl rfl) hdig
      (by intro c hc; obtain rfl : ' ' = c := by simpa using hc
          decide)
      ((Nat.length_toDigits_le_iff (by decide) (by decide)).2 hsmall)
      (by intro _ _ c hc; obtain rfl : ' ' = c := by simpa using hc
          exact .inl rfl)
  rw [hval, if_pos hb] at key
  have e : [] ++ (if i < 0 then ['-'] else []) ++ Nat.toDigits 10 i.natAbs ++ ' ' :: rest
      = numeral i ++ ' ' :: rest := by
    unfold numeral; by_cases h : i < 0 <;> simp [h]
  rw [e] at key
  rw [key]
  have hv : (if (if i < 0 then ['-'] else []) = ['-'] then -(i.natAbs : Int)
      else (i.natAbs : Int)) = i := by
    by_cases h : i < 0
    · rw [if_pos h, if_pos rfl]; omega
    · rw [if_neg h, if_neg (by decide)]; omega
  rw [hv]; rfl

private theorem read_real (q old : ℚ) (rest : List Char) (hq : |q| < 10 ^ 19) :
    ∃ v, getFloat old (Conv.fixedText 6 q ++ ' ' :: rest) = ⟨v, .noError, rest⟩ ∧
      |v - q| ≤ 1 / 2 / 10 ^ 6 := by
  obtain ⟨ip, fp, ht, hl, hne, hd, -, hv⟩ := Conv.fixedText_numeral 6 q
  have hlen := fixedText_short hq
  rw [ht] at hlen
  simp only [List.length_append, if_neg (show ¬ 6 = 0 by decide), List.length_cons] at hlen
  have h1 := C46_fraction_partial old [] (if q < 0 then ['-'] else []) ip fp ' ' rest (by decide)
    (by by_cases h : q < 0 <;> simp [h]) (fun c hc => hd c (by simp [hc]))
    (fun c hc => hd c (by simp [hc])) (.inl hne) (by omega) (by omega) (by decide)
  have h2 : (decValue ip : ℚ) + fracValue fp = (Nat.ofDigitChars 10 (ip ++ fp) 0 : ℚ) / 10 ^ 6 := by
    have h3 : Nat.ofDigitChars 10 fp (Nat.ofDigitChars 10 ip 0) = _ :=
      Nat.ofDigitChars_eq_ofDigitChars_zero
    rw [hl] at h3
    unfold fracValue decValue
    rw [hl, Nat.ofDigitChars_append, h3]
    push_cast
    field_simp
    norm_num
  rw [h2] at h1
  rw [ht]
  by_cases h : q < 0
  · rw [if_pos h] at h1 ⊢
    refine ⟨_, by simpa using h1, ?_⟩
    rw [abs_of_neg h] at hv
    rw [abs_le] at hv ⊢
    constructor <;> linarith [hv.1, hv.2]
  · rw [if_neg h] at h1 ⊢
    refine ⟨_, by simpa using h1, ?_⟩
    rw [abs_of_nonneg (not_lt.1 h)] at hv
    simpa using hv

private theorem read_item (a : Ask) (x : Item) (hfit : Fits a x) (hx : Good x) (s : Stream) (t : Text)
    (h : Holds s t) (rest : List Char) (hu : t.unread = itemText x ++ ' ' :: rest) :
    ∃ s' v, (step s (extraction a)).obs = some (s', .ok v) ∧ Read x v ∧ v ≠ .unit ∧
      Holds s' { t with unread := rest } := by
  cases hfit with
  | num ty i old =>
    obtain ⟨s', h1, h2⟩ := step_holds s t (.getInt ty old) h trivial
    have := read_num ty i old rest hx.1 hx.2
    simp only [textStep, hu, itemText, this] at h1 h2
    exact ⟨s', _, h1, .num ty i, by simp, h2⟩
  | word w old =>
    obtain ⟨s', h1, h2⟩ := step_holds s t (.getWord old) h trivial
    have := (C45_word old (w ++ ' ' :: rest) w rest).2
      ⟨hx.1, hx.2.1, [], by decide, .inr ⟨' ', .inl rfl, by simp⟩⟩
    simp only [textStep, hu, itemText, this] at h1 h2
    exact ⟨s', _, h1, .word w, by simp, h2⟩
  | bool b old =>
    obtain ⟨s', h1, h2⟩ := step_holds s t (.getBool old) h trivial
    have : getBool old ((if b then "true" else "false").toList ++ ' ' :: rest) = ⟨b, .noError, rest⟩ := by
      have := C45_bool_round_trip ⟨[], []⟩ b old rest
      cases b <;> exact this
    simp only [textStep, hu, itemText, this] at h1 h2
    exact ⟨s', _, h1, .bool b, by simp, h2⟩
  | real q old =>
    obtain ⟨s', h1, h2⟩ := step_holds s t (.getReal old) h trivial
    obtain ⟨v, hv, hc⟩ := read_real q old rest hx
    simp only [textStep, hu, itemText, hv] at h1 h2
    exact ⟨s', _, h1, .real q v hc, by simp, h2⟩

private theorem write_item (x : Item) (hx : Good x) (s : Stream) (t : Text) (h : Holds s t)
    (hb : t.all.length + room (.write x) ≤ 2 ^ 62) :
    ∃ s' s'', (step s (insertion x)).obs = some (s', .ok .unit) ∧
      (step s' (.putChar ' ')).obs = some (s'', .ok .unit) ∧
      (itemText x).length + 1 ≤ room (.write x) ∧
      Holds s'' ⟨t.all ++ itemText x ++ [' '], t.unread ++ itemText x ++ [' '], t.raw, some 1⟩ := by
  have hlen : (itemText x).length + 1 ≤ room (.write x) := by
    cases x with
    | num ty i => have := numeral_short hx.1; simp only [itemText, room]; omega
    | word w => simp [itemText, room]
    | bool b => cases b <;> simp [itemText, room]
    | real q => have := fixedText_short (q := q) hx; simp only [itemText, room]; omega
  have hne : itemText x ≠ [] := by
    cases x with
    | num ty i => exact numeral_ne_nil i
    | word w => exact hx.1
    | bool b => cases b <;> simp [itemText]
    | real q => exact fixedText_ne_nil q
  have hfirst : ∃ s', (step s (insertion x)).obs = some (s', .ok .unit) ∧ Holds s' (t.add (itemText x)) := by
    cases x with
    | num ty i =>
      have := hx.2
      exact step_holds s t (.putInt ty i) h ⟨hx.1, by omega, by simp only [room] at hb; omega⟩
    | word w => exact step_holds s t (.putText w) h ⟨hx.2.2, by simp only [room] at hb; omega⟩
    | bool b => exact step_holds s t (.putBool b) h (by simp only [room] at hb; simp only [Fine]; omega)
    | real q => exact step_holds s t (.putReal q) h ⟨hx, by simp only [room] at hb; omega⟩
  obtain ⟨s', h1, h2⟩ := hfirst
  obtain ⟨s'', h3, h4⟩ := step_holds s' _ (.putChar ' ') h2
    ⟨⟨0, by simp [Text.add, hne], by decide⟩, by simp only [Text.add, List.length_append]; omega⟩
  refine ⟨s', s'', h1, h3, hlen, ?_⟩
  simpa [textStep, Text.add, hne] using h4

private theorem values_run (q : List Item) (us : List Use) (xs : List Item) (hq : Queue q us xs) :
    ∀ (s : Stream) (t : Text), Holds s t → t.unread = itemsText q → (∀ x ∈ q, Good x) →
      (∀ x, .write x ∈ us → Good x) → t.all.length + (us.map room).sum ≤ 2 ^ 62 →
      ∃ s' vs, runOps step s (us.flatMap calls) = some (s', vs.map .ok) ∧
        List.Forall₂ Read xs (extracted vs) := by
  induction hq with
  | nil q => intro s t h hu _ _ _; exact ⟨s, [], rfl, .nil⟩
  | @write q us xs x hq ih =>
    intro s t h hu hg hw hb
    simp only [List.map_cons, List.sum_cons] at hb
    obtain ⟨s', s'', h1, h2, h3, h4⟩ := write_item x (hw x (by simp)) s t h (by omega)
    obtain ⟨s₃, vs, h5, h6⟩ := ih s'' _ h4 (by simp [hu, itemsText_append, itemsText])
      (by
        intro y hy
        rcases List.mem_append.1 hy with hy | hy
        · exact hg y hy
        · rw [List.mem_singleton.1 hy]; exact hw x (by simp))
      (fun y hy => hw y (by simp [hy])) (by simp; omega)
    refine ⟨s₃, .unit :: .unit :: vs, ?_, by simpa [extracted] using h6⟩
    simp only [List.flatMap_cons, calls, List.cons_append, List.nil_append]
    rw [runOps_cons, h1, Option.bind_some, runOps_cons, h2, Option.bind_some, h5]
    rfl
  | @read q us xs x a hfit hq ih =>
    intro s t h hu hg hw hb
    obtain ⟨s', v, h1, h2, h3, h4⟩ := read_item a x hfit (hg x (by simp)) s t h (itemsText q)
      (by rw [hu]; rfl)
    obtain ⟨s'', vs, h5, h6⟩ := ih s' _ h4 rfl (fun y hy => hg y (by simp [hy]))
      (fun y hy => hw y (by simp [hy])) (by simpa [room] using hb)
    refine ⟨s'', v :: vs, ?_, ?_⟩
    · simp only [List.flatMap_cons, calls, List.cons_append, List.nil_append]
      rw [runOps_cons, h1, Option.bind_some, h5]
      rfl
    · have : extracted (v :: vs) = v :: extracted vs := by cases v <;> first | rfl | exact absurd rfl h3
      rw [this]
      exact .cons h2 h6
  | @clear q us xs hq ih =>
    intro s t h hu hg hw hb
    obtain ⟨s', h1, h2⟩ := step_holds s t .clear h trivial
    obtain ⟨s'', vs, h5, h6⟩ := ih s' _ h2 rfl (by simp) (fun y hy => hw y (by simp [hy]))
      (by simp [room] at hb; simp [textStep]; omega)
    refine ⟨s'', .unit :: vs, ?_, by simpa [extracted] using h6⟩
    simp only [List.flatMap_cons, calls, List.cons_append, List.nil_append]
    rw [runOps_cons, h1, Option.bind_some, h5]
    rfl

/-- **C118, partial**: a string stream to which values are written, each followed by a blank, and from
which values of the same types are read, in any order of writing, reading and clearing and for any
number of values, is a queue of values: the reads give, without error, the values written, real
numbers with six decimals.  Missing: values that are not `Good` (refuted below), values at the very end
without a blank (for real numbers refuted below). -/
theorem C118_values_partial (us : List Use) (xs : List Item) (hq : Queue [] us xs)
    (hgood : ∀ x, .write x ∈ us → Good x) (hsize : (us.map room).sum ≤ 2 ^ 62) :
    ∃ s s' vs, new = .ok s ∧ runOps step s (us.flatMap calls) = some (s', vs.map .ok) ∧
      List.Forall₂ Read xs (extracted vs) := by
  obtain ⟨s, h1, h2⟩ := new_holds
  obtain ⟨s', vs, h3, h4⟩ := values_run [] us xs hq s _ h2 rfl (by simp) hgood (by simpa using hsize)
  exact ⟨s, s', vs, h1, h3, h4⟩

-- non-vacuity: interleaved writes and reads of all types, with a clear
example : Queue [] [.write (.num .int (-12)), .write (.word "ab".toList), .read (.num .int 0),
    .write (.bool true), .write (.real (5 / 2)), .read (.word []), .read (.bool false), .read (.real 0),
    .write (.num .uchar 7), .clear, .write (.num .long 8), .read (.num .long 9)]
    [.num .int (-12), .word "ab".toList, .bool true, .real (5 / 2), .num .long 8] :=
  .write _ <| .write _ <| .read _ _ (.num _ _ _) <| .write _ <| .write _ <| .read _ _ (.word _ _) <|
    .read _ _ (.bool _ _) <| .read _ _ (.real _ _) <| .write _ <| .clear <| .write _ <|
    .read _ _ (.num _ _ _) <| .nil _

-- non-vacuity: single characters between bulk writes, raw reads
example : Legal textStep Fine ⟨[], [], false, some 0⟩
    [.putChar 'x', .putInt .int (-3), .putChar '\n', .putReal 1, .getChar 'a', .rawReads true, .getChar 'b',
      .clear, .putBool true, .putChar ' ', .getBool false, .cstr] := by
  have h : Conv.fixedText 6 1 ≠ [] := fixedText_ne_nil 1
  have h' := fixedText_short (q := 1) (by norm_num)
  simp [Legal, textStep, Text.add, Fine, numeral, InRange, ITy.bits, ITy.signed, ITy.max,
    show Nat.toDigits 10 3 = ['3'] from rfl, h]
  norm_num

private theorem chars_none (c : Char) (n : Nat) : ∀ s : Stream,
    runOps StrDev.step s.dev (List.replicate n (.put c)) = none →
      runOps step s (List.replicate n (.putChar c)) = none := by
  induction n with
  | zero => intro s h; simp [runOps] at h
  | succ n ih =>
    intro s h
    rw [List.replicate_succ] at h ⊢
    rw [runOps_cons] at h ⊢
    cases hp : StrDev.put s.dev c with
    | ok d =>
      have h1 : (StrDev.step s.dev (.put c)).obs = some (d, .ok (.count 1)) := by
        simp [StrDev.step, hp, Res.obs]
      have h2 : (step s (.putChar c)).obs = some ({ s with dev := d }, .ok .unit) := by
        simp [step, putChar, hp, wrote, Res.obs]
      rw [h1, Option.bind_some, Option.map_eq_none_iff] at h
      rw [h2, Option.bind_some, Option.map_eq_none_iff]
      exact ih { s with dev := d } h
    | throw e =>
      have h1 : (StrDev.step s.dev (.put c)).obs = some (s.dev, .error e) := by
        simp [StrDev.step, hp, Res.obs]
      have h2 : (step s (.putChar c)).obs = some (s, .error e) := by
        simp [step, putChar, hp, wrote, Res.obs]
      rw [h1, Option.bind_some, Option.map_eq_none_iff] at h
      rw [h2, Option.bind_some, Option.map_eq_none_iff]
      exact ih s h
    | ub => simp [step, putChar, hp, wrote, Res.obs]

/-- **C118**: reading a character (not raw) passes over spaces and newlines; if there is nothing else, the variable is
overwritten with the last of them, and all of them are gone. -/
theorem C118_character (old : Char) (before : List Char) (hb : ∀ c ∈ before, c = ' ' ∨ c = '\n') :
    (∀ c after, c ≠ ' ' → c ≠ '\n' → getChar false old (before ++ c :: after) = ⟨c, .noError, after⟩) ∧
    getChar false old before = ⟨(before.getLast?).getD old, .readError, []⟩ := by
  have skip_all : ∀ l rest : List Char, (∀ c ∈ l, c = ' ' ∨ c = '\n') → skip (l ++ rest) = skip rest := by
    intro l rest
    induction l with
    | nil => intro _; rfl
    | cons a l ih =>
      intro h
      rw [List.cons_append, skip, if_pos (by simpa [blank] using h a (by simp))]
      exact ih fun c hc => h c (by simp [hc])
  constructor
  · intro c after h1 h2
    simp [getChar, skip_all before _ hb, skip, blank, h1, h2]
  · have := skip_all before [] hb
    rw [List.append_nil] at this
    simp [getChar, this, skip]

example : getChar false 'x' [' ', '\n', 'a', ' '] = ⟨'a', .noError, [' ']⟩ ∧
    getChar false 'x' [' ', '\n'] = ⟨'\n', .readError, []⟩ := by decide +kernel

/-- **C118, refuted**: 258 single characters written to a new stream are undefined behaviour. -/
theorem C118_fails_chars (c : Char) :
    ∃ s, new = .ok s ∧ runOps step s (List.replicate 258 (.putChar c)) = none :=
  ⟨_, rfl, chars_none c 258 _ (C23_fails_long_run [] (by simp) c)⟩

/-- **C118, refuted**: so are two single characters after `clear()`, in every state of the stream. -/
theorem C118_fails_clear (s : Stream) (a b : Char) :
    runOps step s [.clear, .putChar a, .putChar b] = none := by
  simp [runOps, step, putChar, wrote, StrDev.clear, StrDev.put, StrDev.store]

/-- **C118, refuted**: the largest value of every integral type is written but not read back. -/
theorem C118_fails_limits (t : ITy) (old : Int) :
    ∃ s s', new = .ok s ∧ runOps step s [.putInt t t.max, .putChar ' ', .getInt t old] =
      some (s', [.ok .unit, .ok .unit, .ok (.num old .outOfRange)]) := by
  have hr : InRange t.bits t.signed t.max := by
    cases t <;> simp [InRange, ITy.bits, ITy.signed, ITy.max]
  obtain ⟨s, s', h1, h2⟩ := C118_text_partial [.putInt t t.max, .putChar ' ', .getInt t old]
    ⟨⟨hr, by simp, by simp⟩, ⟨⟨0, by simp [textStep, Text.add, numeral_ne_nil], by decide⟩, by
      have := numeral_short hr
      simp [textStep, Text.add]; omega⟩, trivial, trivial⟩
  refine ⟨s, s', h1, ?_⟩
  rw [h2]
  have hn : getInt t old (numeral t.max ++ [' ']) = ⟨old, .outOfRange, []⟩ := by
    have key := C42_decimal_partial t old [] [] (Nat.toDigits 10 t.max) [' '] (by decide) (.inl rfl)
      (by
        obtain ⟨c, cs, h, _⟩ := Conv.toDigits_cons t.max
        exact ⟨by simp [h], fun c hc => Conv.toDigits_isDigit hc⟩)
      (by intro c hc; obtain rfl : ' ' = c := by simpa using hc
          decide)
      ((Nat.length_toDigits_le_iff (by decide) (by decide)).2 (by
        cases t <;> simp [ITy.bits, ITy.signed, ITy.max]))
      (by intro _ _ c hc; obtain rfl : ' ' = c := by simpa using hc
          exact .inl rfl)
    have hv : decValue (Nat.toDigits 10 t.max) = t.max := Nat.ofDigitChars_ten_toDigits
    rw [hv, if_neg (by omega)] at key
    have hp : ¬ (t.max : Int) < 0 := by omega
    rw [numeral, if_neg hp]
    exact key
  simp [runSpec, textStep, Text.add, hn]

/-- **C118, refuted**: a real number at the end of the text loses its last digit without an error:
2.345678 comes back as 2.34567. -/
theorem C118_fails_real_end (old : ℚ) :
    ∃ s s', new = .ok s ∧ runOps step s [.putReal (2345678 / 10 ^ 6), .getReal old] =
      some (s', [.ok .unit, .ok (.real (234567 / 10 ^ 5) .noError)]) := by
  obtain ⟨s, s', h1, h2⟩ := C118_text_partial [.putReal (2345678 / 10 ^ 6), .getReal old]
    ⟨⟨by rw [abs_of_pos (by norm_num)]; norm_num, by simp⟩, trivial, trivial⟩
  refine ⟨s, s', h1, ?_⟩
  rw [h2]
  have ht : Conv.fixedText 6 (2345678 / 10 ^ 6) = "2.345678".toList := by
    have h : Conv.nearest (|2345678 / 10 ^ 6| * 10 ^ 6) = 2345678 := by
      have h1 : |(2345678 / 10 ^ 6 : ℚ)| * 10 ^ 6 = 2345678 := by
        rw [abs_of_pos (by norm_num)]; norm_num
      have h2 : ⌊(2345678 : ℚ)⌋.toNat = 2345678 := by norm_num; rfl
      rw [h1, Conv.nearest]
      simp only [h2]
      norm_num
    unfold Conv.fixedText
    rw [h]
    norm_num
    rfl
  have hg : getFloat old "2.345678".toList = ⟨234567 / 10 ^ 5, .noError, []⟩ := by
    simp [getFloat, skip, blank, finishFloat, fracLoop, dig, intSum, fracSum, digVal]
    norm_num
  simp only [runSpec, textStep, Text.add, ht, List.nil_append, hg]

end Ecl.Props
