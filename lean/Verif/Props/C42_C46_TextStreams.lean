import Verif.Lemmas.TextStream
import Verif.Props.C10_C15_Converters
import Mathlib.Tactic.Ring
import Mathlib.Tactic.FieldSimp
import Mathlib.Tactic.Positivity
import Mathlib.Data.Rat.Cast.Order

/-!
# C42–C46: what text streams read and write
-/
set_option autoImplicit false
set_option linter.unusedSimpArgs false

namespace Ecl.Props
open Ecl Ecl.TextStream Ecl.Spec

/-! ## C42 -/

/-- **C42, partial**: blanks, an optional sign and at most 25 digits, whatever follows, read as the
number they denote as long as it is below `10*(maximum/10)`; a number not below that bound is
reported as out of range and the variable is left alone.  One character after the number is
consumed.  Missing: the values from `10*(maximum/10)` to the limits of the type
(`C42_fails_limits`), a lone `0` followed by something other than a blank (`C42_fails_lone_zero`)
and longer digit strings (`C42_fails_many_zeros`). -/
theorem C42_decimal_partial (t : ITy) (old : Int) (bl sg ds s : List Char)
    (hbl : AllBlank bl) (hsg : sg = [] ∨ sg = ['+'] ∨ sg = ['-'] ∧ t.signed = true)
    (hd : Digits ds) (hs : NotDigitNext s) (hlen : ds.length ≤ 25)
    (hzero : sg = [] → ds = ['0'] → ∀ c, s.head? = some c → IsBlank c) :
    getInt t old (bl ++ sg ++ ds ++ s) =
      if decValue ds < 10 * (t.max / 10) then
        ⟨if sg = ['-'] then -(decValue ds : Int) else decValue ds, .noError, s.drop 1⟩
      else ⟨old, .outOfRange, s.drop 1⟩ := by
  obtain ⟨hne, hdig⟩ := hd
  obtain ⟨c, ds, rfl⟩ := List.exists_cons_of_ne_nil hne
  have hcond : decValue (c :: ds) / 10 < t.max / 10 ↔ decValue (c :: ds) < 10 * (t.max / 10) := by
    omega
  have hl : ds.length < 25 := by simp at hlen; omega
  have hc : c.isDigit = true := hdig c (by simp)
  rw [List.append_assoc, List.append_assoc]
  unfold getInt
  rw [skip_append _ _ hbl]
  rcases hsg with rfl | rfl | ⟨rfl, hsig⟩
  · -- no sign
    simp only [List.nil_append, List.cons_append]
    rw [skip_cons _ _ (digit_not_blank hc)]
    simp only
    have h1 : c ≠ '-' := by rintro rfl; exact absurd hc (by decide)
    have h2 : c ≠ '+' := by rintro rfl; exact absurd hc (by decide)
    have h3 : c ≠ 'x' := by rintro rfl; exact absurd hc (by decide)
    rw [if_neg h1, if_neg h2]
    have e0 : (if ([] : List Char) = ['-'] then -(decValue (c :: ds) : Int) else
        (decValue (c :: ds) : Int)) = decValue (c :: ds) := by simp
    rw [e0]
    by_cases h0 : c = '0'
    · rw [if_pos h0]
      subst h0
      cases ds with
      | nil =>
        have hv : decValue ['0'] = 0 := by decide
        have hpos : 0 < 10 * (t.max / 10) := by cases t <;> decide
        rw [hv, if_pos hpos]
        cases s with
        | nil => rfl
        | cons b s =>
          have hb : blank b = true := (blank_iff b).2 (hzero rfl rfl b rfl)
          simp [hb]
      | cons d ds =>
        have hd' : d.isDigit = true := hdig d (by simp)
        have hb : blank d = false := by
          cases h : blank d
          · rfl
          · exact absurd ((blank_iff d).1 h) (digit_not_blank hd')
        have hx : d ≠ 'x' := by rintro rfl; exact absurd hd' (by decide)
        simp only [List.cons_append, hb, Bool.false_eq_true, if_false, if_neg hx]
        rw [finishInt_digits t 1 old d ds s (fun x hx => hdig x (by simp at hx ⊢; tauto)) hs
          (by simp at hlen; omega)]
        rw [decValue_zero] at hcond ⊢
        simp only [hcond, one_mul]
    · rw [if_neg h0, if_neg h3, finishInt_digits t 1 old c ds s hdig hs hl]
      simp only [hcond, one_mul]
  · -- plus
    rw [show ['+'] ++ (c :: ds ++ s) = '+' :: c :: (ds ++ s) by simp,
      skip_cons _ _ (by rintro (h | h) <;> revert h <;> decide)]
    simp only
    rw [if_neg (by decide), if_pos trivial, finishInt_digits t 1 old c ds s hdig hs hl]
    simp [hcond]
  · -- minus
    rw [show ['-'] ++ (c :: ds ++ s) = '-' :: c :: (ds ++ s) by simp,
      skip_cons _ _ (by rintro (h | h) <;> revert h <;> decide)]
    simp only [hsig, if_true]
    rw [finishInt_digits t (-1) old c ds s hdig hs hl]
    simp [hcond]

/-- Non-vacuity: a negative `short` between other text, and an `unsigned char`. -/
example : getInt .short 7 (" \n-0120, next").toList = ⟨-120, .noError, " next".toList⟩ :=
  C42_decimal_partial .short 7 [' ', '\n'] ['-'] "0120".toList ", next".toList (by decide)
    (.inr (.inr ⟨rfl, rfl⟩)) (by decide) (by decide) (by decide) (by decide)
example : getInt .uchar 7 ("249".toList) = ⟨249, .noError, []⟩ := by decide

/-- **C42, partial**: whatever is read without error from a text with at most 25 digits is exactly
the number written, and a value of the type. -/
theorem C42_sound_partial (t : ITy) (old : Int) (bl sg ds s : List Char)
    (hbl : AllBlank bl) (hsg : sg = [] ∨ sg = ['+'] ∨ sg = ['-'] ∧ t.signed = true)
    (hd : Digits ds) (hs : NotDigitNext s) (hlen : ds.length ≤ 25)
    (hzero : sg = [] → ds = ['0'] → ∀ c, s.head? = some c → IsBlank c)
    (hok : (getInt t old (bl ++ sg ++ ds ++ s)).err = .noError) :
    (getInt t old (bl ++ sg ++ ds ++ s)).val
        = (if sg = ['-'] then -(decValue ds : Int) else decValue ds) ∧
      InRange t.bits t.signed (getInt t old (bl ++ sg ++ ds ++ s)).val := by
  rw [C42_decimal_partial t old bl sg ds s hbl hsg hd hs hlen hzero] at hok ⊢
  by_cases h : decValue ds < 10 * (t.max / 10)
  · rw [if_pos h] at hok ⊢
    refine ⟨rfl, ?_⟩
    rcases hsg with rfl | rfl | ⟨rfl, hsig⟩
    · simp only [List.nil_eq, reduceCtorEq, if_false]
      cases t <;> simp [ITy.max, ITy.bits, ITy.signed, InRange] at h ⊢ <;> omega
    · simp only [List.cons.injEq, Char.reduceEq, false_and, if_false]
      cases t <;> simp [ITy.max, ITy.bits, ITy.signed, InRange] at h ⊢ <;> omega
    · simp only [if_true]
      cases t <;> simp [ITy.max, ITy.bits, ITy.signed, InRange] at h hsig ⊢ <;> omega
  · rw [if_neg h] at hok
    cases hok

/-- **C42**: a text that is no number is reported as an error and the variable left alone: only
blanks, a sign without digits, a minus sign for an unsigned type, or anything else that starts
with a character that starts no number. -/
theorem C42_rejects (t : ITy) (old : Int) (bl : List Char) (hbl : AllBlank bl) :
    (getInt t old bl = ⟨old, .readError, []⟩) ∧
    (∀ sg, sg = '+' ∨ sg = '-' ∧ t.signed = true → ∀ s, NotDigitNext s →
      (getInt t old (bl ++ sg :: s)).err ≠ .noError ∧
        (getInt t old (bl ++ sg :: s)).val = old) ∧
    (t.signed = false → ∀ s, getInt t old (bl ++ '-' :: s) = ⟨old, .conversionError, s⟩) ∧
    (∀ c s, ¬ IsBlank c → c.isDigit = false → c ∉ ['+', '-', 'x'] →
      getInt t old (bl ++ c :: s) = ⟨old, .conversionError, s⟩) := by
  refine ⟨?_, ?_, ?_, ?_⟩
  · unfold getInt; rw [skip_none _ hbl]
  · rintro sg hsg s hs
    have key : ∀ sign : Int, ∀ d ds, s = d :: ds →
        (finishInt t sign old d ds).err ≠ .noError ∧ (finishInt t sign old d ds).val = old := by
      rintro sign d ds rfl
      rw [finishInt_none t sign old d ds (hs d rfl)]
      exact ⟨by simp, rfl⟩
    unfold getInt
    rw [skip_append _ _ hbl]
    rcases hsg with rfl | ⟨rfl, hsig⟩
    · rw [skip_cons _ _ (by rintro (h | h) <;> revert h <;> decide)]
      simp only
      rw [if_neg (by decide), if_pos trivial]
      cases s with
      | nil => exact ⟨by simp, rfl⟩
      | cons d ds => exact key 1 d ds rfl
    · rw [skip_cons _ _ (by rintro (h | h) <;> revert h <;> decide)]
      simp only [hsig, if_true]
      cases s with
      | nil => exact ⟨by simp, rfl⟩
      | cons d ds => exact key (-1) d ds rfl
  · intro hsig s
    unfold getInt
    rw [skip_append _ _ hbl, skip_cons _ _ (by rintro (h | h) <;> revert h <;> decide)]
    simp only [hsig, if_true, Bool.false_eq_true, if_false]
    exact finishInt_none t 1 old '-' s (by decide)
  · intro c s hb hd hc
    simp only [List.mem_cons, List.not_mem_nil, or_false, not_or] at hc
    unfold getInt
    rw [skip_append _ _ hbl, skip_cons _ _ hb]
    simp only
    rw [if_neg hc.2.1, if_neg hc.1, if_neg (by rintro rfl; exact absurd hd (by decide)),
      if_neg hc.2.2]
    exact finishInt_none t 1 old c s hd

example : getInt .int 3 "  abc".toList = ⟨3, .conversionError, "bc".toList⟩ := by decide

/-- **C42, refuted**: the topmost values of every type — from `10*(maximum/10)` to the maximum —
and the lowest of the signed ones are values of the type, but reading their numerals is reported as
out of range. -/
theorem C42_fails_limits (t : ITy) (old v : Int) (hv : InRange t.bits t.signed v)
    (hbig : 10 * (t.max / 10) ≤ v.natAbs) :
    getInt t old (numeral v) = ⟨old, .outOfRange, []⟩ := by
  have hlen : ∀ n : Nat, n < 10 ^ 25 → (Nat.toDigits 10 n).length ≤ 25 := fun n hn =>
    (Nat.length_toDigits_le_iff (by decide) (by decide)).2 hn
  have hdig : Digits (Nat.toDigits 10 v.natAbs) := by
    obtain ⟨c, cs, h, _⟩ := Conv.toDigits_cons v.natAbs
    exact ⟨by simp [h], fun c hc => Conv.toDigits_isDigit hc⟩
  have hval : decValue (Nat.toDigits 10 v.natAbs) = v.natAbs := Nat.ofDigitChars_ten_toDigits
  have hsmall : v.natAbs < 10 ^ 25 := by
    cases t <;> simp [ITy.bits, ITy.signed, InRange] at hv <;> omega
  have hpos : 10 ≤ v.natAbs := by
    cases t <;> simp [ITy.bits, ITy.signed, ITy.max] at hbig <;> omega
  have hsg : v < 0 → t.signed = true := by
    intro hn; cases t <;> simp [ITy.bits, ITy.signed, InRange] at hv ⊢ <;> omega
  have key := C42_decimal_partial t old [] (if v < 0 then ['-'] else []) (Nat.toDigits 10 v.natAbs)
    [] (by decide) (by
      by_cases h : v < 0
      · rw [if_pos h]; exact .inr (.inr ⟨rfl, hsg h⟩)
      · rw [if_neg h]; exact .inl rfl) hdig (by intro c hc; cases hc) (hlen _ hsmall)
      (by intro _ h _ hc; cases hc)
  have e : [] ++ (if v < 0 then ['-'] else []) ++ Nat.toDigits 10 v.natAbs ++ [] = numeral v := by
    unfold numeral; by_cases h : v < 0 <;> simp [h]
  rw [e, hval, if_neg (by omega)] at key
  exact key

example : getInt .int 5 "2147483647".toList = ⟨5, .outOfRange, []⟩ := by decide
example : InRange 32 true 2147483640 ∧ getInt .int 5 "2147483640".toList = ⟨5, .outOfRange, []⟩ := by
  decide

/-- **C42, refuted**: a lone zero followed by a comma is no number, although a five is. -/
theorem C42_fails_lone_zero :
    getInt .int 9 "0,".toList = ⟨9, .conversionError, []⟩ ∧
      getInt .int 9 "5,".toList = ⟨5, .noError, []⟩ := by decide

/-- **C42, refuted**: only the first 25 (after an initial zero: 26) digits are looked at, so a
number padded with zeros silently reads as another number. -/
theorem C42_fails_many_zeros :
    decValue (List.replicate 26 '0' ++ "57".toList) = 57 ∧
      getInt .int 9 (List.replicate 26 '0' ++ "57".toList) = ⟨0, .noError, ['7']⟩ := by decide

/-! ## C43 -/

/-- **C43, partial**: hexadecimal numbers up to `0x7FFF` with at most 24 digits read exactly, in
either spelling, into every type they fit.  Missing: everything larger (`C43_fails_large`). -/
theorem C43_hex_partial (t : ITy) (old : Int) (bl pre s : List Char) (ds : List Nat) (r : List Char)
    (hbl : AllBlank bl) (hpre : pre = ['0', 'x'] ∨ pre = ['x'])
    (hs : List.Forall₂ Hex s ds) (hne : s ≠ []) (hlen : s.length ≤ 24)
    (hr : ∀ c, r.head? = some c → ∀ d, ¬ Hex c d)
    (hsmall : hexValue ds ≤ 0x7FFF) (hfit : InRange t.bits t.signed (hexValue ds)) :
    getInt t old (bl ++ pre ++ s ++ r) = ⟨hexValue ds, .noError, r.drop 1⟩ := by
  have hds : ds ≠ [] := by
    rintro rfl; cases hs; exact hne rfl
  have h16 : ∀ d ∈ ds, d < 16 := by
    clear hsmall hfit hne hlen hds
    induction hs with
    | nil => simp
    | @cons c d s ds hc _ ih =>
      intro x hx
      rcases List.mem_cons.1 hx with rfl | hx
      · exact Conv.hex_lt hc
      · exact ih x hx
  have key : parseHex t (s ++ r) = ⟨hexValue ds, .noError, r.drop 1⟩ := by
    unfold parseHex
    rw [hexLoop_spec s ds r 25 hs hr (by omega)]
    simp only [hds, if_false]
    have := hexAccum_small ds 0 h16 (by unfold hexValue at hsmall; omega)
    rw [show ((0 : Nat) : Int) = 0 from rfl] at this
    rw [this]
    simp only
    congr 1
    change t.wrap (hexValue ds : Int) = hexValue ds
    generalize hexValue ds = v at *
    cases t <;> simp [ITy.wrap, ITy.bits, ITy.signed, InRange] at hfit ⊢ <;> omega
  rw [List.append_assoc, List.append_assoc]
  unfold getInt
  rw [skip_append _ _ hbl]
  rcases hpre with rfl | rfl
  · rw [show ['0', 'x'] ++ (s ++ r) = '0' :: 'x' :: (s ++ r) by simp,
      skip_cons _ _ (by rintro (h | h) <;> revert h <;> decide)]
    simp only
    rw [if_neg (by decide), if_neg (by decide), if_pos trivial, if_neg (by decide),
      if_pos trivial, key]
  · rw [show ['x'] ++ (s ++ r) = 'x' :: (s ++ r) by simp,
      skip_cons _ _ (by rintro (h | h) <;> revert h <;> decide)]
    simp only
    rw [if_neg (by decide), if_neg (by decide), if_neg (by decide), if_pos trivial, key]

example : getInt .uint 0 " 0x7fFf;".toList = ⟨32767, .noError, []⟩ :=
  C43_hex_partial .uint 0 [' '] ['0', 'x'] "7fFf".toList [7, 15, 15, 15] [';'] (by decide)
    (.inl rfl) (by
      refine .cons (by decide) (.cons (by decide) (.cons (by decide) (.cons (by decide) .nil))))
    (by decide) (by decide)
    (by intro c hc d hd; obtain rfl : ';' = c := by simpa using hc
        have := (Conv.hexDigit_iff ';' d).2 hd
        exact absurd this (by simp [Conv.hexDigit]))
    (by decide) (by decide)

/-- **C43**: a prefix without hexadecimal digits is reported as an error. -/
theorem C43_rejects (t : ITy) (old : Int) (bl pre r : List Char)
    (hbl : AllBlank bl) (hpre : pre = ['0', 'x'] ∨ pre = ['x'])
    (hr : ∀ c, r.head? = some c → ∀ d, ¬ Hex c d) :
    (getInt t old (bl ++ pre ++ r)).err ≠ .noError := by
  have key : (parseHex t r).err ≠ .noError := by
    unfold parseHex
    rw [show r = [] ++ r from rfl, hexLoop_spec [] [] r 25 .nil hr (by decide)]
    simp
  rw [List.append_assoc]
  unfold getInt
  rw [skip_append _ _ hbl]
  rcases hpre with rfl | rfl
  · rw [show ['0', 'x'] ++ r = '0' :: 'x' :: r by simp,
      skip_cons _ _ (by rintro (h | h) <;> revert h <;> decide)]
    simp only
    rw [if_neg (by decide), if_neg (by decide), if_pos trivial, if_neg (by decide),
      if_pos trivial]
    exact key
  · rw [show ['x'] ++ r = 'x' :: r by simp,
      skip_cons _ _ (by rintro (h | h) <;> revert h <;> decide)]
    simp only
    rw [if_neg (by decide), if_neg (by decide), if_neg (by decide), if_pos trivial]
    exact key

example : getInt .int 1 "0xg".toList = ⟨0, .readError, []⟩ := by decide

/-- **C43, refuted**: `0x8000` reads as a negative number into an `int`, `0x80000` as zero,
`0x10000` is out of range even for a `long`, and `0x100` reads as zero into an `unsigned char`. -/
theorem C43_fails_large :
    getInt .int 1 "0x8000".toList = ⟨-32768, .noError, []⟩ ∧
      getInt .uint 1 "0x8000".toList = ⟨4294934528, .noError, []⟩ ∧
      getInt .int 1 "0x80000".toList = ⟨0, .noError, []⟩ ∧
      getInt .long 1 "0x10000".toList = ⟨0, .outOfRange, []⟩ ∧
      getInt .uchar 1 "0x100".toList = ⟨0, .noError, []⟩ := by decide

/-- **C43, refuted**: a signed hexadecimal number reads as zero. -/
theorem C43_fails_sign :
    getInt .int 1 "-0x10".toList = ⟨0, .noError, "10".toList⟩ := by decide

/-! ## C44 -/

theorem C44_put_partial (t : ITy) (o : Out) (i : Int) (ho : o.mem.length = 30)
    (hi : InRange t.bits t.signed i) (hmin : i.natAbs ≤ t.max) :
    ∃ mem', o.putInt t i = .ok ⟨mem', o.text ++ numeral i⟩ ∧ mem'.length = 30 := by
  have hlen : (numeral i).length ≤ 29 := by
    have hsmall : i.natAbs < 10 ^ 28 := by
      cases t <;> simp [ITy.bits, ITy.signed, InRange] at hi <;> omega
    have := (Nat.length_toDigits_le_iff (b := 10) (n := i.natAbs) (k := 28) (by decide)
      (by decide)).2 hsmall
    unfold numeral
    split <;> simp <;> omega
  have conv : ∃ mem' r, convert t o.mem i = .ok (mem', r) ∧ mem'.length = o.mem.length ∧
      r = some (29 - (numeral i).length) ∧ Conv.cstr mem' (29 - (numeral i).length) = numeral i := by
    have hs : ∀ promMax : Int, -i ≤ promMax → ∃ mem' r, Conv.bufSigned promMax o.mem 29 i
        = .ok (mem', r) ∧ mem'.length = o.mem.length ∧
        r = some (29 - (numeral i).length) ∧
          Conv.cstr mem' (29 - (numeral i).length) = numeral i := by
      intro promMax hp
      obtain ⟨mem', r, h1, h2, h3⟩ := C14_signed_partial promMax o.mem 29 i ho hp
      rw [if_pos hlen] at h3
      exact ⟨mem', r, h1, h2, h3.1, h3.2.1⟩
    have hu : 0 ≤ i → ∃ mem' r, Conv.bufUnsigned o.mem 29 i.toNat
        = .ok (mem', r) ∧ mem'.length = o.mem.length ∧
        r = some (29 - (numeral i).length) ∧
          Conv.cstr mem' (29 - (numeral i).length) = numeral i := by
      intro hp
      obtain ⟨mem', r, h1, h2, h3⟩ := C14_unsigned o.mem 29 i.toNat ho
      rw [show ((i.toNat : Nat) : Int) = i by omega, if_pos hlen] at h3
      exact ⟨mem', r, h1, h2, h3.1, h3.2.1⟩
    cases t
    case uchar => exact hs intMax (by unfold intMax; simp [ITy.max, ITy.signed, ITy.bits] at hmin; omega)
    case short => exact hs intMax (by unfold intMax; simp [ITy.max, ITy.signed, ITy.bits] at hmin; omega)
    case int => exact hs intMax (by unfold intMax; simp [ITy.max, ITy.signed, ITy.bits] at hmin; omega)
    case long => exact hs longMax (by unfold longMax; simp [ITy.max, ITy.signed, ITy.bits] at hmin; omega)
    case llong => exact hs longMax (by unfold longMax; simp [ITy.max, ITy.signed, ITy.bits] at hmin; omega)
    all_goals exact hu (by simp [ITy.signed, ITy.bits, InRange] at hi; omega)
  obtain ⟨mem', r, h1, h2, h3, h4⟩ := conv
  refine ⟨mem', ?_, by rw [h2, ho]⟩
  unfold Out.putInt
  rw [h1, Outcome.bind_ok, h3]
  simp only [h4]

/-- **C44, partial**: a list of integers of any type, each of magnitude below `10*(maximum/10)`,
written with a space after each, reads back as the same list, without error and to the end.
Missing: the values at the limits of the types (`C44_fails_limits`). -/
theorem C44_round_trip_partial (t : ITy) (o : Out) (is : List Int) (old : Int)
    (ho : o.mem.length = 30) (hin : ∀ i ∈ is, InRange t.bits t.signed i)
    (his : ∀ i ∈ is, i.natAbs < 10 * (t.max / 10)) :
    ∃ text mem, o.putInts t is = .ok ⟨mem, o.text ++ text⟩ ∧
      getInts t old is.length text = (is.map fun i => (i, .noError), []) := by
  induction is generalizing o old with
  | nil => exact ⟨[], o.mem, by simp [Out.putInts], rfl⟩
  | cons i is ih =>
    have hi := hin i (by simp)
    have hb := his i (by simp)
    obtain ⟨mem', h1, h2⟩ := C44_put_partial t o i ho hi (by omega)
    obtain ⟨text, mem, h3, h4⟩ := ih ⟨mem', o.text ++ numeral i ++ [' ']⟩ i h2
      (fun j hj => hin j (by simp [hj])) (fun j hj => his j (by simp [hj]))
    refine ⟨numeral i ++ ' ' :: text, mem, ?_, ?_⟩
    · unfold Out.putInts
      rw [h1, Outcome.bind_ok]
      unfold Out.putChar
      simp only
      rw [h3]
      simp
    · have hread : getInt t old (numeral i ++ ' ' :: text) = ⟨i, .noError, text⟩ := by
        have hdig : Digits (Nat.toDigits 10 i.natAbs) := by
          obtain ⟨c, cs, h, _⟩ := Conv.toDigits_cons i.natAbs
          exact ⟨by simp [h], fun c hc => Conv.toDigits_isDigit hc⟩
        have hval : decValue (Nat.toDigits 10 i.natAbs) = i.natAbs := Nat.ofDigitChars_ten_toDigits
        have hsmall : i.natAbs < 10 ^ 25 := by
          cases t <;> simp [ITy.bits, ITy.signed, InRange] at hi <;> omega
        have hsg : i < 0 → t.signed = true := by
          intro hn; cases t <;> simp [ITy.bits, ITy.signed, InRange] at hi ⊢ <;> omega
        have key := C42_decimal_partial t old [] (if i < 0 then ['-'] else [])
          (Nat.toDigits 10 i.natAbs) (' ' :: text) (by decide) (by
            by_cases h : i < 0
            · rw [if_pos h]; exact .inr (.inr ⟨rfl, hsg h⟩)
            · rw [if_neg h]; exact .inl rfl) hdig
            (by intro c hc; obtain rfl : ' ' = c := by simpa using hc
                decide)
            ((Nat.length_toDigits_le_iff (by decide) (by decide)).2 hsmall)
            (by intro _ _ c hc; obtain rfl : ' ' = c := by simpa using hc
                exact .inl rfl)
        rw [hval, if_pos hb] at key
        have e : [] ++ (if i < 0 then ['-'] else []) ++ Nat.toDigits 10 i.natAbs ++ ' ' :: text
            = numeral i ++ ' ' :: text := by
          unfold numeral; by_cases h : i < 0 <;> simp [h]
        rw [e] at key
        rw [key]
        have hv : (if (if i < 0 then ['-'] else []) = ['-'] then -(i.natAbs : Int)
            else (i.natAbs : Int)) = i := by
          by_cases h : i < 0
          · rw [if_pos h, if_pos rfl]; omega
          · rw [if_neg h, if_neg (by decide)]; omega
        rw [hv]; rfl
      simp only [List.length_cons, getInts, hread, h4, List.map_cons]

/-- A fresh stream on an empty device satisfies the hypothesis of the round trip. -/
theorem C44_fresh : ∃ o, Out.new = .ok o ∧ o.mem.length = 30 ∧ o.text = [] :=
  ⟨_, rfl, by decide, rfl⟩

example : getInts .int 0 3 "12 -34 0 ".toList
    = ([(12, .noError), (-34, .noError), (0, .noError)], []) := by decide

/-- What each piece looks like in the text. -/
def C44.shown : Piece → List Char
  | .integer _ i => numeral i
  | .char c => [c]
  | .bool b => if b then ['t', 'r', 'u', 'e'] else ['f', 'a', 'l', 's', 'e']
  | .string s => s

/-- **C44, partial**: a chain of pieces appears in the text one behind the other.  Missing: the smallest value of a signed
type (`C44_fails_limits`). -/
theorem C44_chain_partial (ps : List Piece) (o : Out) (ho : o.mem.length = 30)
    (h : ∀ t i, Piece.integer t i ∈ ps → InRange t.bits t.signed i ∧ i.natAbs ≤ t.max) :
    ∃ mem, o.puts ps = .ok ⟨mem, o.text ++ (ps.map C44.shown).flatten⟩ := by
  induction ps generalizing o with
  | nil => exact ⟨o.mem, by simp [Out.puts]⟩
  | cons p ps ih =>
    have h' : ∀ t i, Piece.integer t i ∈ ps → InRange t.bits t.signed i ∧ i.natAbs ≤ t.max :=
      fun t i hm => h t i (List.mem_cons_of_mem _ hm)
    cases p with
    | integer t i =>
      obtain ⟨h1, h2⟩ := h t i (by simp)
      obtain ⟨mem', e, hm⟩ := C44_put_partial t o i ho h1 h2
      obtain ⟨mem, e2⟩ := ih ⟨mem', o.text ++ numeral i⟩ hm h'
      refine ⟨mem, ?_⟩
      rw [Out.puts, e]
      simpa [C44.shown] using e2
    | char c =>
      obtain ⟨mem, e2⟩ := ih (o.putChar c) ho h'
      exact ⟨mem, by rw [Out.puts, e2]; simp [C44.shown, Out.putChar]⟩
    | bool b =>
      obtain ⟨mem, e2⟩ := ih (o.putBool b) ho h'
      exact ⟨mem, by rw [Out.puts, e2]; cases b <;> simp [C44.shown, Out.putBool]⟩
    | string s =>
      obtain ⟨mem, e2⟩ := ih (o.putString s) ho h'
      exact ⟨mem, by rw [Out.puts, e2]; simp [C44.shown, Out.putString]⟩

/-- `stream << "x = " << -5 << ';' << true`. -/
example : ([.string "x = ".toList, .integer .int (-5), .char ';', .bool true].map C44.shown).flatten =
    "x = -5;true".toList := by decide

/-- **C44, refuted**: the largest `int` is written but not read back; the smallest is not even
written (its negation overflows). -/
theorem C44_fails_limits (o : Out) (ho : o.mem.length = 30) (old : Int) :
    (∃ mem, o.putInt .int intMax = .ok ⟨mem, o.text ++ numeral intMax⟩) ∧
      getInt .int old (numeral intMax ++ [' ']) = ⟨old, .outOfRange, []⟩ ∧
      o.putInt .int intMin = .ub := by
  refine ⟨?_, ?_, ?_⟩
  · obtain ⟨mem, h, _⟩ := C44_put_partial .int o intMax ho (by decide) (by decide)
    exact ⟨mem, h⟩
  · have key := C42_decimal_partial .int old [] [] (numeral intMax) [' '] (by decide) (.inl rfl)
      (by decide) (by decide) (by decide) (by decide)
    rw [if_neg (by decide)] at key
    exact key
  · rfl

/-! ## C45 -/

/-- **C45**: reading a word yields the first maximal run of characters other than space and
newline, and consumes it with the one blank that ends it; it fails, leaving the string alone, only
on a text of blanks. -/
theorem C45_word (old inp w rest : List Char) :
    getWord old inp = ⟨w, .noError, rest⟩ ↔ NextWord inp w rest := by
  constructor
  · intro h
    rcases skip_cases inp with ⟨_, hs⟩ | ⟨bl, c, cs, hbl, hc, hinp, hs⟩
    · unfold getWord at h
      rw [hs] at h
      simp at h
    · unfold getWord at h
      rw [hs] at h
      simp only [Got.mk.injEq, true_and] at h
      obtain ⟨rfl, rfl⟩ := h
      obtain ⟨h1, h2, h3⟩ := wordLoop_spec cs c hc
      refine ⟨h2, h1, bl, hbl, ?_⟩
      rcases h3 with ⟨h3, h4⟩ | ⟨b, hb, h3⟩
      · exact .inl ⟨by rw [hinp, ← h3], h4⟩
      · refine .inr ⟨b, hb, ?_⟩
        rw [List.append_assoc, ← h3, hinp]
  · rintro ⟨hne, hw, bl, hbl, h⟩
    obtain ⟨c, w, rfl⟩ := List.exists_cons_of_ne_nil hne
    have hc := hw c (by simp)
    have hw' : ∀ x ∈ w, ¬ IsBlank x := fun x hx => hw x (by simp [hx])
    unfold getWord
    rcases h with ⟨rfl, rfl⟩ | ⟨b, hb, rfl⟩
    · rw [skip_append _ _ hbl, skip_cons _ _ hc]
      have := wordLoop_word w c [] hw' (by intro b hb; cases hb)
      simp only [List.append_nil] at this
      simp [this]
    · rw [List.append_assoc, skip_append _ _ hbl, List.cons_append, skip_cons _ _ hc]
      have := wordLoop_word w c (b :: rest) hw' (by
        intro d hd; obtain rfl : b = d := by simpa using hd
        exact hb)
      simp [this]

/-- **C45**: a text without words gives a read error and leaves the string alone. -/
theorem C45_no_word (old inp : List Char) :
    (getWord old inp).err ≠ .noError ↔ AllBlank inp := by
  rcases skip_cases inp with ⟨hb, hs⟩ | ⟨bl, c, cs, hbl, hc, hinp, hs⟩
  · unfold getWord; rw [hs]; simp [hb]
  · unfold getWord; rw [hs]
    simp only [ne_eq, not_true_eq_false, false_iff]
    intro h
    exact hc (h c (by rw [hinp]; simp))

theorem C45_no_word_keeps (old inp : List Char) (h : AllBlank inp) :
    getWord old inp = ⟨old, .readError, []⟩ := by
  unfold getWord; rw [skip_none _ h]

private theorem wordsOf_acc (w : List Char) : ∀ (cs acc : List Char), acc ≠ [] →
    (∀ x ∈ w, ¬ IsBlank x) → (∀ b, cs.head? = some b → IsBlank b) →
    wordsOf acc (w ++ cs) = (acc.reverse ++ w) :: wordsOf [] (cs.drop 1) := by
  induction w with
  | nil =>
    intro cs acc hacc _ hcs
    cases cs with
    | nil => cases acc with
      | nil => exact absurd rfl hacc
      | cons a acc => simp [wordsOf]
    | cons b cs => simp [wordsOf, hcs b rfl, hacc]
  | cons c w ih =>
    intro cs acc hacc hw hcs
    rw [List.cons_append, wordsOf, if_neg (hw c (by simp)), ih cs (c :: acc) (by simp)
      (fun x hx => hw x (by simp [hx])) hcs]
    simp

private theorem wordsOf_blank (bl cs : List Char) (h : AllBlank bl) :
    wordsOf [] (bl ++ cs) = wordsOf [] cs := by
  induction bl with
  | nil => rfl
  | cons b bl ih =>
    rw [List.cons_append, wordsOf, if_pos (h b (by simp)), if_pos rfl]
    exact ih fun x hx => h x (by simp [hx])

/-- **C45**: reading words until the stream reports an error yields exactly the words of the text,
in order. -/
theorem C45_words (n : Nat) (inp : List Char) (hn : inp.length < n) :
    getWords n inp = wordsOf [] inp := by
  induction n generalizing inp with
  | zero => omega
  | succ n ih =>
    unfold getWords
    by_cases hb : AllBlank inp
    · rw [C45_no_word_keeps _ _ hb]
      have := wordsOf_blank inp [] hb
      simp only [List.append_nil] at this
      simp [this, wordsOf]
    · have herr : (getWord [] inp).err = .noError := by
        by_contra h; exact hb ((C45_no_word [] inp).1 h)
      have hnext : NextWord inp (getWord [] inp).val (getWord [] inp).rest := by
        apply (C45_word [] inp _ _).1
        cases hg : getWord [] inp with
        | mk v e r => rw [hg] at herr; simp at herr; subst herr; rfl
      simp only [herr, if_true]
      generalize (getWord [] inp).val = w at *
      generalize (getWord [] inp).rest = rest at *
      obtain ⟨hne, hw, bl, hbl, h⟩ := hnext
      obtain ⟨c, w, rfl⟩ := List.exists_cons_of_ne_nil hne
      have hc := hw c (by simp)
      have hw' : ∀ x ∈ w, ¬ IsBlank x := fun x hx => hw x (by simp [hx])
      rcases h with ⟨rfl, rfl⟩ | ⟨b, hb', rfl⟩
      · rw [wordsOf_blank _ _ hbl, wordsOf, if_neg hc]
        have := wordsOf_acc w [] [c] (by simp) hw' (by intro b hb; cases hb)
        simp only [List.append_nil, List.drop_nil] at this
        rw [this, ih [] (by simp at hn ⊢; omega)]
        simp
      · rw [List.append_assoc, wordsOf_blank _ _ hbl, List.cons_append, wordsOf, if_neg hc]
        have := wordsOf_acc w (b :: rest) [c] (by simp) hw' (by
          intro d hd; obtain rfl : b = d := by simpa using hd
          exact hb')
        rw [this, ih rest (by simp at hn; omega)]
        simp

example : wordsOf [] " ab  c\nd ".toList = ["ab".toList, "c".toList, "d".toList] := by decide

/-- **C45**: a boolean is read exactly from the words true, TRUE, True (as true) and false, FALSE,
False (as false); any other word is a conversion error, no word a read error; the word is consumed
and the variable left alone on errors. -/
theorem C45_bool (old : Bool) (inp w rest : List Char) (h : NextWord inp w rest) (v : Bool) :
    (getBool old inp = ⟨v, .noError, rest⟩ ↔
      (v = true ∧ w ∈ ["true".toList, "TRUE".toList, "True".toList]) ∨
      (v = false ∧ w ∈ ["false".toList, "FALSE".toList, "False".toList])) ∧
    (w ∉ ["true".toList, "TRUE".toList, "True".toList, "false".toList, "FALSE".toList,
        "False".toList] → getBool old inp = ⟨old, .conversionError, rest⟩) := by
  have hg := (C45_word [] inp w rest).2 h
  unfold getBool
  rw [hg]
  simp only [ne_eq, not_true_eq_false, if_false, List.mem_cons, List.not_mem_nil, or_false,
    not_or]
  by_cases h1 : w = "true".toList ∨ w = "TRUE".toList ∨ w = "True".toList
  · rw [if_pos h1]
    constructor
    · constructor
      · intro hv; left; simp at hv; exact ⟨hv, h1⟩
      · rintro (⟨rfl, _⟩ | ⟨rfl, h2⟩)
        · rfl
        · exfalso
          rcases h1 with rfl | rfl | rfl <;> revert h2 <;> decide
    · intro h2; tauto
  · rw [if_neg h1]
    by_cases h2 : w = "false".toList ∨ w = "FALSE".toList ∨ w = "False".toList
    · rw [if_pos h2]
      constructor
      · constructor
        · intro hv; right; simp at hv; exact ⟨hv, h2⟩
        · rintro (⟨rfl, h3⟩ | ⟨rfl, _⟩)
          · exact absurd h3 h1
          · rfl
      · intro h3; tauto
    · rw [if_neg h2]
      constructor
      · constructor
        · intro hv; simp at hv
        · rintro (⟨_, h3⟩ | ⟨_, h3⟩)
          · exact absurd h3 h1
          · exact absurd h3 h2
      · intro _; trivial

theorem C45_bool_none (old : Bool) (inp : List Char) (h : AllBlank inp) :
    getBool old inp = ⟨old, .readError, []⟩ := by
  unfold getBool; rw [C45_no_word_keeps _ _ h]; simp

/-- **C45**: booleans written to a stream read back. -/
theorem C45_bool_round_trip (o : Out) (b old : Bool) (rest : List Char) :
    getBool old (((Out.mk o.mem []).putBool b).text ++ ' ' :: rest) = ⟨b, .noError, rest⟩ := by
  cases b <;> simp [Out.putBool, getBool, getWord, skip, blank, wordLoop]

example : getBool true "\nFALSE 1".toList = ⟨false, .noError, "1".toList⟩ := by decide

/-! ## C46 -/

private theorem fracSum_eq (ds : List Char) : ∀ mult n : Rat,
    fracSum mult n ds = n + mult * fracValue ds := by
  induction ds with
  | nil => intro mult n; simp [fracSum, fracValue, decValue]
  | cons c cs ih =>
    intro mult n
    rw [fracSum, ih]
    have h10 : ((10 : Rat) ^ cs.length) ≠ 0 := by positivity
    have e : (decValue (c :: cs) : Rat) = 10 ^ cs.length * (digVal c : Rat) + decValue cs := by
      unfold decValue
      rw [Nat.ofDigitChars_cons, Nat.ofDigitChars_eq_ofDigitChars_zero]
      push_cast
      simp [digVal]
    unfold fracValue
    rw [e, List.length_cons, pow_succ]
    field_simp
    ring

/-- **C46, partial**: blanks, an optional sign, at most 25 digits, optionally a point and at most 25
more digits, *followed by at least one more character* that does not continue the number, read
exactly (arithmetic without rounding).  The integral or the fractional digits may be absent, not
both.  Missing: numbers at the end of the input (`C46_fails_end`) and longer ones. -/
theorem C46_fraction_partial (old : Rat) (bl sg is fs : List Char) (e : Char) (s : List Char)
    (hbl : AllBlank bl) (hsg : sg = [] ∨ sg = ['+'] ∨ sg = ['-'])
    (hi : ∀ c ∈ is, c.isDigit = true) (hf : ∀ c ∈ fs, c.isDigit = true)
    (hne : is ≠ [] ∨ fs ≠ []) (hil : is.length ≤ 25) (hfl : fs.length ≤ 25)
    (he : e.isDigit = false) :
    getFloat old (bl ++ sg ++ is ++ '.' :: fs ++ e :: s) =
      ⟨(if sg = ['-'] then -1 else 1) * ((decValue is : Rat) + fracValue fs), .noError, s⟩ := by
  -- the part after the sign
  have key : ∀ (sign : Rat) (c : Char) (cs : List Char), c :: cs = is ++ '.' :: (fs ++ e :: s) →
      finishFloat sign old c cs
        = ⟨sign * ((decValue is : Rat) + fracValue fs), .noError, s⟩ := by
    intro sign c cs hcs
    have hfirst : fracLoop c cs 25 = (is, '.', fs ++ e :: s) := by
      cases is with
      | nil =>
        simp only [List.nil_append, List.cons.injEq] at hcs
        obtain ⟨rfl, rfl⟩ := hcs
        exact fracLoop_none '.' _ 25 (by decide)
      | cons d is =>
        simp only [List.cons_append, List.cons.injEq] at hcs
        obtain ⟨rfl, rfl⟩ := hcs
        exact fracLoop_spec is c '.' _ 25 (hi c (by simp)) (fun x hx => hi x (by simp [hx]))
          (by decide) (by simp at hil; omega)
    unfold finishFloat
    rw [hfirst]
    simp only [if_true]
    have hsum : intSum 0 is = (decValue is : Rat) := by
      have := intSum_eq is 0
      simpa [decValue] using this
    cases fs with
    | nil =>
      simp only [List.nil_append]
      rw [fracLoop_none e s 25 he]
      have hisl : is.length ≠ 0 := by
        rcases hne with h | h
        · simpa using h
        · exact absurd rfl h
      simp [hisl, fracSum, hsum, fracValue, decValue]
    | cons d fs =>
      simp only [List.cons_append]
      rw [fracLoop_spec fs d e s 25 (hf d (by simp)) (fun x hx => hf x (by simp [hx])) he
        (by simp at hfl; omega)]
      simp [fracSum_eq, hsum]
  have hcons : ∃ c cs, c :: cs = is ++ '.' :: (fs ++ e :: s) ∧ ¬ IsBlank c ∧ c ≠ '-' ∧ c ≠ '+' := by
    cases is with
    | nil => exact ⟨'.', _, rfl, by rintro (h | h) <;> revert h <;> decide, by decide, by decide⟩
    | cons d is =>
      have hd := hi d (by simp)
      exact ⟨d, _, rfl, digit_not_blank hd, by rintro rfl; exact absurd hd (by decide),
        by rintro rfl; exact absurd hd (by decide)⟩
  obtain ⟨c, cs, hcs, hb, hm, hp⟩ := hcons
  have einp : bl ++ sg ++ is ++ '.' :: fs ++ e :: s = bl ++ (sg ++ c :: cs) := by
    rw [hcs]; simp
  rw [einp]
  unfold getFloat
  rw [skip_append _ _ hbl]
  rcases hsg with rfl | rfl | rfl
  · rw [List.nil_append, skip_cons _ _ hb]
    simp only
    rw [if_neg hm, if_neg hp, key 1 c cs hcs]
    simp
  · rw [List.singleton_append, skip_cons _ _ (by rintro (h | h) <;> revert h <;> decide)]
    simp only
    rw [if_neg (by decide), if_pos trivial, key 1 c cs hcs]
    simp
  · rw [List.singleton_append, skip_cons _ _ (by rintro (h | h) <;> revert h <;> decide)]
    simp only [if_true]
    rw [key (-1) c cs hcs]

/-- **C46, partial**: the same for a number without a point, followed by a character that is
neither a digit nor a point. -/
theorem C46_integer_partial (old : Rat) (bl sg is : List Char) (e : Char) (s : List Char)
    (hbl : AllBlank bl) (hsg : sg = [] ∨ sg = ['+'] ∨ sg = ['-'])
    (hi : Digits is) (hil : is.length ≤ 25) (he : e.isDigit = false) (he' : e ≠ '.') :
    getFloat old (bl ++ sg ++ is ++ e :: s) =
      ⟨(if sg = ['-'] then -1 else 1) * (decValue is : Rat), .noError, s⟩ := by
  obtain ⟨hne, hi⟩ := hi
  obtain ⟨c, is, rfl⟩ := List.exists_cons_of_ne_nil hne
  have hc := hi c (by simp)
  have key : ∀ sign : Rat, finishFloat sign old c (is ++ e :: s)
        = ⟨sign * (decValue (c :: is) : Rat), .noError, s⟩ := by
    intro sign
    have hsum : intSum 0 (c :: is) = (decValue (c :: is) : Rat) := by
      have := intSum_eq (c :: is) 0
      simpa [decValue] using this
    unfold finishFloat
    rw [fracLoop_spec is c e s 25 hc (fun x hx => hi x (by simp [hx])) he
      (by simp at hil; omega)]
    simp [he', hsum]
  have einp : bl ++ sg ++ (c :: is) ++ e :: s = bl ++ (sg ++ c :: (is ++ e :: s)) := by simp
  rw [einp]
  unfold getFloat
  rw [skip_append _ _ hbl]
  rcases hsg with rfl | rfl | rfl
  · rw [List.nil_append, skip_cons _ _ (digit_not_blank hc)]
    simp only
    rw [if_neg (by rintro rfl; exact absurd hc (by decide)),
      if_neg (by rintro rfl; exact absurd hc (by decide)), key]
    simp
  · rw [List.singleton_append, skip_cons _ _ (by rintro (h | h) <;> revert h <;> decide)]
    simp only
    rw [if_neg (by decide), if_pos trivial, key]
    simp
  · rw [List.singleton_append, skip_cons _ _ (by rintro (h | h) <;> revert h <;> decide)]
    simp only [if_true]
    rw [key]

example : getFloat 0 " -12.050;x".toList = ⟨-1 * (12 + fracValue "050".toList), .noError, ['x']⟩ :=
  C46_fraction_partial 0 [' '] ['-'] "12".toList "050".toList ';' ['x'] (by decide) (by simp)
    (by decide) (by decide) (by decide) (by decide) (by decide) (by decide)

/-- **C46**: a text without digits — only blanks, or blanks, an optional sign, an optional point
and then something else — is reported as an error and the variable left alone. -/
theorem C46_rejects (old : Rat) (bl sg pt : List Char) (e : Char) (s : List Char)
    (hbl : AllBlank bl) (hsg : sg = [] ∨ sg = ['+'] ∨ sg = ['-']) (hpt : pt = [] ∨ pt = ['.'])
    (he : e.isDigit = false)
    (he' : e ∉ [' ', '\n', '+', '-', '.']) :
    getFloat old bl = ⟨old, .readError, []⟩ ∧
      getFloat old (bl ++ sg ++ pt ++ e :: s) = ⟨old, .conversionError, s⟩ := by
  simp only [List.mem_cons, List.not_mem_nil, or_false, not_or] at he'
  obtain ⟨h1, h2, h3, h4, h5⟩ := he'
  refine ⟨by unfold getFloat; rw [skip_none _ hbl], ?_⟩
  have key : ∀ (sign : Rat) (c : Char) (cs : List Char), c :: cs = pt ++ e :: s →
      finishFloat sign old c cs = ⟨old, .conversionError, s⟩ := by
    intro sign c cs hcs
    rcases hpt with rfl | rfl
    · simp only [List.nil_append, List.cons.injEq] at hcs
      obtain ⟨rfl, rfl⟩ := hcs
      unfold finishFloat
      rw [fracLoop_none c cs 25 he]
      simp [h5]
    · simp only [List.singleton_append, List.cons.injEq] at hcs
      obtain ⟨rfl, rfl⟩ := hcs
      unfold finishFloat
      rw [fracLoop_none '.' _ 25 (by decide)]
      simp only [if_true]
      rw [fracLoop_none e s 25 he]
      simp
  have hcons : ∃ c cs, c :: cs = pt ++ e :: s ∧ ¬ IsBlank c ∧ c ≠ '-' ∧ c ≠ '+' := by
    rcases hpt with rfl | rfl
    · exact ⟨e, s, rfl, fun h => h.elim h1 h2, h4, h3⟩
    · exact ⟨'.', _, rfl, by rintro (h | h) <;> revert h <;> decide, by decide, by decide⟩
  obtain ⟨c, cs, hcs, hb, hm, hp⟩ := hcons
  rw [List.append_assoc, List.append_assoc, ← hcs]
  unfold getFloat
  rw [skip_append _ _ hbl]
  rcases hsg with rfl | rfl | rfl
  · rw [List.nil_append, skip_cons _ _ hb]
    simp only
    rw [if_neg hm, if_neg hp, key 1 c cs hcs]
  · rw [List.singleton_append, skip_cons _ _ (by rintro (h | h) <;> revert h <;> decide)]
    simp only
    rw [if_neg (by decide), if_pos trivial, key 1 c cs hcs]
  · rw [List.singleton_append, skip_cons _ _ (by rintro (h | h) <;> revert h <;> decide)]
    simp only [if_true]
    rw [key (-1) c cs hcs]

/-- **C46, refuted**: at the end of the input the last digit is dropped: every text of at least two
digits reads as the number without its last digit, and a single digit is not read at all. -/
theorem C46_fails_end (old : Rat) (is : List Char) (d : Char) (hi : ∀ c ∈ is, c.isDigit = true)
    (hd : d.isDigit = true) (hl : is.length < 25) :
    getFloat old (is ++ [d]) =
      if is = [] then ⟨old, .conversionError, []⟩ else ⟨(decValue is : Rat), .noError, []⟩ := by
  have loop : ∀ (is : List Char) (c : Char) (room : Nat), (∀ x ∈ c :: is, x.isDigit = true) →
      is.length < room → fracLoop c (is ++ [d]) (room + 1) = (c :: is, d, []) ∧
        fracLoop d [] (room + 1) = ([], d, []) := by
    intro is
    induction is with
    | nil =>
      intro c room hc hr
      refine ⟨?_, rfl⟩
      cases room <;> simp [fracLoop, dig_eq, hc c (by simp)]
    | cons e is ih =>
      intro c room hc hr
      refine ⟨?_, rfl⟩
      obtain ⟨room, rfl⟩ : ∃ r, room = r + 1 := ⟨room - 1, by simp at hr; omega⟩
      have := (ih e room (fun x hx => hc x (by simp at hx ⊢; tauto)) (by simp at hr; omega)).1
      simp only [List.cons_append, fracLoop, dig_eq, hc c (by simp), if_true, this]
  have hnd : d ≠ '.' := by rintro rfl; exact absurd hd (by decide)
  cases is with
  | nil =>
    unfold getFloat
    rw [List.nil_append, skip_cons _ _ (digit_not_blank hd)]
    simp only
    rw [if_neg (by rintro rfl; exact absurd hd (by decide)),
      if_neg (by rintro rfl; exact absurd hd (by decide))]
    simp [finishFloat, fracLoop, hnd]
  | cons c is =>
    have hc := hi c (by simp)
    unfold getFloat
    rw [List.cons_append, skip_cons _ _ (digit_not_blank hc)]
    simp only
    rw [if_neg (by rintro rfl; exact absurd hc (by decide)),
      if_neg (by rintro rfl; exact absurd hc (by decide))]
    have h := (loop is c 24 hi (by simp at hl; omega)).1
    unfold finishFloat
    rw [h]
    have hsum : intSum 0 (c :: is) = (decValue (c :: is) : Rat) := by
      have := intSum_eq (c :: is) 0
      simpa [decValue] using this
    simp [hnd, hsum]

/-- The text `5` is not read; `42` reads as four. -/
example : (getFloat 7 "5".toList).err = .conversionError ∧
    getFloat 7 "42".toList = ⟨4, .noError, []⟩ := by
  constructor
  · decide
  · have := C46_fails_end 7 ['4'] '2' (by decide) (by decide) (by decide)
    have h4 : decValue ['4'] = 4 := by decide
    simpa [h4] using this

end Ecl.Props
