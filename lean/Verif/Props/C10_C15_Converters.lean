import Verif.Lemmas.Converters
import Mathlib.Data.List.TakeWhile

/-!
# C10–C15: converters

C10/C11 byte arrays, C12 hexadecimal text, C13 integer to `std::string` and back, C14 integer to
character buffer, C15 digits.
-/
set_option autoImplicit false
set_option linter.unusedSimpArgs false

namespace Ecl.Props
open Ecl.Conv Ecl.Spec

/-! ## C10 -/

/-- **C10**: the bytes written for a value are its little-endian representation modulo
`2^(8*bytes)`, for every value and every size of type (also 8 bytes). -/
theorem C10_little_endian (m : Mode) (bytes : Nat) (arr : List Nat) (v : Int)
    (h : arr.length = bytes) :
    ∃ out, toBytes m bytes arr v = .ok (out, .noError) ∧ out.length = bytes ∧
      (∀ b ∈ out, b < 256) ∧ (leValue out : Int) = v % 2 ^ (8 * bytes) := by
  refine ⟨_, by unfold toBytes; rw [if_neg (by simp [h])], by simp, ?_, leValue_toBytes bytes v⟩
  intro b hb
  obtain ⟨i, _, rfl⟩ := List.mem_map.1 hb
  exact byteOf_lt v i

/-- **C10**: every byte array that fits an integral type of at most 32 bits is read as its
little-endian value (two's complement for signed types). -/
theorem C10_read (m : Mode) (w : Nat) (signed : Bool) (arr : List Nat) (hw : w ≤ 32)
    (hlen : 8 * arr.length ≤ w) (hb : ∀ b ∈ arr, b < 256) :
    fromBytes m w signed arr =
      .ok (if signed then twos w (leValue arr) else leValue arr, .noError) := by
  have hl := fromLoop_eq w arr 0 0 hb (by simp) (by omega) (by omega) (.inl hw)
  have h1 : ¬ w / 8 < arr.length := by omega
  unfold fromBytes
  rw [if_neg (by simp [h1]), hl]
  simp [h1, twos]

/-- **C10**: every value of every 8, 16 or 32 bit integral type survives the round trip through a
byte array, in both build modes. -/
theorem C10_round_trip (m m' : Mode) (w : Nat) (signed : Bool) (arr : List Nat) (v : Int)
    (hw : w = 8 ∨ w = 16 ∨ w = 32) (harr : arr.length = w / 8) (hv : InRange w signed v) :
    ∃ out, toBytes m (w / 8) arr v = .ok (out, .noError) ∧
      fromBytes m' w signed out = .ok (v, .noError) := by
  obtain ⟨out, h1, h2, h3, h4⟩ := C10_little_endian m (w / 8) arr v harr
  refine ⟨out, h1, ?_⟩
  rw [C10_read m' w signed out (by omega) (by omega) h3]
  congr 2
  have e : 8 * (w / 8) = w := by omega
  rw [e] at h4
  cases signed
  · simp only [InRange, Bool.false_eq_true, if_false] at hv ⊢
    rw [h4, Int.emod_eq_of_lt hv.1 hv.2]
  · simp only [InRange, if_true] at hv ⊢
    unfold twos
    have hlt : leValue out < 2 ^ (w - 1) ↔ (leValue out : Int) < 2 ^ (w - 1) := by
      norm_cast
    rw [h4] at hlt ⊢
    simp only [hlt]
    rcases hw with rfl | rfl | rfl <;> norm_num at hv ⊢ <;> split <;> omega

/-- **C10**: writing into an array of any other size, and reading an array that is too long, throws
in debug builds; in release builds writing leaves the array unchanged and flags the error. -/
theorem C10_wrong_size (bytes w : Nat) (signed : Bool) (arr : List Nat) (v : Int) :
    (arr.length ≠ bytes → toBytes .debug bytes arr v = .throw .conversionError ∧
      toBytes .release bytes arr v = .ok (arr, .conversionError)) ∧
    (w / 8 < arr.length → fromBytes .debug w signed arr = .throw .conversionError) := by
  refine ⟨fun h => ⟨by simp [toBytes, h], by simp [toBytes, h]⟩, fun h => by simp [fromBytes, h]⟩

/-- **C10, refuted part**: a byte array of another size is not always rejected: shorter arrays are
read silently, and in release builds a too long one is read on, for a 32 bit type into an
undefined shift. -/
theorem C10_fails_other_sizes :
    fromBytes .debug 32 true [7] = .ok (7, .noError) ∧
      fromBytes .release 16 true [1, 0, 9] = .ok (1, .conversionError) ∧
      fromBytes .release 32 true [0, 0, 0, 0, 0] = .ub := by decide

example : toBytes .debug 4 [0, 0, 0, 0] (-2) = .ok ([254, 255, 255, 255], .noError) ∧
    fromBytes .release 32 true [254, 255, 255, 255] = .ok (-2, .noError) := by decide
example : InRange 16 true (-32768) ∧ InRange 8 false 255 := by decide

/-! ## C11 -/

/-- **C11, refuted**: for a 64 bit type the round trip is undefined for *every* value, in both
build modes: reading byte 4 shifts an `int` by 32. -/
theorem C11_fails_round_trip (m m' : Mode) (signed : Bool) (arr : List Nat) (v : Int)
    (h : arr.length = 8) :
    ∃ out, toBytes m 8 arr v = .ok (out, .noError) ∧ fromBytes m' 64 signed out = .ub := by
  obtain ⟨out, h1, h2, _, _⟩ := C10_little_endian m 8 arr v h
  refine ⟨out, h1, ?_⟩
  unfold fromBytes
  rw [if_neg (by simp [h2]), fromLoop_ub 64 out 0 0 (by omega) (by omega)]
  rfl

/-- **C11, refuted**: four bytes with the top bit set are sign extended into a 64 bit value. -/
theorem C11_fails_sign_extension :
    fromBytes .debug 64 false [0, 0, 0, 128] = .ok (18446744071562067968, .noError) ∧
      leValue [0, 0, 0, 128] = 2147483648 := by decide

/-- **C11, partial**: 64 bit values are read correctly from arrays of at most four bytes whose
value is below `2^31`; missing: everything longer (undefined, see `C11_fails_round_trip`) and four
byte arrays with the top bit set (`C11_fails_sign_extension`). -/
theorem C11_short_arrays_partial (m : Mode) (signed : Bool) (arr : List Nat)
    (hlen : arr.length ≤ 4) (hb : ∀ b ∈ arr, b < 256) (hv : leValue arr < 2147483648) :
    fromBytes m 64 signed arr = .ok (leValue arr, .noError) := by
  have hl := fromLoop_eq 64 arr 0 0 hb (by simp) (by omega) (by omega) (.inr (by simpa using hv))
  have h1 : ¬ 64 / 8 < arr.length := by omega
  unfold fromBytes
  rw [if_neg (by omega), hl]
  have h2 : ¬ 8 < arr.length := by omega
  have h3 : leValue arr < 9223372036854775808 := by omega
  simp [h2, h3]

/-- **C11**: writing a 64 bit value is exact (little-endian, modulo `2^64`). -/
theorem C11_write (m : Mode) (arr : List Nat) (v : Int) (h : arr.length = 8) :
    ∃ out, toBytes m 8 arr v = .ok (out, .noError) ∧ out.length = 8 ∧
      (∀ b ∈ out, b < 256) ∧ (leValue out : Int) = v % 18446744073709551616 := by
  obtain ⟨out, h1, h2, h3, h4⟩ := C10_little_endian m 8 arr v h
  exact ⟨out, h1, h2, h3, by simpa using h4⟩

example : ∀ b ∈ [1, 2, 3, 127], b < 256 := by decide
example : leValue [1, 2, 3, 127] < 2147483648 := by decide

/-! ## C12 -/

/-- **C12**: a text made of blanks and tokens `0xHH` is converted to the listed bytes in order. -/
theorem C12_accepts (m : Mode) (s : List Char) (bs : List Nat) (h : HexText s bs) :
    hexParse m s = .ok (bs, .noError) := by
  have := hexLoop_complete h [] (.inl rfl) 0 []
  simp only [List.append_nil, List.nil_append] at this
  simp [hexParse, this]

/-- **C12**: exactly the texts that consist of blanks and tokens, followed by nothing or by an
unfinished token (`0`, `0x` or `0xH`), are accepted, and the unfinished token is ignored. -/
theorem C12_accepted_iff (m : Mode) (s : List Char) (bs : List Nat) :
    hexParse m s = .ok (bs, .noError) ↔
      ∃ pre t, s = pre ++ t ∧ HexText pre bs ∧
        (t = [] ∨ t = ['0'] ∨ t = ['0', 'x'] ∨ ∃ h a, Hex h a ∧ t = ['0', 'x', h]) := by
  constructor
  · intro h
    unfold hexParse at h
    cases hl : hexLoop s .waitingZero 0 [] with
    | none => rw [hl] at h; cases m <;> simp at h
    | some r =>
      rw [hl] at h
      simp only [Outcome.ok.injEq, Prod.mk.injEq, and_true] at h
      subst h
      obtain ⟨pre, t, bs, e, hp, ht, hr⟩ := hexLoop_sound s.length s le_rfl _ _ _ hl
      simp only [List.nil_append] at hr
      subst hr
      exact ⟨pre, t, e, hp, ht⟩
  · rintro ⟨pre, t, rfl, hp, ht⟩
    have := hexLoop_complete hp t ht 0 []
    simp only [List.nil_append] at this
    simp [hexParse, this]

/-- **C12**: every other text is reported: an exception in debug builds, the error flag and an empty
result in release builds. -/
theorem C12_rejects (s : List Char)
    (h : ¬ ∃ bs pre t, s = pre ++ t ∧ HexText pre bs ∧
        (t = [] ∨ t = ['0'] ∨ t = ['0', 'x'] ∨ ∃ h a, Hex h a ∧ t = ['0', 'x', h])) :
    hexParse .debug s = .throw .conversionError ∧
      hexParse .release s = .ok ([], .conversionError) := by
  cases hl : hexLoop s .waitingZero 0 [] with
  | none => simp [hexParse, hl]
  | some r =>
    obtain ⟨pre, t, bs, e, hp, ht, _⟩ := hexLoop_sound s.length s le_rfl _ _ _ hl
    exact absurd ⟨bs, pre, t, e, hp, ht⟩ h

/-- **C12, refuted part**: a truncated token at the end of the text is accepted silently. -/
theorem C12_fails_truncated :
    hexParse .debug "0x12 0x3".toList = .ok ([18], .noError) ∧
      ¬ ∃ bs, HexText "0x12 0x3".toList bs := by
  refine ⟨by decide, ?_⟩
  have e : "0x12 0x3".toList = ['0', 'x', '1', '2', ' ', '0', 'x', '3'] := by decide
  rw [e]
  rintro ⟨bs, h⟩
  cases h with
  | tok _ _ h =>
    cases h with
    | blank h => cases h

example : HexText ['0', 'x', '1', 'f', ' ', ' ', '0', 'x', 'A', '0'] [31, 160] :=
  .tok (a := 1) (b := 15) (by decide) (by decide)
    (.blank (.blank (.tok (a := 10) (b := 0) (by decide) (by decide) .nil)))
example : hexParse .debug "0xg1".toList = .throw .conversionError := by decide

/-! ## C13 -/

/-- **C13**: for every `int` except `INT_MIN` the string is the canonical decimal numeral. -/
theorem C13_numeral_partial (m : Mode) (i : Int) (hi : InInt i) (hmin : i ≠ intMin) :
    strOfInt m i = .ok (numeral i) := by
  unfold InInt intMin intMax at hi
  unfold intMin at hmin
  unfold strOfInt numeral intMax
  by_cases h : i < 0
  · have e : (-i).toNat = i.natAbs := by omega
    have hl := length_toDigits_int (n := i.natAbs) (by omega)
    rw [if_pos h, if_neg (by omega), if_pos h, e, strLoop_eq _ _ _ _ (by omega), Outcome.bind_ok]
    rw [if_neg (by show ¬ (11 - _ = 0); omega)]
    simp
  · have e : i.toNat = i.natAbs := by omega
    have hl := length_toDigits_int (n := i.natAbs) (by omega)
    rw [if_neg h, if_neg h, e, strLoop_eq _ _ _ _ (by omega), Outcome.bind_ok]
    simp

/-- **C13, refuted**: for `INT_MIN` the conversion overflows (undefined). -/
theorem C13_fails_INT_MIN (m : Mode) : strOfInt m intMin = .ub := by cases m <;> decide

/-- **C13**: the numeral of any `int` is parsed back to that `int`, without an error. -/
theorem C13_parse (m : Mode) (i : Int) (hi : InInt i) :
    intOfStr m (numeral i) = .ok (some i, .noError) := by
  have key : readInt (numeral i) = some (i, []) := by
    unfold readInt numeral
    obtain ⟨c, cs, hc, hd⟩ := toDigits_cons i.natAbs
    have hsp : ∀ d : Char, d.isDigit = true → ¬ (d = ' ' ∨ d = '\t' ∨ d = '\n' ∨ d = '\r' ∨
        d = '\x0b' ∨ d = '\x0c') := by
      rintro d hd (rfl | rfl | rfl | rfl | rfl | rfl) <;> exact absurd hd (by decide)
    by_cases h : i < 0
    · rw [if_pos h]
      have e0 : ('-' :: Nat.toDigits 10 i.natAbs).dropWhile (fun c => decide (c = ' ' ∨ c = '\t' ∨
          c = '\n' ∨ c = '\r' ∨ c = '\x0b' ∨ c = '\x0c')) = '-' :: Nat.toDigits 10 i.natAbs := by
        rw [List.dropWhile_cons, if_neg (by decide)]
      simp only [e0, List.head?_cons, List.tail_cons, true_or, if_true, digitsPrefix,
        takeWhile_digits, Nat.toDigits_ne_nil, if_false, Nat.ofDigitChars_ten_toDigits,
        decide_true]
      have e1 : -((i.natAbs : Nat) : Int) = i := by omega
      rw [e1, if_pos hi]
      simp
    · rw [if_neg h]
      have e0 : (Nat.toDigits 10 i.natAbs).dropWhile (fun c => decide (c = ' ' ∨ c = '\t' ∨
          c = '\n' ∨ c = '\r' ∨ c = '\x0b' ∨ c = '\x0c')) = Nat.toDigits 10 i.natAbs := by
        rw [hc, List.dropWhile_cons, if_neg (by simpa using hsp c hd)]
      have h1 : (Nat.toDigits 10 i.natAbs).head? ≠ some '-' := by
        rw [hc]; simp; rintro rfl; exact absurd hd (by decide)
      have h2 : (Nat.toDigits 10 i.natAbs).head? ≠ some '+' := by
        rw [hc]; simp; rintro rfl; exact absurd hd (by decide)
      simp only [e0, h1, h2, or_self, if_false, digitsPrefix, takeWhile_digits,
        Nat.toDigits_ne_nil, Nat.ofDigitChars_ten_toDigits, decide_false]
      have e1 : ((i.natAbs : Nat) : Int) = i := by omega
      simp only [e1, Bool.false_eq_true, if_false, if_pos hi]
      simp
  simp [intOfStr, key]

/-- **C13**: hence converting to a string and back is the identity (except for `INT_MIN`). -/
theorem C13_round_trip_partial (m m' : Mode) (i : Int) (hi : InInt i) (hmin : i ≠ intMin) :
    ∃ s, strOfInt m i = .ok s ∧ intOfStr m' s = .ok (some i, .noError) :=
  ⟨_, C13_numeral_partial m i hi hmin, C13_parse m' i hi⟩

/-- White space as the classic locale has it. -/
def White (c : Char) : Prop :=
  c = ' ' ∨ c = '\t' ∨ c = '\n' ∨ c = '\r' ∨ c = '\x0b' ∨ c = '\x0c'

/-- **C13**: a text is converted without error only if it is an integer numeral from start to end:
white space, an optional sign, decimal digits and nothing else, with the value in the range of
`int`; the result is that value.  Every other text throws in debug builds and is flagged in release
builds. -/
theorem C13_accepts_only_integers (m : Mode) (s : List Char) (v : Option Int) (fl : Flag)
    (h : intOfStr m s = .ok (v, fl)) :
    (fl = .conversionError ∧ m = .release) ∨ (fl = .noError ∧
      ∃ ws sg ds, s = ws ++ sg ++ ds ∧ (∀ c ∈ ws, White c) ∧ (sg = [] ∨ sg = ['-'] ∨ sg = ['+']) ∧
        ds ≠ [] ∧ (∀ c ∈ ds, c.isDigit = true) ∧ ∃ i, v = some i ∧ InInt i ∧
          i = if sg = ['-'] then -(Nat.ofDigitChars 10 ds 0 : Int) else Nat.ofDigitChars 10 ds 0) := by
  unfold intOfStr at h
  cases hr : readInt s with
  | none => rw [hr] at h; cases m <;> simp at h; exact .inl ⟨h.2.symm, rfl⟩
  | some p =>
    obtain ⟨i, rest⟩ := p
    rw [hr] at h
    cases rest with
    | cons c cs => cases m <;> simp at h; exact .inl ⟨h.2.symm, rfl⟩
    | nil =>
      simp only [Outcome.ok.injEq, Prod.mk.injEq] at h
      obtain ⟨rfl, rfl⟩ := h
      refine .inr ⟨rfl, ?_⟩
      unfold readInt at hr
      simp only at hr
      generalize hs : s.dropWhile (fun c => decide (c = ' ' ∨ c = '\t' ∨ c = '\n' ∨ c = '\r' ∨
        c = '\x0b' ∨ c = '\x0c')) = t at hr
      have hsplit : s = s.takeWhile (fun c => decide (c = ' ' ∨ c = '\t' ∨ c = '\n' ∨ c = '\r' ∨
          c = '\x0b' ∨ c = '\x0c')) ++ t := by rw [← hs]; exact (List.takeWhile_append_dropWhile).symm
      have hw : ∀ c ∈ s.takeWhile (fun c => decide (c = ' ' ∨ c = '\t' ∨ c = '\n' ∨ c = '\r' ∨
          c = '\x0b' ∨ c = '\x0c')), White c := by
        intro c hc; simpa [White] using List.mem_takeWhile_imp hc
      generalize hu : (if t.head? = some '-' ∨ t.head? = some '+' then t.tail else t) = u at hr
      split at hr
      · simp at hr
      rename_i hne
      generalize hw' : (if (decide (t.head? = some '-')) = true
        then -(Nat.ofDigitChars 10 (digitsPrefix u) 0 : Int)
        else (Nat.ofDigitChars 10 (digitsPrefix u) 0 : Int)) = w at hr
      split at hr
      · rename_i hin
        simp only [Option.some.injEq, Prod.mk.injEq] at hr
        obtain ⟨hv, hrest⟩ := hr
        have hdig : digitsPrefix u = u := by
          have h1 : digitsPrefix u ++ u.dropWhile Char.isDigit = u := List.takeWhile_append_dropWhile
          have h2 : u.length ≤ (digitsPrefix u).length := List.drop_eq_nil_iff.1 hrest
          have h3 := congrArg List.length h1
          rw [List.length_append] at h3
          have h4 : u.dropWhile Char.isDigit = [] := List.length_eq_zero_iff.1 (by omega)
          rw [h4, List.append_nil] at h1
          exact h1
        have hall : ∀ c ∈ u, c.isDigit = true := by
          intro c hc
          rw [← hdig] at hc
          exact List.mem_takeWhile_imp hc
        rw [hdig] at hne hw'
        subst hv
        subst hw'
        cases t with
        | nil => simp at hu; exact absurd hu hne
        | cons x t' =>
          by_cases hx : x = '-'
          · subst hx
            simp at hu; subst hu
            refine ⟨_, ['-'], t', by simpa using hsplit, hw, by simp, hne, hall, _, rfl, ?_, ?_⟩
            · simpa using hin
            · simp
          · by_cases hp : x = '+'
            · subst hp
              simp at hu; subst hu
              refine ⟨_, ['+'], t', by simpa using hsplit, hw, by simp, hne, hall, _, rfl, ?_, ?_⟩
              · simpa using hin
              · simp
            · simp [hx, hp] at hu; subst hu
              refine ⟨_, [], x :: t', by simpa using hsplit, hw, by simp, hne, hall, _, rfl, ?_, ?_⟩
              · simpa [hx] using hin
              · simp [hx]
      · simp at hr

example : strOfInt .debug (-2147483647) = .ok "-2147483647".toList := by
  rw [C13_numeral_partial _ _ (by decide) (by decide)]; decide
example : intOfStr .debug "12x".toList = .throw .conversionError := by decide

/-! ## C14 -/

/-- **C14** (unsigned types): in any buffer of `cap+1` characters the conversion either leaves the
canonical numeral, terminated by NUL, ending at the end of the buffer, with the characters before
it untouched; or, exactly when the numeral with its NUL does not fit, returns `NULL`.  It never
writes outside the buffer (that would be `ub`) and the buffer keeps its size. -/
theorem C14_unsigned (mem : List Char) (cap n : Nat) (h : mem.length = cap + 1) :
    ∃ mem' r, bufUnsigned mem cap n = .ok (mem', r) ∧ mem'.length = mem.length ∧
      if (numeral n).length ≤ cap then
        r = some (cap - (numeral n).length) ∧ cstr mem' (cap - (numeral n).length) = numeral n ∧
          mem'.take (cap - (numeral n).length) = mem.take (cap - (numeral n).length)
      else r = none := by
  have hnum : numeral (n : Int) = Nat.toDigits 10 n := by
    unfold numeral; rw [if_neg (by omega)]; simp
  rw [hnum]
  have hmem : mem.set cap '\x00' = mem.take cap ++ ['\x00'] := by
    conv_lhs => rw [← List.take_append_drop cap mem]
    rw [List.set_append_right _ _ (by simp)]
    obtain ⟨x, hx⟩ : ∃ x, mem.drop cap = [x] := List.length_eq_one_iff.1 (by simp [h])
    rw [hx]; simp [h]
  have hlen : (mem.take cap).length = cap := by simp [h]
  unfold bufUnsigned put
  rw [if_pos (by omega), Outcome.bind_ok, hmem]
  by_cases hf : (Nat.toDigits 10 n).length ≤ cap
  · have := bufLoop_fits n 0 (mem.take cap) ['\x00'] (by omega)
    rw [hlen] at this
    refine ⟨_, _, this, ?_, ?_⟩
    · simp [h]; omega
    · rw [if_pos hf]
      have e : ((mem.take cap).take (cap - (Nat.toDigits 10 n).length)).length
          = cap - (Nat.toDigits 10 n).length := by simp [h]
      refine ⟨rfl, cstr_append _ _ (digits_no_nul n) _ e.symm, ?_⟩
      rw [List.append_assoc, List.take_left' e, List.take_take, Nat.min_eq_left (by omega)]
  · obtain ⟨pre', h1, h2⟩ := bufLoop_overflow n 0 (mem.take cap) ['\x00'] (by omega)
    rw [hlen] at h1
    refine ⟨_, _, h1, ?_, by rw [if_neg hf]⟩
    simp only [List.length_append, List.length_singleton]
    omega

/-- **C14** (signed types), for every value whose negation is representable in the promoted type. -/
theorem C14_signed_partial (promMax : Int) (mem : List Char) (cap : Nat) (i : Int)
    (h : mem.length = cap + 1) (hi : -i ≤ promMax) :
    ∃ mem' r, bufSigned promMax mem cap i = .ok (mem', r) ∧ mem'.length = mem.length ∧
      if (numeral i).length ≤ cap then
        r = some (cap - (numeral i).length) ∧ cstr mem' (cap - (numeral i).length) = numeral i ∧
          mem'.take (cap - (numeral i).length) = mem.take (cap - (numeral i).length)
      else r = none := by
  by_cases hneg : i < 0
  swap
  · have := C14_unsigned mem cap i.toNat h
    rw [show ((i.toNat : Nat) : Int) = i by omega] at this
    unfold bufSigned
    rw [if_neg hneg]
    exact this
  have hnum : numeral i = '-' :: Nat.toDigits 10 (-i).toNat := by
    unfold numeral; rw [if_pos hneg]; congr 2; omega
  rw [hnum]
  have hmem : mem.set cap '\x00' = mem.take cap ++ ['\x00'] := by
    conv_lhs => rw [← List.take_append_drop cap mem]
    rw [List.set_append_right _ _ (by simp)]
    obtain ⟨x, hx⟩ : ∃ x, mem.drop cap = [x] := List.length_eq_one_iff.1 (by simp [h])
    rw [hx]; simp [h]
  have hlen : (mem.take cap).length = cap := by simp [h]
  generalize hd : Nat.toDigits 10 (-i).toNat = ds at *
  have hnn := digits_no_nul (-i).toNat
  rw [hd] at hnn
  unfold bufSigned
  rw [if_pos hneg, if_neg (by omega)]
  unfold put
  rw [if_pos (by omega), Outcome.bind_ok, hmem]
  by_cases hf : ds.length + 1 ≤ cap
  · have := bufLoop_fits (-i).toNat 1 (mem.take cap) ['\x00'] (by rw [hd]; omega)
    rw [hlen, hd] at this
    rw [this, Outcome.bind_ok]
    simp only
    have e1 : (mem.take cap).take (cap - ds.length) ++ ds ++ ['\x00']
        = ((mem.take cap).take (cap - ds.length)) ++ (ds ++ ['\x00']) := by simp
    have e2 : ((mem.take cap).take (cap - ds.length)).length = cap - ds.length := by
      simp [h]
    have hne : (mem.take cap).take (cap - ds.length) ≠ [] := by
      intro hc; rw [hc] at e2; simp at e2; omega
    rw [if_pos (by simp [h]; omega), Outcome.bind_ok, e1]
    have e3 := set_last _ (ds ++ ['\x00']) '-' hne
    rw [e2] at e3
    rw [e3]
    have e4 : ((mem.take cap).take (cap - ds.length)).dropLast
        = mem.take (cap - (ds.length + 1)) := by
      rw [List.dropLast_eq_take, e2, List.take_take, List.take_take]
      congr 1; omega
    rw [e4]
    have e5 : (mem.take (cap - (ds.length + 1))).length = cap - (ds.length + 1) := by
      simp [h]; omega
    refine ⟨_, _, rfl, ?_, ?_⟩
    · simp only [List.length_append, List.length_cons, e5, List.length_nil]; omega
    · rw [if_pos (by simpa using hf)]
      simp only [List.length_cons]
      refine ⟨by congr 1, ?_, List.take_left' e5⟩
      have := cstr_append (mem.take (cap - (ds.length + 1))) ('-' :: ds)
        (by intro c hc; rcases List.mem_cons.1 hc with rfl | hc
            · decide
            · exact hnn c hc) _ e5.symm
      simpa using this
  · obtain ⟨pre', h1, h2⟩ := bufLoop_overflow (-i).toNat 1 (mem.take cap) ['\x00']
      (by rw [hd, hlen]; omega)
    rw [hlen] at h1
    rw [h1, Outcome.bind_ok]
    refine ⟨_, _, rfl, ?_, by rw [if_neg (by simpa using hf)]⟩
    simp only [List.length_append, List.length_singleton]
    omega

/-- **C14** for every `short`, whose negation is always an `int`. -/
theorem C14_short (mem : List Char) (cap : Nat) (i : Int)
    (h : mem.length = cap + 1) (hi : InRange 16 true i) :
    ∃ mem' r, bufSigned intMax mem cap i = .ok (mem', r) ∧ mem'.length = mem.length ∧
      if (numeral i).length ≤ cap then
        r = some (cap - (numeral i).length) ∧ cstr mem' (cap - (numeral i).length) = numeral i ∧
          mem'.take (cap - (numeral i).length) = mem.take (cap - (numeral i).length)
      else r = none :=
  C14_signed_partial intMax mem cap i h (by
    simp only [InRange, if_true] at hi; norm_num at hi; unfold intMax; omega)

/-- **C14, refuted**: the smallest `int` and the smallest `long` overflow when negated. -/
theorem C14_fails_minimum (mem : List Char) (cap : Nat) :
    bufSigned intMax mem cap intMin = .ub ∧ bufSigned longMax mem cap longMin = .ub := by
  constructor <;> rfl

/-- **C14, refuted**: a negative `char` is converted by the unsigned code: `-5` becomes `+`. -/
theorem C14_fails_negative_char :
    bufChar (List.replicate 4 '?') 3 (-5) = .ok ("??+".toList ++ ['\x00'], some 2) ∧
      numeral (-5) = "-5".toList := by
  refine ⟨?_, by decide⟩
  simp [bufChar, bufCharLoop, put, List.replicate]

/-- **C14, refuted**: a converter constructed with an own buffer of size zero writes outside it;
every positive size gives a buffer as `C14_unsigned` expects. -/
theorem C14_fails_own_buffer (size : Nat) :
    bufNew 0 = .ub ∧ (0 < size → ∃ mem, bufNew size = .ok (mem, size - 1) ∧
      mem.length = (size - 1) + 1) := by
  refine ⟨rfl, fun h => ⟨_, by unfold bufNew; rw [if_neg (by omega)], by simp⟩⟩

example : bufSigned intMax (List.replicate 5 '?') 4 (-42)
    = .ok (['?', '-', '4', '2', '\x00'], some 1) := by
  simp [bufSigned, bufLoop, put, List.replicate, intMax]
example : (bufUnsigned (List.replicate 3 '?') 2 123) = .ok (['2', '3', '\x00'], none) := by
  simp [bufUnsigned, bufLoop, put, List.replicate]

/-! ## C15 -/

/-- **C15**: digits are converted to their character and back, in both build modes. -/
theorem C15_digit_round_trip (m m' : Mode) (n : Nat) (h : n ≤ 9) :
    charOfUnsigned m n = .ok (Nat.digitChar n, .noError) ∧
      charOfInt m n = .ok ((Nat.digitChar n).toNat, .noError) ∧
      intOfChar m' (Nat.digitChar n).toNat = .ok (n, .noError) := by
  interval_cases n <;> refine ⟨rfl, rfl, rfl⟩

/-- **C15**: conversely a digit character survives the round trip. -/
theorem C15_char_round_trip (m m' : Mode) (c : Int) (h : 48 ≤ c ∧ c ≤ 57) :
    ∃ i, intOfChar m c = .ok (i, .noError) ∧ 0 ≤ i ∧ i ≤ 9 ∧
      charOfInt m' i = .ok (c, .noError) := by
  refine ⟨c - 48, by unfold intOfChar; rw [if_neg (by omega)], by omega, by omega, ?_⟩
  unfold charOfInt
  rw [if_neg (by omega), Int.tmod_eq_emod_of_nonneg (by omega), Int.emod_eq_of_lt (by omega) (by omega)]
  congr 2; omega

/-- **C15**: everything else is rejected in debug builds and flagged in release builds. -/
theorem C15_rejects (n : Nat) (i c : Int) :
    (9 < n → charOfUnsigned .debug n = .throw .conversionError ∧
      ∃ x, charOfUnsigned .release n = .ok (x, .conversionError)) ∧
    (i < 0 ∨ 9 < i → charOfInt .debug i = .throw .outOfRange ∧
      ∃ x, charOfInt .release i = .ok (x, .outOfRange)) ∧
    (c < 48 ∨ 57 < c → intOfChar .debug c = .throw .conversionError ∧
      ∃ x, intOfChar .release c = .ok (x, .conversionError)) := by
  refine ⟨fun h => ?_, fun h => ?_, fun h => ?_⟩
  · simp [charOfUnsigned, h]
  · simp [charOfInt, h]
  · simp [intOfChar, h]

example : charOfInt .release (-3) = .ok (45, .outOfRange) := by decide

end Ecl.Props
