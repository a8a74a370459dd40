import Verif.Spec.Values
import Verif.Lemmas.StringDevice
import Verif.Lemmas.FloatConverter
import Verif.Props.C42_C46_TextStreams
import Verif.Props.C85_FloatConverter

/-! # Helper lemmas for string streams -/
set_option autoImplicit false
set_option linter.unusedSimpArgs false

namespace Ecl.StringStream
open Ecl.Spec Ecl.Spec.Values Ecl.TextStream

/-! ## Extractors leave the end of the text -/

theorem skip_suffix (inp : List Char) (c : Char) (cs : List Char) (h : skip inp = some (c, cs)) :
    cs <:+ inp := by
  induction inp with
  | nil => simp [skip] at h
  | cons d ds ih =>
    unfold skip at h
    split at h
    · exact (ih h).trans (List.suffix_cons _ _)
    · simp only [Option.some.injEq, Prod.mk.injEq] at h
      rw [← h.2]; exact List.suffix_cons _ _

theorem wordLoop_suffix (cs : List Char) : ∀ c, (wordLoop c cs).2 <:+ cs := by
  induction cs with
  | nil => intro c; simp [wordLoop]
  | cons d ds ih =>
    intro c
    unfold wordLoop
    split
    · exact List.suffix_cons _ _
    · exact (ih d).trans (List.suffix_cons _ _)

theorem digitLoop_suffix (room : Nat) : ∀ cs c, (digitLoop c cs room).2 <:+ cs := by
  induction room with
  | zero => intro cs c; cases cs <;> simp [digitLoop]
  | succ room ih =>
    intro cs c
    cases cs with
    | nil => unfold digitLoop; split <;> simp
    | cons d ds =>
      unfold digitLoop
      split
      · exact (ih ds d).trans (List.suffix_cons _ _)
      · exact List.suffix_rfl

theorem hexLoop_suffix (room : Nat) : ∀ cs, (hexLoop cs room).2 <:+ cs := by
  induction room with
  | zero => intro cs; cases cs <;> simp [hexLoop]
  | succ room ih =>
    intro cs
    cases cs with
    | nil => simp [hexLoop]
    | cons d ds =>
      unfold hexLoop
      split
      · exact (ih ds).trans (List.suffix_cons _ _)
      · exact List.suffix_cons _ _

theorem fracLoop_suffix (room : Nat) : ∀ cs c, (fracLoop c cs room).2.2 <:+ cs := by
  induction room with
  | zero => intro cs c; cases cs <;> simp [fracLoop]
  | succ room ih =>
    intro cs c
    cases cs with
    | nil => simp [fracLoop]
    | cons d ds =>
      unfold fracLoop
      split
      · exact (ih ds d).trans (List.suffix_cons _ _)
      · exact List.suffix_rfl

theorem parseHex_suffix (t : ITy) (inp : List Char) : (parseHex t inp).rest <:+ inp := by
  unfold parseHex
  simp only
  split
  · exact hexLoop_suffix _ _
  · split <;> exact hexLoop_suffix _ _

theorem finishInt_suffix (t : ITy) (sign old : Int) (c : Char) (rest : List Char) :
    (finishInt t sign old c rest).rest <:+ rest := by
  unfold finishInt
  simp only
  split
  · exact digitLoop_suffix _ _ _
  · split <;> exact digitLoop_suffix _ _ _

theorem getInt_suffix (t : ITy) (old : Int) (inp : List Char) : (getInt t old inp).rest <:+ inp := by
  unfold getInt
  cases h : skip inp with
  | none => simp
  | some p =>
    obtain ⟨c, cs⟩ := p
    refine List.IsSuffix.trans ?_ (skip_suffix _ _ _ h)
    simp only
    split
    · split
      · cases cs with
        | nil => simp
        | cons d ds => exact (finishInt_suffix _ _ _ _ _).trans (List.suffix_cons _ _)
      · exact finishInt_suffix _ _ _ _ _
    · split
      · cases cs with
        | nil => simp
        | cons d ds => exact (finishInt_suffix _ _ _ _ _).trans (List.suffix_cons _ _)
      · split
        · cases cs with
          | nil => simp
          | cons d ds =>
            simp only
            split
            · exact List.suffix_cons _ _
            · split
              · exact (parseHex_suffix _ _).trans (List.suffix_cons _ _)
              · exact (finishInt_suffix _ _ _ _ _).trans (List.suffix_cons _ _)
        · split
          · exact parseHex_suffix _ _
          · exact finishInt_suffix _ _ _ _ _

theorem getWord_suffix (old inp : List Char) : (getWord old inp).rest <:+ inp := by
  unfold getWord
  cases h : skip inp with
  | none => simp
  | some p => exact (wordLoop_suffix _ _).trans (skip_suffix _ _ _ h)

theorem getBool_suffix (old : Bool) (inp : List Char) : (getBool old inp).rest <:+ inp := by
  unfold getBool
  simp only
  split
  · exact getWord_suffix _ _
  · split
    · exact getWord_suffix _ _
    · split <;> exact getWord_suffix _ _

theorem getChar_suffix (raw : Bool) (old : Char) (inp : List Char) :
    (getChar raw old inp).rest <:+ inp := by
  unfold getChar
  split
  · cases inp <;> simp
  · cases h : skip inp with
    | none => simp
    | some p => exact skip_suffix _ _ _ h

theorem finishFloat_suffix (sign old : Rat) (c : Char) (rest : List Char) :
    (finishFloat sign old c rest).rest <:+ rest := by
  unfold finishFloat
  simp only
  split
  · cases h : (fracLoop c rest 25).2.2 with
    | nil => simp
    | cons d ds =>
      have h1 := fracLoop_suffix 25 rest c
      rw [h] at h1
      have h2 := ((fracLoop_suffix 25 ds d).trans (List.suffix_cons d ds)).trans h1
      simp only
      split <;> exact h2
  · split <;> exact fracLoop_suffix _ _ _

theorem getFloat_suffix (old : Rat) (inp : List Char) : (getFloat old inp).rest <:+ inp := by
  unfold getFloat
  cases h : skip inp with
  | none => simp
  | some p =>
    obtain ⟨c, cs⟩ := p
    refine List.IsSuffix.trans ?_ (skip_suffix _ _ _ h)
    simp only
    split
    · cases cs with
      | nil => simp
      | cons d ds => exact (finishFloat_suffix _ _ _ _).trans (List.suffix_cons _ _)
    · split
      · cases cs with
        | nil => simp
        | cons d ds => exact (finishFloat_suffix _ _ _ _).trans (List.suffix_cons _ _)
      · exact finishFloat_suffix _ _ _ _

/-! ## The simulation relation -/

/-- The stream holds the text. -/
structure Holds (s : Stream) (t : Text) : Prop where
  dev : ∃ p, StrDev.Rel s.dev ⟨t.all, p, t.run⟩ ∧ t.unread = t.all.drop p
  buf : s.buf.length = 30
  fmt : Conv.FormatOk s.fmt
  raw : s.raw = t.raw

theorem new_holds : ∃ s, new = .ok s ∧ Holds s ⟨[], [], false, some 0⟩ :=
  ⟨_, rfl, ⟨0, StrDev.Rel.make [] (by decide), rfl⟩, by decide, Conv.formatOk_new, rfl⟩

theorem Holds.putChar {s : Stream} {t : Text} (h : Holds s t) (c : Char) (k : Nat)
    (hk : t.run = some k) (hk' : k < 256) (hb : t.all.length < 4611686018427387904) :
    ∃ s', putChar s c = .ok s' ∧ Holds s' (textStep t (.putChar c)).1 := by
  obtain ⟨p, hR, hu⟩ := h.dev
  obtain ⟨d, h1, h2⟩ := hR.put c k hk hk' hb
  refine ⟨{ s with dev := d }, by simp [StringStream.putChar, h1], ?_⟩
  refine ⟨⟨p, ?_, ?_⟩, h.buf, h.fmt, h.raw⟩
  · simpa [textStep, hk] using h2
  · have := hR.pos
    simp only at this
    simp [textStep, hu, List.drop_append_of_le_length this]

theorem Holds.putText {s : Stream} {t : Text} (h : Holds s t) (x : List Char)
    (h1 : x.length + 256 < 2147483648) (hb : t.all.length + x.length ≤ 4611686018427387904) :
    ∃ s', putText s x = .ok s' ∧ Holds s' (t.add x) := by
  obtain ⟨p, hR, hu⟩ := h.dev
  obtain ⟨d, h1, h2⟩ := hR.puts x h1 hb
  refine ⟨{ s with dev := d }, by simp [StringStream.putText, h1], ?_⟩
  refine ⟨⟨p, h2, ?_⟩, h.buf, h.fmt, h.raw⟩
  have := hR.pos
  simp only at this
  simp [Text.add, hu, List.drop_append_of_le_length this]

theorem numeral_short {t : ITy} {i : Int} (hi : InRange t.bits t.signed i) :
    (numeral i).length ≤ 29 := by
  have hsmall : i.natAbs < 10 ^ 28 := by
    cases t <;> simp [ITy.bits, ITy.signed, InRange] at hi <;> omega
  have := (Nat.length_toDigits_le_iff (b := 10) (n := i.natAbs) (k := 28) (by decide)
    (by decide)).2 hsmall
  unfold numeral
  split <;> simp <;> omega

theorem numeral_ne_nil (i : Int) : numeral i ≠ [] := by
  obtain ⟨c, cs, h, _⟩ := Conv.toDigits_cons i.natAbs
  unfold numeral
  split <;> simp [h]

theorem Holds.putInt {s : Stream} {t : Text} (h : Holds s t) (ty : ITy) (i : Int)
    (hi : InRange ty.bits ty.signed i) (hmin : i.natAbs ≤ ty.max)
    (hb : t.all.length + 30 ≤ 4611686018427387904) :
    ∃ s', putInt s ty i = .ok s' ∧ Holds s' (t.add (numeral i)) := by
  obtain ⟨mem, h1, h2⟩ := Props.C44_put_partial ty ⟨s.buf, []⟩ i h.buf hi hmin
  have hl := numeral_short hi
  have h' : Holds { s with buf := mem } t := ⟨h.dev, h2, h.fmt, h.raw⟩
  obtain ⟨s', h3, h4⟩ := h'.putText (numeral i) (by omega) (by omega)
  exact ⟨s', by simpa [StringStream.putInt, h1] using h3, h4⟩

theorem fixedText_short {q : ℚ} (hq : |q| < 10 ^ 19) : (Conv.fixedText 6 q).length ≤ 28 := by
  have h1 := Conv.nearest_close (q := |q| * 10 ^ 6) (by positivity)
  have h2 : (Conv.nearest (|q| * 10 ^ 6) : ℚ) < 10 ^ 25 + 1 := by
    have := (abs_le.1 h1).2
    have h3 : |q| * 10 ^ 6 < 10 ^ 19 * 10 ^ 6 := by
      apply mul_lt_mul_of_pos_right hq; positivity
    have h4 : (10 : ℚ) ^ 19 * 10 ^ 6 = 10 ^ 25 := by norm_num
    rw [h4] at h3
    generalize Conv.nearest (|q| * 10 ^ 6) = n at *
    linarith
  have h3 : Conv.nearest (|q| * 10 ^ 6) < 10 ^ 25 + 1 := by exact_mod_cast h2
  have h4 : Conv.nearest (|q| * 10 ^ 6) / 10 ^ 6 < 10 ^ 20 := by omega
  have h5 := (Nat.length_toDigits_le_iff (b := 10) (n := Conv.nearest (|q| * 10 ^ 6) / 10 ^ 6) (k := 20)
    (by decide) (by decide)).2 h4
  unfold Conv.fixedText
  simp only [List.length_append, List.length_cons, Conv.lastDigits_length, if_neg (show ¬ 6 = 0 by decide)]
  have h6 : (if q < 0 then ['-'] else ([] : List Char)).length ≤ 1 := by split <;> simp
  omega

theorem fixedText_ne_nil (q : ℚ) : Conv.fixedText 6 q ≠ [] := by
  unfold Conv.fixedText; simp

theorem Holds.putReal {s : Stream} {t : Text} (h : Holds s t) (q : ℚ) (hq : |q| < 10 ^ 19)
    (hb : t.all.length + 30 ≤ 4611686018427387904) :
    ∃ s', putReal s q = .ok s' ∧ Holds s' (t.add (Conv.fixedText 6 q)) := by
  have hl := fixedText_short hq
  have h1 := Conv.call_eq (c := ⟨s.fmt, s.buf, 29⟩) h.fmt h.buf q (-1) (by simp)
  have hd : decimals (-1) = 6 := rfl
  simp only [hd] at h1
  rw [List.take_of_length_le (by simpa using hl)] at h1
  have h' : Holds { s with
      buf := Conv.fixedText 6 q ++ '\x00' :: s.buf.drop ((Conv.fixedText 6 q).length + 1),
      fmt := Conv.formatFor s.fmt (-1) } t := by
    refine ⟨h.dev, ?_, (Conv.formatFor_ok h.fmt (-1)).1, h.raw⟩
    have := h.buf
    simp; omega
  obtain ⟨s', h3, h4⟩ := h'.putText (Conv.fixedText 6 q) (by omega) (by omega)
  refine ⟨s', ?_, h4⟩
  unfold StringStream.putReal
  rw [h1]
  simpa using h3

theorem Holds.extract {α : Type} {s : Stream} {t : Text} (h : Holds s t) (f : List Char → Got α)
    (hf : (f t.unread).rest <:+ t.unread) :
    ∃ s', extract s f = .ok (s', f t.unread) ∧ Holds s' { t with unread := (f t.unread).rest } := by
  obtain ⟨p, hR, hu⟩ := h.dev
  have hp := hR.pos
  have hr := hR.r
  simp only at hp hr
  have hl : StrDev.load s.dev.mem s.dev.r s.dev.remaining = .ok t.unread := by
    rw [hR.remaining, hr, StrDev.load_ok t.all s.dev.mem hR.cell _ p (by simp only; omega), hu]
    simp only
    rw [List.take_of_length_le (by simp)]
  have hlen : t.unread.length = t.all.length - p := by rw [hu]; simp
  have hfl := hf.length_le
  refine ⟨{ s with dev := { s.dev with r := s.dev.r + (t.unread.length - (f t.unread).rest.length) } },
    ?_, ⟨p + (t.unread.length - (f t.unread).rest.length), ?_, ?_⟩, h.buf, h.fmt, h.raw⟩
  · unfold StringStream.extract
    rw [hl]
    rfl
  · exact ⟨hR.w, by simp only; omega, by simp only; omega, hR.cell, hR.len, hR.cap, hR.big, hR.run⟩
  · simp only
    rw [← List.drop_drop, ← hu]
    exact List.suffix_iff_eq_drop.1 hf

end Ecl.StringStream
