import Verif.Model.TextStream
import Verif.Spec.Text
import Verif.Spec.StreamText
import Verif.Lemmas.Converters

/-! Helper lemmas about the text stream model. -/
set_option autoImplicit false
set_option linter.unusedSimpArgs false

namespace Ecl.TextStream
open Ecl.Spec

theorem blank_iff (c : Char) : blank c = true ↔ IsBlank c := by
  unfold blank IsBlank; simp

theorem dig_eq (c : Char) : dig c = c.isDigit := by
  unfold dig Char.isDigit Char.toNat
  rw [Bool.eq_iff_iff]
  simp only [Bool.and_eq_true, decide_eq_true_eq, ge_iff_le, UInt32.le_iff_toNat_le]

theorem skip_append (bl s : List Char) (h : AllBlank bl) : skip (bl ++ s) = skip s := by
  induction bl with
  | nil => rfl
  | cons c cs ih =>
    have hc : blank c = true := (blank_iff c).2 (h c (by simp))
    simp only [List.cons_append, skip, hc, if_true]
    exact ih fun x hx => h x (by simp [hx])

theorem skip_none (bl : List Char) (h : AllBlank bl) : skip bl = none := by
  have := skip_append bl [] h
  simpa [skip] using this

theorem skip_cons (c : Char) (cs : List Char) (h : ¬ IsBlank c) : skip (c :: cs) = some (c, cs) := by
  have : blank c = false := by
    cases hb : blank c
    · rfl
    · exact absurd ((blank_iff c).1 hb) h
  simp [skip, this]

/-- Every text either is blank or starts with blanks followed by something else. -/
theorem skip_cases (inp : List Char) :
    (AllBlank inp ∧ skip inp = none) ∨
      ∃ bl c cs, AllBlank bl ∧ ¬ IsBlank c ∧ inp = bl ++ c :: cs ∧ skip inp = some (c, cs) := by
  induction inp with
  | nil => exact .inl ⟨fun c hc => by simp at hc, rfl⟩
  | cons c cs ih =>
    by_cases hc : IsBlank c
    · have hs : skip (c :: cs) = skip cs :=
        skip_append [c] cs (by intro x hx; simp at hx; subst hx; exact hc)
      rcases ih with ⟨h1, h2⟩ | ⟨bl, d, ds, h1, h2, h3, h4⟩
      · refine .inl ⟨?_, by rw [hs, h2]⟩
        intro x hx
        rcases List.mem_cons.1 hx with rfl | hx
        · exact hc
        · exact h1 x hx
      · refine .inr ⟨c :: bl, d, ds, ?_, h2, by simp [h3], by rw [hs, h4]⟩
        intro x hx
        rcases List.mem_cons.1 hx with rfl | hx
        · exact hc
        · exact h1 x hx
    · exact .inr ⟨[], c, cs, fun x hx => by simp at hx, hc, rfl, skip_cons c cs hc⟩

theorem digit_not_blank {c : Char} (h : c.isDigit = true) : ¬ IsBlank c := by
  rintro (rfl | rfl) <;> revert h <;> decide

/-! ### Words -/

theorem wordLoop_spec : ∀ (cs : List Char) (c : Char), ¬ IsBlank c →
    (∀ x ∈ (wordLoop c cs).1, ¬ IsBlank x) ∧ (wordLoop c cs).1 ≠ [] ∧
      ((c :: cs = (wordLoop c cs).1 ∧ (wordLoop c cs).2 = []) ∨
        ∃ b, IsBlank b ∧ c :: cs = (wordLoop c cs).1 ++ b :: (wordLoop c cs).2) := by
  intro cs
  induction cs with
  | nil => intro c hc; simp [wordLoop, hc]
  | cons d ds ih =>
    intro c hc
    by_cases hd : IsBlank d
    · have : blank d = true := (blank_iff d).2 hd
      simp only [wordLoop, this, if_true]
      refine ⟨by simpa using hc, by simp, .inr ⟨d, hd, rfl⟩⟩
    · have hb : blank d = false := by
        cases h : blank d
        · rfl
        · exact absurd ((blank_iff d).1 h) hd
      obtain ⟨h1, h2, h3⟩ := ih d hd
      simp only [wordLoop, hb, Bool.false_eq_true, if_false]
      refine ⟨?_, by simp, ?_⟩
      · intro x hx
        rcases List.mem_cons.1 hx with rfl | hx
        · exact hc
        · exact h1 x hx
      · rcases h3 with ⟨h3, h4⟩ | ⟨b, hb, h3⟩
        · exact .inl ⟨by rw [← h3], h4⟩
        · exact .inr ⟨b, hb, by rw [List.cons_append, ← h3]⟩

theorem wordLoop_word : ∀ (w : List Char) (c : Char) (t : List Char),
    (∀ x ∈ w, ¬ IsBlank x) → (∀ b, t.head? = some b → IsBlank b) →
    wordLoop c (w ++ t) = (c :: w, t.drop 1) := by
  intro w
  induction w with
  | nil =>
    intro c t _ ht
    cases t with
    | nil => rfl
    | cons b t =>
      have : blank b = true := (blank_iff b).2 (ht b rfl)
      simp [wordLoop, this]
  | cons d w ih =>
    intro c t hw ht
    have hb : blank d = false := by
      cases h : blank d
      · rfl
      · exact absurd ((blank_iff d).1 h) (hw d (by simp))
    simp [wordLoop, hb, ih d t (fun x hx => hw x (by simp [hx])) ht]

/-! ### Digits -/

theorem digVal_lt {c : Char} (h : c.isDigit = true) : digVal c < 10 := by
  rw [← dig_eq] at h
  unfold dig at h
  unfold digVal
  simp only [Bool.and_eq_true, decide_eq_true_eq] at h
  have h1 : '0'.toNat = 48 := rfl
  have h2 : '9'.toNat = 57 := rfl
  omega

theorem digitLoop_spec : ∀ (ds : List Char) (c : Char) (t : List Char) (room : Nat),
    c.isDigit = true → (∀ x ∈ ds, x.isDigit = true) → NotDigitNext t → ds.length < room →
    digitLoop c (ds ++ t) room = (c :: ds, t.drop 1) := by
  intro ds
  induction ds with
  | nil =>
    intro c t room hc _ ht hr
    obtain ⟨room, rfl⟩ : ∃ r, room = r + 1 := ⟨room - 1, by simp at hr; omega⟩
    cases t with
    | nil => simp [digitLoop, dig_eq, hc]
    | cons d t =>
      have hd : d.isDigit = false := ht d rfl
      cases room with
      | zero => simp [digitLoop, dig_eq, hc]
      | succ r =>
        cases t <;> simp [digitLoop, dig_eq, hc, hd]
  | cons d ds ih =>
    intro c t room hc hds ht hr
    obtain ⟨room, rfl⟩ : ∃ r, room = r + 1 := ⟨room - 1, by simp at hr; omega⟩
    have := ih d t room (hds d (by simp)) (fun x hx => hds x (by simp [hx])) ht
      (by simp at hr; omega)
    simp [digitLoop, dig_eq, hc, this]

theorem digitLoop_none (c : Char) (rest : List Char) (room : Nat) (h : c.isDigit = false) :
    digitLoop c rest room = ([], rest) := by
  cases room with
  | zero => cases rest <;> rfl
  | succ r => cases rest <;> simp [digitLoop, dig_eq, h]

theorem le_ofDigitChars (ds : List Char) : ∀ n, n ≤ Nat.ofDigitChars 10 ds n := by
  induction ds with
  | nil => intro n; simp
  | cons c cs ih =>
    intro n
    rw [Nat.ofDigitChars_cons]
    exact Nat.le_trans (by omega) (ih _)

theorem accum_eq (C : Nat) : ∀ (ds : List Char) (n : Nat), (∀ x ∈ ds, x.isDigit = true) →
    accum C n ds = if ds = [] ∨ Nat.ofDigitChars 10 ds n / 10 < C
      then some (Nat.ofDigitChars 10 ds n) else none := by
  intro ds
  induction ds with
  | nil => intro n _; simp [accum]
  | cons c cs ih =>
    intro n h
    have hc := digVal_lt (h c (by simp))
    have e : Nat.ofDigitChars 10 (c :: cs) n = Nat.ofDigitChars 10 cs (10 * n + digVal c) :=
      Nat.ofDigitChars_cons
    have hle := le_ofDigitChars cs (10 * n + digVal c)
    rw [accum, ih _ (fun x hx => h x (by simp [hx])), e]
    by_cases hn : n < C
    · rw [if_pos hn]
      by_cases hcs : cs = []
      · subst hcs
        rw [if_pos (.inl rfl), if_pos]
        right
        simp only [Nat.ofDigitChars_nil]
        omega
      · simp [hcs]
    · rw [if_neg hn, if_neg]
      rintro (h | h)
      · cases h
      · omega

/-! ### Integers -/

theorem finishInt_digits (t : ITy) (sign old : Int) (c : Char) (ds s : List Char)
    (hd : ∀ x ∈ c :: ds, x.isDigit = true) (hs : NotDigitNext s) (hl : ds.length < 25) :
    finishInt t sign old c (ds ++ s) =
      if decValue (c :: ds) / 10 < t.max / 10 then ⟨sign * decValue (c :: ds), .noError, s.drop 1⟩
      else ⟨old, .outOfRange, s.drop 1⟩ := by
  unfold finishInt
  rw [digitLoop_spec ds c s 25 (hd c (by simp)) (fun x hx => hd x (by simp [hx])) hs hl]
  simp only [List.cons_ne_nil, if_false]
  rw [accum_eq _ _ _ hd]
  unfold decValue
  by_cases h : Nat.ofDigitChars 10 (c :: ds) 0 / 10 < t.max / 10
  · rw [if_pos (.inr h), if_pos h]
  · rw [if_neg (by simpa using h), if_neg h]

theorem finishInt_none (t : ITy) (sign old : Int) (c : Char) (rest : List Char)
    (h : c.isDigit = false) :
    finishInt t sign old c rest = ⟨old, .conversionError, rest⟩ := by
  unfold finishInt
  rw [digitLoop_none c rest 25 h]
  simp

theorem decValue_zero (ds : List Char) : decValue ('0' :: ds) = decValue ds := by
  unfold decValue
  rw [Nat.ofDigitChars_cons]
  simp

/-! ### Hexadecimal integers -/

theorem hexLoop_spec : ∀ (s : List Char) (ds : List Nat) (t : List Char) (room : Nat),
    List.Forall₂ Hex s ds → (∀ c, t.head? = some c → ∀ d, ¬ Hex c d) → s.length < room →
    hexLoop (s ++ t) room = (ds, t.drop 1) := by
  intro s
  induction s with
  | nil =>
    intro ds t room h ht hr
    cases h
    obtain ⟨room, rfl⟩ : ∃ r, room = r + 1 := ⟨room - 1, by simp at hr; omega⟩
    cases t with
    | nil => rfl
    | cons c t =>
      have : Conv.hexDigit c = none := by
        cases hx : Conv.hexDigit c with
        | none => rfl
        | some d => exact absurd ((Conv.hexDigit_iff c d).1 hx) (ht c rfl d)
      simp [hexLoop, this]
  | cons c s ih =>
    intro ds t room h ht hr
    cases h with
    | @cons _ d _ ds hc h =>
      obtain ⟨room, rfl⟩ : ∃ r, room = r + 1 := ⟨room - 1, by simp at hr; omega⟩
      have := ih ds t room h ht (by simp at hr; omega)
      simp [hexLoop, (Conv.hexDigit_iff c d).2 hc, this]

theorem hexFold_le (ds : List Nat) : ∀ n : Nat, n ≤ ds.foldl (fun n d => 16 * n + d) n := by
  induction ds with
  | nil => intro n; simp
  | cons d ds ih => intro n; exact Nat.le_trans (show n ≤ 16 * n + d by omega) (ih _)

theorem toShort_small (v : Int) (h0 : 0 ≤ v) (h1 : v < 32768) : toShort v = v := by
  unfold toShort ITy.wrap ITy.bits ITy.signed
  simp only [Int.reducePow, Nat.reduceSub]
  rw [show v % 65536 = v by omega, if_neg (by omega)]

theorem hexAccum_small : ∀ (ds : List Nat) (n : Nat), (∀ d ∈ ds, d < 16) →
    ds.foldl (fun n d => 16 * n + d) n < 32768 →
    hexAccum n ds = some ((ds.foldl (fun n d => 16 * n + d) n : Nat) : Int) := by
  intro ds
  induction ds with
  | nil => intro n _ _; rfl
  | cons d ds ih =>
    intro n hd h
    have hle := hexFold_le ds (16 * n + d)
    simp only [List.foldl_cons] at h ⊢
    rw [hexAccum, if_pos (by omega), toShort_small _ (by omega) (by omega)]
    have := ih (16 * n + d) (fun x hx => hd x (by simp [hx])) h
    rw [← this]
    congr 1

/-! ### Fractions -/

theorem fracLoop_spec : ∀ (ds : List Char) (c e : Char) (t : List Char) (room : Nat),
    c.isDigit = true → (∀ x ∈ ds, x.isDigit = true) → e.isDigit = false → ds.length < room →
    fracLoop c (ds ++ e :: t) room = (c :: ds, e, t) := by
  intro ds
  induction ds with
  | nil =>
    intro c e t room hc _ he hr
    obtain ⟨room, rfl⟩ : ∃ r, room = r + 1 := ⟨room - 1, by simp at hr; omega⟩
    cases room with
    | zero => simp [fracLoop, dig_eq, hc]
    | succ r => cases t <;> simp [fracLoop, dig_eq, hc, he]
  | cons d ds ih =>
    intro c e t room hc hds he hr
    obtain ⟨room, rfl⟩ : ∃ r, room = r + 1 := ⟨room - 1, by simp at hr; omega⟩
    have := ih d e t room (hds d (by simp)) (fun x hx => hds x (by simp [hx])) he
      (by simp at hr; omega)
    simp [fracLoop, dig_eq, hc, this]

theorem fracLoop_none (c : Char) (rest : List Char) (room : Nat) (h : c.isDigit = false) :
    fracLoop c rest room = ([], c, rest) := by
  cases room with
  | zero => cases rest <;> rfl
  | succ r => cases rest <;> simp [fracLoop, dig_eq, h]

theorem intSum_eq (ds : List Char) : ∀ n : Nat, intSum n ds = (Nat.ofDigitChars 10 ds n : Nat) := by
  induction ds with
  | nil => intro n; simp [intSum]
  | cons c cs ih =>
    intro n
    rw [intSum, Nat.ofDigitChars_cons, ← ih]
    congr 1
    rw [Rat.natCast_add, Rat.natCast_mul]
    rfl

end Ecl.TextStream
