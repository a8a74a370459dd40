import Verif.Lemmas.FloatConverter
import Verif.Spec.Text

/-!
# C85: floating point numbers and booleans as text in a character buffer

`mem` is the memory between the two pointers given to the converter, both included; the returned C
string is `none` when there is no terminator.
-/
set_option autoImplicit false
set_option linter.unusedSimpArgs false

namespace Ecl.Props
open Ecl.Conv Ecl.Spec

/-- A number and a precision have one decimal numeral, with that many decimals (six by default, at most
twenty), that is returned by every converter with any buffer, whatever was converted before with it, if
the numeral is shorter than the buffer by at least two characters; otherwise it is cut off to that
length.  The rest of the buffer is not touched. -/
theorem C85_float_partial (q : ℚ) (precision : Int) :
    ∃ t, FixedNumeral (decimals precision) q t ∧
      ∀ (mem : List Char) (before : List (ℚ × Int)), 2 ≤ mem.length →
        ∃ c c', (FloatConv.new mem).calls before = .ok c ∧
          c.call q precision = .ok (c', some (t.take (mem.length - 2))) ∧
          (t.length + 2 ≤ mem.length → t.take (mem.length - 2) = t) ∧
          c'.mem.drop (min t.length (mem.length - 2) + 1) =
            c.mem.drop (min t.length (mem.length - 2) + 1) := by
  refine ⟨_, fixedText_numeral _ _, fun mem before hm => ?_⟩
  obtain ⟨c, hc, hk⟩ := calls_kept (cap := mem.length - 1) before (c := FloatConv.new mem)
    ⟨formatOk_new, by simp [FloatConv.new]; omega, rfl⟩
  have hcap : c.cap - 1 = mem.length - 2 := by rw [hk.cap]; omega
  have h1 := call_eq hk.fmt (by rw [hk.len, hk.cap]) q precision (by rw [hk.cap]; omega)
  rw [hcap] at h1
  refine ⟨c, _, hc, h1, fun h => List.take_of_length_le (by omega), ?_⟩
  have e : ∀ (t x : List Char) (n : Nat), n = t.length →
      (t ++ '\x00' :: x).drop (n + 1) = x := by
    rintro t x n rfl
    simp [List.drop_append]
  rw [show min (fixedText (decimals precision) q).length (mem.length - 2) =
    ((fixedText (decimals precision) q).take (mem.length - 2)).length by simp [Nat.min_comm]]
  exact e _ _ _ rfl

private theorem text123 : fixedText 0 123 = "123".toList := by
  have h : nearest (|123| * 10 ^ 0) = 123 := by
    have h1 : |(123 : ℚ)| * 10 ^ 0 = 123 := by norm_num
    have h2 : ⌊(123 : ℚ)⌋.toNat = 123 := by norm_num; rfl
    rw [h1, nearest]
    simp only [h2]
    norm_num
  unfold fixedText
  rw [h]
  norm_num
  rfl

example : ∃ c, (FloatConv.new (List.replicate 6 '?')).call 123 0 = .ok (c, some "123".toList) ∧
    c.mem = ['1', '2', '3', '\x00', '?', '?'] := by
  have h1 := call_eq (c := FloatConv.new (List.replicate 6 '?')) formatOk_new rfl 123 0 (by decide)
  rw [show decimals 0 = 0 from rfl, text123] at h1
  exact ⟨_, h1, rfl⟩

/-- No call is undefined, whatever the size of the buffer. -/
theorem C85_defined (mem : List Char) (before : List (ℚ × Int)) (hm : mem ≠ []) :
    ∃ c, (FloatConv.new mem).calls before = .ok c ∧ c.mem.length = mem.length := by
  have hl : 0 < mem.length := List.length_pos_iff.2 hm
  obtain ⟨c, hc, hk⟩ := calls_kept (cap := mem.length - 1) before (c := FloatConv.new mem)
    ⟨formatOk_new, by simp [FloatConv.new]; omega, rfl⟩
  exact ⟨c, hc, by rw [hk.len]; omega⟩

/-- A numeral that is too long is cut off without notice, and the text stands for another number: 123
in a buffer with room for three characters and the terminator, where even the integer 123 fits. -/
theorem C85_fails_truncated : ∃ (mem : List Char) (c : FloatConv) (t : List Char), mem.length = 4 ∧
    bufUnsigned mem 3 123 = .ok ("123".toList ++ ['\x00'], some 0) ∧
    (FloatConv.new mem).call 123 0 = .ok (c, some t) ∧ ¬ FixedNumeral 0 123 t := by
  have h1 := call_eq (c := FloatConv.new (List.replicate 4 '?')) formatOk_new rfl 123 0 (by decide)
  rw [show decimals 0 = 0 from rfl, text123] at h1
  refine ⟨List.replicate 4 '?', _, _, rfl, ?_, h1, ?_⟩
  · simp [bufUnsigned, bufLoop, put, List.replicate]
  · rintro ⟨ip, fp, ht, hfp, -, -, -, hv⟩
    have hfp' : fp = [] := List.length_eq_zero_iff.1 hfp
    have hip : ip = ['1', '2'] := by
      rw [if_neg (by norm_num)] at ht
      simpa [FloatConv.new] using ht.symm
    rw [hip, hfp'] at hv
    have h12 : Nat.ofDigitChars 10 (['1', '2'] ++ []) 0 = 12 := by decide
    rw [h12] at hv
    norm_num at hv

/-- With a buffer of one character nothing is written and the result has no terminator. -/
theorem C85_fails_terminated (x : Char) (hx : x ≠ '\x00') (q : ℚ) (precision : Int) :
    ∃ c, (FloatConv.new [x]).call q precision = .ok (c, none) ∧ c.mem = [x] := by
  have h1 := (formatFor_ok formatOk_new precision).2
  have h3 : snprintf [x] 0 (formatFor formatNew precision) q = .ok [x] := by
    unfold snprintf
    rw [h1]
    simp
  refine ⟨⟨formatFor formatNew precision, [x], 0⟩, ?_, rfl⟩
  unfold FloatConv.call FloatConv.new
  simp only [List.length_singleton, Nat.sub_self, h3]
  have : ¬ '\x00' = x := fun h => hx h.symm
  simp [this]

/-- Precisions of twenty and more are the same. -/
theorem C85_fails_precision (c : FloatConv) (q : ℚ) (p p' : Int) (h : 20 ≤ p) (h' : 20 ≤ p') :
    c.call q p = c.call q p' := by
  have : formatFor c.fmt p = formatFor c.fmt p' := by
    unfold formatFor
    rw [if_neg (by omega), if_neg (by omega), if_neg (by omega), if_neg (by omega), if_neg (by omega),
      if_neg (by omega)]
  unfold FloatConv.call
  rw [this]

/-- A boolean in a buffer of at least six characters, as the converter of its own has, becomes `true`
or `false`; the rest of the buffer is not touched. -/
theorem C85_bool_partial (mem : List Char) (b : Bool) (hm : 6 ≤ mem.length) :
    ∃ mem', boolCall mem b = .ok mem' ∧ mem'.length = mem.length ∧
      cstr mem' 0 = (if b then "true" else "false").toList ∧
      mem'.drop (cstr mem' 0).length.succ = mem.drop (cstr mem' 0).length.succ := by
  match mem, hm with
  | a1 :: a2 :: a3 :: a4 :: a5 :: a6 :: r, _ =>
    cases b
    · exact ⟨'f' :: 'a' :: 'l' :: 's' :: 'e' :: '\x00' :: r, by simp [boolCall, boolText], rfl, rfl, rfl⟩
    · exact ⟨'t' :: 'r' :: 'u' :: 'e' :: '\x00' :: a6 :: r, by simp [boolCall, boolText], rfl, rfl, rfl⟩

/-- The converter of its own has such a buffer. -/
example : ∃ mem, bufNew 6 = .ok (mem, 5) ∧ mem.length = 6 := ⟨_, rfl, rfl⟩

/-- The converter for all types takes buffers of any size and writes behind the smaller ones. -/
theorem C85_fails_bool (mem : List Char) (hm : mem.length ≤ 4) (b : Bool) : boolCall mem b = .ub := by
  unfold boolCall
  rw [if_pos]
  cases b <;> simp [boolText] <;> omega

end Ecl.Props
