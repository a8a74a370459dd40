import Verif.Props.C106_StreamDevice

/-!
# C106: boolean values, and devices that are not open
-/
set_option autoImplicit false

namespace Ecl.Props
open Ecl Ecl.StreamDevice Ecl.Spec C106

/-- **C106**: whenever an error is reported for a boolean value, the variable is left alone. -/
theorem C106_bool_kept (old : Bool) (dev : Dev) :
    (getBool old dev).err ≠ .noError → (getBool old dev).val = old := by
  unfold getBool
  simp only
  split
  · exact fun _ => rfl
  · split
    · exact fun h => absurd rfl h
    · split
      · exact fun h => absurd rfl h
      · exact fun _ => rfl

example : (getBool true (arriving "maybe ".toList)).err = .conversionError := by decide +kernel

/-- **C106** (partial): a boolean value is read as from a text, whatever comes after it. -/
theorem C106_bool_partial (old : Bool) (x : List Char) (tail : Dev)
    (h : tail = [] ∨ (TextStream.getBool old x).rest ≠ []) :
    (getBool old (arriving x ++ tail)).val = (TextStream.getBool old x).val ∧
    (getBool old (arriving x ++ tail)).err = (TextStream.getBool old x).err ∧
    (getBool old (arriving x ++ tail)).rest = arriving (TextStream.getBool old x).rest ++ tail := by
  have hr : (TextStream.getBool old x).rest = (TextStream.getWord [] x).rest := by
    unfold TextStream.getBool
    simp only
    split
    · rfl
    · split
      · rfl
      · split <;> rfl
  rw [hr] at h
  unfold getBool TextStream.getBool
  rw [getWord_text [] x tail h]
  simp only
  split
  · exact ⟨rfl, rfl, rfl⟩
  · split
    · exact ⟨rfl, rfl, rfl⟩
    · split <;> exact ⟨rfl, rfl, rfl⟩

example : (TextStream.getBool false "True x".toList).rest ≠ [] := by decide +kernel

/-- **C106** fails: when the device fails within a boolean value, what came before is taken for it: of "truely" the part
before the failure is the value `true`, without an error. -/
theorem C106_fails_bool (old : Bool) (rest : Dev) :
    getBool old (arriving "true".toList ++ .failed :: rest) = ⟨true, .noError, rest⟩ := by
  unfold getBool
  rw [C106_fails_word [] "true".toList (by decide) (by decide) rest]
  rfl

/-- **C106** fails: or the failure is reported as a wrong text. -/
theorem C106_fails_bool_cut (old : Bool) (rest : Dev) :
    getBool old (arriving "tru".toList ++ .failed :: rest) = ⟨old, .conversionError, rest⟩ := by
  unfold getBool
  rw [C106_fails_word [] "tru".toList (by decide) (by decide) rest]
  rfl

/-- **C106**: in debug builds, an extraction from a device that is not open throws; nothing is read, and neither the variable
nor the error flag changes. In release builds, and with a device that is open, there is no check. -/
theorem C106_closed {α : Type} (m : Mode) (o : Bool) (old : α) (err : Flag) (dev : Dev) (f : α → Dev → Ext α) :
    checked m o old err dev f =
      if m = .debug ∧ o = false then .throw ⟨old, err, dev⟩ .openError else .ok (f old dev) () := by
  cases m <;> cases o <;> rfl

/-- **C106**: in release builds, an extraction from a device all of whose reads fail reports a read error after the first, and
keeps the variable; this holds for every type. -/
theorem C106_closed_release (t : TextStream.ITy) (raw : Bool) (i : Int) (q : Rat) (c : Char) (s : List Char) (b : Bool)
    (err : Flag) (rest : Dev) :
    checked .release false i err (.failed :: rest) (getInt t) = .ok ⟨i, .readError, rest⟩ () ∧
    checked .release false q err (.failed :: rest) getFloat = .ok ⟨q, .readError, rest⟩ () ∧
    checked .release false c err (.failed :: rest) (getChar raw) = .ok ⟨c, .readError, rest⟩ () ∧
    checked .release false s err (.failed :: rest) getWord = .ok ⟨s, .readError, rest⟩ () ∧
    checked .release false b err (.failed :: rest) getBool = .ok ⟨b, .readError, rest⟩ () := by
  refine ⟨rfl, rfl, ?_, rfl, rfl⟩
  cases raw <;> rfl

end Ecl.Props
