import Verif.Model.Flags
import Mathlib.Data.Set.Basic
import Mathlib.Order.SymmDiff
import Mathlib.Data.Fintype.Basic

/-!
# C38: `Flags` is a set of bits
-/
set_option autoImplicit false

namespace Ecl.Props
open Ecl Ecl.Flags

/-- The set of bits of a word. -/
def bitSet (v : BitVec 32) : Set (Fin 32) := {i | v.getLsbD i = true}

/-- The reader's sets for the modifying operators. -/
def flagSet (s : Set (Fin 32)) : Flags.Op → Set (Fin 32)
  | .assign g => bitSet g.value
  | .assignEnum flag => bitSet flag
  | .andAssign mask => s ∩ bitSet mask
  | .orAssign g => s ∪ bitSet g.value
  | .orAssignEnum flag => s ∪ bitSet flag
  | .xorAssign g => symmDiff s (bitSet g.value)
  | .xorAssignEnum flag => symmDiff s (bitSet flag)
  | .clear => ∅

private theorem bits_and (a b : BitVec 32) : bitSet (a &&& b) = bitSet a ∩ bitSet b := by
  ext i; simp [bitSet]

private theorem bits_or (a b : BitVec 32) : bitSet (a ||| b) = bitSet a ∪ bitSet b := by
  ext i; simp [bitSet]

private theorem bits_xor (a b : BitVec 32) : bitSet (a ^^^ b) = symmDiff (bitSet a) (bitSet b) := by
  ext i
  simp only [bitSet, BitVec.getLsbD_xor, Set.mem_setOf_eq, Set.mem_symmDiff]
  cases a.getLsbD i <;> cases b.getLsbD i <;> simp

private theorem bits_inj {a b : BitVec 32} (h : bitSet a = bitSet b) : a = b := by
  apply BitVec.eq_of_getLsbD_eq
  intro i hi
  have : (⟨i, hi⟩ : Fin 32) ∈ bitSet a ↔ (⟨i, hi⟩ : Fin 32) ∈ bitSet b := by rw [h]
  simp only [bitSet, Set.mem_setOf_eq] at this
  cases ha : a.getLsbD i <;> cases hb : b.getLsbD i <;> simp_all

/-- **C38**: `|`, `&`, `^`, `~` are union, intersection, symmetric difference and complement of bit
sets, the empty flags are the empty set, and flags with the same bits are equal. -/
theorem C38_operators (f g : Flags.T) (m : BitVec 32) :
    bitSet (Flags.or f g).value = bitSet f.value ∪ bitSet g.value ∧
    bitSet (orEnum f m).value = bitSet f.value ∪ bitSet m ∧
    bitSet (Flags.and f m).value = bitSet f.value ∩ bitSet m ∧
    bitSet (Flags.xor f g).value = symmDiff (bitSet f.value) (bitSet g.value) ∧
    bitSet (xorEnum f m).value = symmDiff (bitSet f.value) (bitSet m) ∧
    bitSet (Flags.not f).value = (bitSet f.value)ᶜ ∧
    bitSet Flags.new.value = ∅ ∧ bitSet (ofEnum m).value = bitSet m ∧
    (bitSet f.value = bitSet g.value → f = g) := by
  refine ⟨bits_or _ _, bits_or _ _, bits_and _ _, bits_xor _ _, bits_xor _ _, ?_, ?_, rfl, ?_⟩
  · ext i; simp [bitSet, Flags.not]
  · ext i; simp [bitSet, Flags.new]
  · intro h; cases f; cases g; simpa using bits_inj h

/-- **C38**: every history of assigning operators has the effect of the set operations. -/
theorem C38_history (ops : List Flags.Op) (f : Flags.T) :
    bitSet (ops.foldl Flags.step f).value = ops.foldl flagSet (bitSet f.value) := by
  induction ops generalizing f with
  | nil => rfl
  | cons op ops ih =>
    rw [List.foldl_cons, List.foldl_cons, ih]
    congr 1
    cases op with
    | assign g => rfl
    | assignEnum m => rfl
    | andAssign m => exact bits_and _ _
    | orAssign g => exact bits_or _ _
    | orAssignEnum m => exact bits_or _ _
    | xorAssign g => exact bits_xor _ _
    | xorAssignEnum m => exact bits_xor _ _
    | clear => ext i; simp [bitSet, Flags.step, Flags.clear, flagSet]

private theorem bits_empty (v : BitVec 32) : bitSet v = ∅ ↔ v = 0 := by
  have h0 : bitSet (0 : BitVec 32) = ∅ := by ext i; simp [bitSet]
  exact ⟨fun h => bits_inj (h.trans h0.symm), fun h => by rw [h, h0]⟩

/-- **C38**: `testFlag` of a flag with one bit is membership; of a flag with any number of bits it says
whether *some* bit is set, and of the zero flag whether no flag is set. -/
theorem C38_testFlag (f : Flags.T) (i : Fin 32) (m : BitVec 32) :
    (bitSet m = {i} → (testFlag f m = true ↔ i ∈ bitSet f.value)) ∧
    (m ≠ 0 → (testFlag f m = true ↔ ∃ j, j ∈ bitSet m ∧ j ∈ bitSet f.value)) ∧
    (testFlag f 0 = true ↔ bitSet f.value = ∅) := by
  have key : ∀ m : BitVec 32, m ≠ 0 →
      (testFlag f m = true ↔ ∃ j, j ∈ bitSet m ∧ j ∈ bitSet f.value) := by
    intro m hm
    have : (f.value &&& m ≠ 0) ↔ ∃ j, j ∈ bitSet m ∧ j ∈ bitSet f.value := by
      rw [ne_eq, ← bits_empty, bits_and, ← ne_eq, ← Set.nonempty_iff_ne_empty]
      exact ⟨fun ⟨j, h⟩ => ⟨j, h.2, h.1⟩, fun ⟨j, h⟩ => ⟨j, h.2, h.1⟩⟩
    rw [← this]
    unfold testFlag
    have hm' : ¬ m = 0#32 := hm
    by_cases h : f.value &&& m = 0
    · have h' : f.value &&& m = 0#32 := h
      simp [h', hm']
    · have h' : ¬ f.value &&& m = 0#32 := h
      simp [h', hm']
  refine ⟨fun h => ?_, key m, ?_⟩
  · have hm : m ≠ 0 := by
      rintro rfl
      rw [(bits_empty 0).2 rfl] at h
      exact absurd h (Set.singleton_ne_empty i).symm
    rw [key m hm, h]
    simp
  · rw [bits_empty]
    unfold testFlag
    simp

/-- **C38 fails** for flags of several bits if membership means that all of them are set: `testFlag`
answers true for `0x3` although only `0x1` is set, while `&` and comparison say otherwise. -/
theorem C38_fails_all_bits :
    testFlag (ofEnum 1) 3 = true ∧ ¬ bitSet 3 ⊆ bitSet (ofEnum 1).value := by
  refine ⟨by decide, fun h => ?_⟩
  have h1 : (1 : Fin 32) ∈ bitSet 3 := by simp only [bitSet, Set.mem_setOf_eq]; decide
  have h2 := h h1
  simp only [bitSet, Set.mem_setOf_eq, ofEnum] at h2
  exact absurd h2 (by decide)

/-- **C38 fails** for the documented first bit constant: `Bit0` is zero, so it is no member of
anything (and `Bit0 | x` is `x`). -/
theorem C38_fails_Bit0 (f : Flags.T) : orEnum f 0 = f ∧ (f.value ≠ 0 → testFlag (orEnum f 0) 0 = false) := by
  refine ⟨by simp [orEnum], fun h => ?_⟩
  have h' : ¬ f.value = 0#32 := h
  simp [orEnum, testFlag, h']

example : bitSet 4 = {2} := by
  ext i; simp only [bitSet, Set.mem_setOf_eq, Set.mem_singleton_iff]; revert i; decide
example : testFlag (Flags.or (ofEnum 1) (ofEnum 4)) 4 = true ∧
    testFlag (Flags.and (ofEnum 5) 1) 4 = false := by decide

end Ecl.Props
