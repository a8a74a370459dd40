import Verif.Lemmas.Statistics
import Mathlib.Tactic.NormNum

/-! # C65: cumulative statistics -/
set_option autoImplicit false

namespace Ecl.Props
open Ecl Ecl.CumStat Ecl.Spec

/-- **C65.** After any history of pushes and clears, whatever was in memory at construction, size, mean and
variance are the number, the arithmetic mean and the unbiased sample variance of the values pushed since
the last clear (both 0 where they are not defined). -/
theorem C65_statistics (garbage : State) (ops : List Op) :
    size (run garbage ops) = (sinceClear ops).length ∧
    mean (run garbage ops) = average (sinceClear ops) ∧
    variance (run garbage ops) = sampleVariance (sinceClear ops) := by
  have h := run_describes garbage ops
  generalize sinceClear ops = l at *
  generalize run garbage ops = s at *
  refine ⟨by simp [size, h.count], ?_, ?_⟩
  · unfold mean
    rw [h.count]
    split
    next hp => exact (h.some (List.length_pos_iff.1 hp)).1
    next hp =>
      have : l = [] := List.length_eq_zero_iff.1 (by omega)
      subst this; simp [average]
  · unfold variance sampleVariance
    rw [h.count]
    split
    next hp => rw [if_neg (by omega), h.more hp]
    next hp => rw [if_pos (by omega)]

/-- Values pushed before a clear do not count: 7, clear, 1, 2, 6 has mean 3 and variance 7. -/
example (g : State) : mean (run g [.push 7, .clear, .push 1, .push 2, .push 6]) = 3 ∧
    variance (run g [.push 7, .clear, .push 1, .push 2, .push 6]) = 7 := by
  have h := C65_statistics g [.push 7, .clear, .push 1, .push 2, .push 6]
  rw [h.2.1, h.2.2]
  constructor
  · simp [sinceClear, average]; norm_num
  · simp [sinceClear, sampleVariance, deviation, average]; norm_num

end Ecl.Props
