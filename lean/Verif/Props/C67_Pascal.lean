import Verif.Lemmas.Pascal

/-! # C67: Pascal's triangle -/
set_option autoImplicit false

namespace Ecl.Props
open Ecl Ecl.Pascal

/-- **C67.** Up to power 33 the triangle is constructed without overflow, row `i` has `N+1-i`
entries, and entry `k` of row `i` is the binomial coefficient of `i+k` over `k`.

Missing from the full statement: powers above 33, see `C67_fails_large`. -/
theorem C67_rows_partial (n : Nat) (hn : n ≤ 33) :
    ∃ cs, coefficients n = .ok cs ∧
      ∀ i, i ≤ n → (row n i cs).length = n + 1 - i ∧
        ∀ k, i + k ≤ n → (row n i cs)[k]? = some ((Nat.choose (i + k) k : Nat) : Int) := by
  refine ⟨_, coefficients_small hn, ?_⟩
  intro i hi
  rw [row_rowsUpto hi]
  exact ⟨length_rowPart _ _, fun k hk => getElem_rowPart (by omega)⟩

example : coefficients 4 = .ok [1,1,1,1,1, 1,2,3,4, 1,3,6, 1,4, 1] ∧
    row 4 2 [1,1,1,1,1, 1,2,3,4, 1,3,6, 1,4, 1] = [1, 3, 6] := by decide

/-- **C67.** The array of `(N+2)(N+1)/2` elements is filled completely, without writing past it. -/
theorem C67_size_partial (n : Nat) (hn : n ≤ 33) :
    ∃ cs, coefficients n = .ok cs ∧ cs.length = (n + 2) * (n + 1) / 2 ∧
      ∀ i, i ≤ n → beginOffset n i < cs.length ∧ endOffset n i ≤ cs.length := by
  have key : ∀ r, r ≤ n + 1 → 2 * beginOffset n r + (n + 1 - r) * (n + 2 - r) = (n + 1) * (n + 2) := by
    intro r
    induction r with
    | zero => intro _; simp [beginOffset]
    | succ r ih =>
      intro h
      have := ih (by omega)
      rw [← this, beginOffset]
      obtain ⟨d, rfl⟩ : ∃ d, n = r + d := ⟨n - r, by omega⟩
      have h1 : r + d + 1 - (r + 1) = d := by omega
      have h2 : r + d + 2 - (r + 1) = d + 1 := by omega
      have h3 : r + d + 1 - r = d + 1 := by omega
      have h4 : r + d + 2 - r = d + 2 := by omega
      rw [h1, h2, h3, h4]; ring
  refine ⟨_, coefficients_small hn, ?_, ?_⟩
  · rw [length_rowsUpto]
    have := key (n + 1) (Nat.le_refl _)
    have h0 : n + 1 - (n + 1) = 0 := by omega
    rw [h0] at this
    rw [Nat.mul_comm (n + 2), ← this]; omega
  · intro i hi
    rw [length_rowsUpto]
    have h1 := beginOffset_le n (i + 1) (n - i)
    have e : i + 1 + (n - i) = n + 1 := by omega
    rw [e] at h1
    have h2 : beginOffset n (i + 1) = beginOffset n i + (n + 1 - i) := rfl
    unfold endOffset
    omega

/-- **C67.** From power 34 on the full property fails: filling the triangle overflows `int`. -/
theorem C67_fails_large (n : Nat) (hn : 34 ≤ n) : coefficients n = .ub := by
  unfold coefficients
  rw [if_neg (by omega), if_neg (by omega), generic_large hn]

end Ecl.Props
