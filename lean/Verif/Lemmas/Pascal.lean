import Verif.Model.Pascal
import Mathlib.Data.Nat.Choose.Basic
import Mathlib.Data.Nat.Choose.Sum
import Mathlib.Tactic.NormNum
import Mathlib.Tactic.IntervalCases
import Mathlib.Tactic.Ring
import Mathlib.Tactic.NormNum.NatFactorial

/-! # Filling Pascal's triangle -/
set_option autoImplicit false
set_option linter.unusedSimpArgs false

namespace Ecl.Pascal

/-- Entry `k` of row `r`. -/
def bin (r k : Nat) : Int := (Nat.choose (r + k) k : Int)

/-- First `m` entries of row `r`. -/
def rowPart (r m : Nat) : List Int := (List.range m).map (bin r)

/-- The first `r` rows of the triangle of size `n`. -/
def rowsUpto (n : Nat) : Nat → List Int
  | 0 => []
  | r + 1 => rowsUpto n r ++ rowPart r (n + 1 - r)

theorem rowPart_succ (r m : Nat) : rowPart r (m + 1) = rowPart r m ++ [bin r m] := by
  simp [rowPart, List.range_succ]

theorem length_rowPart (r m : Nat) : (rowPart r m).length = m := by simp [rowPart]

theorem getElem_rowPart {r m k : Nat} (h : k < m) : (rowPart r m)[k]? = some (bin r k) := by
  simp [rowPart, h]

theorem length_rowsUpto (n r : Nat) : (rowsUpto n r).length = beginOffset n r := by
  induction r with
  | zero => rfl
  | succ r ih => simp [rowsUpto, beginOffset, ih, length_rowPart]

theorem bin_pos_pos (r k : Nat) : bin (r + 1) (k + 1) = bin (r + 1) k + bin r (k + 1) := by
  unfold bin
  have : r + 1 + (k + 1) = (r + (k + 1)) + 1 := by omega
  rw [this, Nat.choose_succ_succ]
  have : r + (k + 1) = r + 1 + k := by omega
  rw [this]; push_cast; ring

theorem bin_zero_left (k : Nat) : bin 0 k = 1 := by simp [bin]
theorem bin_zero_right (r : Nat) : bin r 0 = 1 := by simp [bin]

/-- The entry the loop computes, given the entries before it. -/
theorem entry_spec {n r j : Nat} (hr : r ≤ n) (hj : j < n + 1 - r) :
    entry n (n + 1 - r) j (rowsUpto n r ++ rowPart r j) =
      if InInt (bin r j) then .ok (bin r j) else .ub := by
  have one : InInt 1 := by unfold InInt intMin intMax; omega
  rcases Nat.eq_zero_or_pos r with h0 | h0
  · subst h0
    rw [bin_zero_left, if_pos one, entry, if_pos (by simp)]
  · rcases Nat.eq_zero_or_pos j with h1 | h1
    · subst h1
      rw [bin_zero_right, if_pos one, entry, if_pos (by simp)]
    · obtain ⟨r, rfl⟩ : ∃ q, r = q + 1 := ⟨r - 1, by omega⟩
      obtain ⟨j, rfl⟩ : ∃ q, j = q + 1 := ⟨j - 1, by omega⟩
      have hl : (rowsUpto n (r + 1) ++ rowPart (r + 1) (j + 1)).length =
          (rowsUpto n r).length + (n + 1 - r) + (j + 1) := by
        simp only [rowsUpto, List.length_append, length_rowPart]
      have e1 : (rowsUpto n (r + 1) ++ rowPart (r + 1) (j + 1))[(rowsUpto n r).length + (n + 1 - r) + (j + 1) - 1]? =
          some (bin (r + 1) j) := by
        rw [List.getElem?_append_right (by simp [rowsUpto, length_rowPart])]
        have : (rowsUpto n r).length + (n + 1 - r) + (j + 1) - 1 - (rowsUpto n (r + 1)).length = j := by
          simp only [rowsUpto, List.length_append, length_rowPart]; omega
        rw [this, getElem_rowPart (by omega)]
      have e2 : (rowsUpto n (r + 1) ++ rowPart (r + 1) (j + 1))[(rowsUpto n r).length + (n + 1 - r) + (j + 1) - (n + 1 - (r + 1) + 1)]? =
          some (bin r (j + 1)) := by
        have hi : (rowsUpto n r).length + (n + 1 - r) + (j + 1) - (n + 1 - (r + 1) + 1) = (rowsUpto n r).length + (j + 1) := by omega
        rw [hi, rowsUpto, List.append_assoc, List.getElem?_append_right (by omega)]
        have : (rowsUpto n r).length + (j + 1) - (rowsUpto n r).length = j + 1 := by omega
        rw [this, List.getElem?_append_left (by rw [length_rowPart]; omega), getElem_rowPart (by omega)]
      unfold entry
      rw [if_neg (by omega), hl, e1, e2]
      simp only [bin_pos_pos]

/-- The inner loop appends the rest of the row, unless an entry does not fit. -/
theorem fillRow_spec {n r : Nat} (hr : r ≤ n) : ∀ (left j : Nat), j + left = n + 1 - r →
    fillRow n (n + 1 - r) left j (rowsUpto n r ++ rowPart r j) =
      if ∀ k, j ≤ k → k < n + 1 - r → InInt (bin r k) then .ok (rowsUpto n (r + 1)) else .ub := by
  intro left
  induction left with
  | zero =>
    intro j h
    rw [if_pos (by intro k h1 h2; omega), fillRow, rowsUpto]
    have : j = n + 1 - r := by omega
    rw [this]
  | succ left ih =>
    intro j h
    rw [fillRow, entry_spec hr (by omega)]
    by_cases hv : InInt (bin r j)
    · rw [if_pos hv]
      show fillRow n (n + 1 - r) left (j + 1) ((rowsUpto n r ++ rowPart r j) ++ [bin r j]) = _
      rw [List.append_assoc, ← rowPart_succ, ih (j + 1) (by omega)]
      have : (∀ k, j + 1 ≤ k → k < n + 1 - r → InInt (bin r k)) ↔
          (∀ k, j ≤ k → k < n + 1 - r → InInt (bin r k)) := by
        constructor
        · intro H k h1 h2
          rcases Nat.eq_or_lt_of_le h1 with e | e
          · rw [← e]; exact hv
          · exact H k e h2
        · intro H k h1 h2; exact H k (by omega) h2
      simp only [this]
    · rw [if_neg hv, if_neg (fun H => hv (H j (Nat.le_refl _) (by omega)))]
      rfl

/-- The outer loop. -/
theorem fillRows_spec {n : Nat} : ∀ (i r : Nat), i + r = n + 1 →
    fillRows n i (rowsUpto n r) =
      if ∀ q, r ≤ q → q ≤ n → ∀ k, k < n + 1 - q → InInt (bin q k) then .ok (rowsUpto n (n + 1)) else .ub := by
  intro i
  induction i with
  | zero =>
    intro r h
    rw [if_pos (by intro q h1 h2; omega), fillRows]
    have : r = n + 1 := by omega
    rw [this]
  | succ i ih =>
    intro r h
    have e : i + 1 = n + 1 - r := by omega
    rw [fillRows, e]
    have := fillRow_spec (n := n) (r := r) (by omega) (n + 1 - r) 0 (by omega)
    rw [show rowPart r 0 = [] from rfl, List.append_nil] at this
    rw [this]
    by_cases hv : ∀ k, 0 ≤ k → k < n + 1 - r → InInt (bin r k)
    · rw [if_pos hv]
      show fillRows n i (rowsUpto n (r + 1)) = _
      rw [ih (r + 1) (by omega)]
      have : (∀ q, r + 1 ≤ q → q ≤ n → ∀ k, k < n + 1 - q → InInt (bin q k)) ↔
          (∀ q, r ≤ q → q ≤ n → ∀ k, k < n + 1 - q → InInt (bin q k)) := by
        constructor
        · intro H q h1 h2
          rcases Nat.eq_or_lt_of_le h1 with e | e
          · rw [← e]; exact fun k hk => hv k (Nat.zero_le _) hk
          · exact H q e h2
        · intro H q h1 h2; exact H q (by omega) h2
      simp only [this]
    · rw [if_neg hv, if_neg (fun H => hv (fun k _ hk => H r (Nat.le_refl _) (by omega) k hk))]
      rfl

theorem bin_small {r k : Nat} (h : r + k ≤ 33) : InInt (bin r k) := by
  have h1 : Nat.choose (r + k) k ≤ Nat.choose 33 16 :=
    le_trans (Nat.choose_le_choose k h) (Nat.choose_le_middle k 33)
  have h2 : Nat.choose 33 16 = 1166803110 := by norm_num [Nat.choose]
  unfold InInt bin intMin intMax
  omega

theorem generic_small {n : Nat} (h : n ≤ 33) : generic n = .ok (rowsUpto n (n + 1)) := by
  unfold generic
  have := fillRows_spec (n := n) (n + 1) 0 (by omega)
  rw [show rowsUpto n 0 = [] from rfl] at this
  rw [this, if_pos]
  intro q _ hq k hk
  exact bin_small (by omega)

theorem generic_large {n : Nat} (h : 34 ≤ n) : generic n = .ub := by
  unfold generic
  have := fillRows_spec (n := n) (n + 1) 0 (by omega)
  rw [show rowsUpto n 0 = [] from rfl] at this
  rw [this, if_neg]
  intro H
  have := H 17 (by omega) (by omega) 17 (by omega)
  have h2 : Nat.choose (17 + 17) 17 = 2333606220 := by norm_num [Nat.choose]
  unfold InInt bin intMin intMax at this
  omega

theorem coefficients_small {n : Nat} (h : n ≤ 33) : coefficients n = .ok (rowsUpto n (n + 1)) := by
  unfold coefficients
  split
  next h3 => subst h3; decide
  next h3 =>
    split
    next h5 => subst h5; decide
    next h5 => exact generic_small h

theorem beginOffset_le (n r : Nat) : ∀ d, beginOffset n r ≤ beginOffset n (r + d) := by
  intro d
  induction d with
  | zero => exact Nat.le_refl _
  | succ d ih => rw [← Nat.add_assoc, beginOffset]; omega

theorem rowsUpto_prefix (n r : Nat) : ∀ d, ∃ more, rowsUpto n (r + d) = rowsUpto n r ++ more := by
  intro d
  induction d with
  | zero => exact ⟨[], by simp⟩
  | succ d ih =>
    obtain ⟨m, hm⟩ := ih
    exact ⟨m ++ rowPart (r + d) (n + 1 - (r + d)), by
      rw [← Nat.add_assoc, rowsUpto, hm, List.append_assoc]⟩

theorem row_rowsUpto {n r : Nat} (h : r ≤ n) : row n r (rowsUpto n (n + 1)) = rowPart r (n + 1 - r) := by
  obtain ⟨m, hm⟩ := rowsUpto_prefix n (r + 1) (n - r)
  have e : r + 1 + (n - r) = n + 1 := by omega
  rw [e] at hm
  unfold row
  rw [hm, rowsUpto, List.append_assoc, List.drop_append_of_le_length (by rw [length_rowsUpto]),
    ← length_rowsUpto, List.drop_length, List.nil_append]
  have : endOffset n r - (rowsUpto n r).length = (rowPart r (n + 1 - r)).length := by
    unfold endOffset
    rw [length_rowPart, beginOffset, ← length_rowsUpto]
    omega
  rw [this, List.take_left']
  rfl

end Ecl.Pascal
