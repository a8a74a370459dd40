import Verif.Lemmas.Ring

set_option autoImplicit false
set_option linter.unusedSimpArgs false

namespace Ecl.Fifo
variable {α : Type _}

/-- The ring `s` of length `N` shows the window `w`. -/
structure Rel (N : Nat) (s : Fifo α) (w : List α) : Prop where
  len : s.data.length = N
  size : s.size = N
  wlen : w.length = N
  idx : s.idx < N
  val : ∀ i (h : i < w.length), s.data[(s.idx + i) % N]? = some w[i]

theorem Rel.mkFill (N : Nat) (hN : 0 < N) (v : α) : Rel N (Fifo.mkFill N v) (List.replicate N v) :=
  ⟨by simp [Fifo.mkFill], rfl, by simp, by simpa [Fifo.mkFill], by
    intro i hi
    have : i % N < N := Nat.mod_lt _ hN
    simp [Fifo.mkFill, List.getElem?_replicate, this]⟩

theorem Rel.mk0 (N : Nat) (hN : 0 < N) (junk : Nat → α) :
    Rel N (Fifo.mk0 N junk) ((List.range N).map junk) :=
  ⟨by simp [Fifo.mk0], rfl, by simp, by simpa [Fifo.mk0], by
    intro i hi
    simp at hi
    simp [Fifo.mk0, Nat.mod_eq_of_lt hi, hi]⟩

theorem Rel.push {N : Nat} {s : Fifo α} {w : List α} (h : Rel N s w) (hN : N < 4294967296)
    (m : Mode) (d : α) :
    ∃ s', pushBack m s d = .ok s' () ∧ Rel N s' (w.tail ++ [d]) := by
  obtain ⟨hlen, hsize, hw, hidx, hv⟩ := h
  unfold pushBack
  simp only
  rw [Arr.set_ok m s.data s.idx d (by omega)]
  simp only
  rw [if_neg (by omega), Nat.mod_eq_of_lt (show s.idx + 1 < 4294967296 by omega), hsize]
  refine ⟨_, rfl, by simp [hlen], rfl, by simp [hw]; omega, Nat.mod_lt _ (by omega), ?_⟩
  intro i hi
  simp only [List.length_append, List.length_tail, List.length_cons, List.length_nil] at hi
  simp only
  rw [Nat.mod_add_mod, show s.idx + 1 + i = s.idx + (i + 1) by omega]
  rcases Nat.lt_or_ge i (w.length - 1) with h' | h'
  · rw [List.getElem?_set_ne, hv (i + 1) (by omega), List.getElem_append_left (by simpa using h'),
      List.getElem_tail]
    intro hh
    have : (s.idx + 0) % N = (s.idx + (i + 1)) % N := by
      rw [Nat.add_zero, Nat.mod_eq_of_lt hidx]; exact hh
    have := ring_inj hidx (by omega) (by omega) this
    omega
  · have : i + 1 = N := by omega
    rw [this, Nat.add_mod_right, Nat.mod_eq_of_lt hidx, List.getElem?_set_self (by omega)]
    rw [List.getElem_append_right (by simp; omega)]
    simp

theorem Rel.get {N : Nat} {s : Fifo α} {w : List α} (h : Rel N s w) (hN : N ≤ 2147483648)
    (m : Mode) (i : Nat) (hi : i < w.length) : Fifo.get m s i = .ok s w[i] := by
  obtain ⟨hlen, hsize, hw, hidx, hv⟩ := h
  have hcast : ((s.idx : Int) + (i : Int)) = ((s.idx + i : Nat) : Int) := by omega
  unfold Fifo.get
  rw [if_neg (by omega), hcast, u32_natCast (by omega), hsize, Arr.get_ok' m _ _ _ (hv i hi)]

theorem Rel.fill {N : Nat} {s : Fifo α} {w : List α} (h : Rel N s w) (m : Mode) (v : α) :
    ∃ s', Fifo.fill m s v = .ok s' () ∧ Rel N s' (List.replicate w.length v) := by
  obtain ⟨hlen, hsize, hw, hidx, hv⟩ := h
  unfold Fifo.fill
  rw [hsize, ← hlen, fillLoop_full]
  refine ⟨_, rfl, by simp, by simp [hsize], by simp [hw, hlen], by simp; omega, ?_⟩
  intro i hi
  have : (s.idx + i) % N < N := Nat.mod_lt _ (by omega)
  simp [hlen, this]

end Ecl.Fifo
