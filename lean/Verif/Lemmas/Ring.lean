import Verif.Model.Fifo
import Verif.Model.PushAndPop

/-! Helper lemmas on ring indices and array access. -/
set_option autoImplicit false
set_option linter.unusedSimpArgs false

namespace Ecl
variable {α : Type _}

theorem ring_mod {f i n : Nat} (hf : f < n) (hi : i ≤ n) :
    (f + i) % n = if f + i < n then f + i else f + i - n := by
  split
  · exact Nat.mod_eq_of_lt ‹_›
  · rw [Nat.mod_eq_sub_mod (by omega), Nat.mod_eq_of_lt (by omega)]

theorem ring_inj {f i j n : Nat} (hf : f < n) (hi : i < n) (hj : j < n)
    (h : (f + i) % n = (f + j) % n) : i = j := by
  rw [ring_mod hf (by omega), ring_mod hf (by omega)] at h
  split at h <;> split at h <;> omega

namespace Arr

@[simp] theorem assertThrow_true (m : Mode) (e : Flag) : assertThrow m true e = .ok () := by
  cases m <;> rfl

@[simp] theorem assertThrow_release (c : Bool) (e : Flag) : assertThrow .release c e = .ok () := rfl

theorem get_ok (m : Mode) (l : List α) (i : Nat) (h : i < l.length) : get m l i = .ok l[i] := by
  simp [get, h, rawGet]

theorem get_ok' (m : Mode) (l : List α) (i : Nat) (a : α) (h : l[i]? = some a) :
    get m l i = .ok a := by
  obtain ⟨hi, rfl⟩ := List.getElem?_eq_some_iff.mp h
  exact get_ok m l i hi

theorem set_ok (m : Mode) (l : List α) (i : Nat) (v : α) (h : i < l.length) :
    set m l i v = .ok (l.set i v) := by
  simp [set, h, rawSet]

theorem set_oob_release (l : List α) (i : Nat) (v : α) (h : l.length ≤ i) :
    set .release l i v = .ub := by
  simp [set, rawSet, Nat.not_lt.mpr h]

theorem set_oob_debug (l : List α) (i : Nat) (v : α) (h : l.length ≤ i) :
    set .debug l i v = .throw .outOfRange := by
  simp [set, assertThrow, Nat.not_lt.mpr h]

theorem get_oob_release (l : List α) (i : Nat) (h : l.length ≤ i) :
    get .release l i = .ub := by
  simp [get, rawGet, h]

theorem get_oob_debug (l : List α) (i : Nat) (h : l.length ≤ i) :
    get .debug l i = .throw .outOfRange := by
  simp [get, assertThrow, Nat.not_lt.mpr h]

theorem get_dichotomy (m : Mode) (l : List α) (i : Nat) :
    (∃ h : i < l.length, get m l i = .ok l[i]) ∨
      (l.length ≤ i ∧ get m l i = if m = .debug then .throw .outOfRange else .ub) := by
  rcases Nat.lt_or_ge i l.length with h | h
  · exact .inl ⟨h, get_ok m l i h⟩
  · refine .inr ⟨h, ?_⟩
    cases m
    · simp [get_oob_debug _ _ h]
    · simp [get_oob_release _ _ h]

end Arr

namespace Fifo

theorem fillLoop_ok (m : Mode) (v : α) (k i : Nat) (l : List α) (h : i + k = l.length) :
    fillLoop m v i k l = .ok (l.take i ++ List.replicate k v) := by
  induction k generalizing i l with
  | zero => simp only [Nat.add_zero] at h; subst h; simp [fillLoop]
  | succ k ih =>
    rw [fillLoop, Arr.set_ok m l i v (by omega)]
    simp only
    rw [ih (i + 1) (l.set i v) (by simp; omega)]
    congr 1
    rw [List.take_add_one, List.take_set_of_le (by omega)]
    simp [List.getElem?_set, show i < l.length by omega, List.replicate_succ]

theorem fillLoop_full (m : Mode) (v : α) (l : List α) :
    fillLoop m v 0 l.length l = .ok (List.replicate l.length v) := by
  rw [fillLoop_ok m v l.length 0 l (by simp)]; simp

end Fifo

namespace PushAndPop

theorem fillLoop_eq (m : Mode) (v : α) (k i : Nat) (l : List α) :
    fillLoop m v i k l = Fifo.fillLoop m v i k l := by
  induction k generalizing i l with
  | zero => rfl
  | succ k ih => rw [fillLoop, Fifo.fillLoop]; cases Arr.set m l i v <;> simp [ih]

theorem modAssign_nat {x n : Nat} (hn : 0 < n) (hn' : n ≤ 2147483648) (hx : x < 4294967296) :
    modAssign (x : Int) n = .ok ((x % n : Nat) : Int) := by
  have : x % n < n := Nat.mod_lt _ hn
  rw [modAssign, if_neg (by omega), u32_natCast hx, s32_small (by omega)]

theorem incr_nat {x : Nat} (hx : x < 2147483647) : incr (x : Int) = .ok ((x + 1 : Nat) : Int) := by
  rw [incr, if_neg (by unfold intMax; omega)]; rfl

/-- Ring state `s` of capacity `cap` holds the queue `q`, oldest element at the follower `f`. -/
structure Rel (cap : Nat) (s : PushAndPop α) (q : List α) : Prop where
  len : s.data.length = cap + 1
  size : s.size = cap + 1
  bound : q.length ≤ cap
  idx : ∃ f : Nat, f < cap + 1 ∧ s.follower = f ∧
    s.leader = ((f + q.length) % (cap + 1) : Nat) ∧
    ∀ i (h : i < q.length), s.data[(f + i) % (cap + 1)]? = some q[i]

theorem Rel.push {cap : Nat} {s : PushAndPop α} {q : List α} (h : Rel cap s q)
    (hc : cap + 1 < 2147483648) (m : Mode) (d : α) :
    ∃ s', pushBack m s d = .ok s' () ∧
      Rel cap s' (if q.length < cap then q ++ [d] else (q ++ [d]).tail) := by
  obtain ⟨hlen, hsize, hb, f, hf, hfo, hle, hq⟩ := h
  have hl : (f + q.length) % (cap + 1) < cap + 1 := Nat.mod_lt _ (by omega)
  have hget : ∀ i (hi : i < (q ++ [d]).length),
      (s.data.set ((f + q.length) % (cap + 1)) d)[(f + i) % (cap + 1)]? = some (q ++ [d])[i] := by
    intro i hi
    simp only [List.length_append, List.length_cons, List.length_nil] at hi
    have hi2 : (f + i) % (cap + 1) < cap + 1 := Nat.mod_lt _ (by omega)
    rcases Nat.lt_or_ge i q.length with h' | h'
    · rw [List.getElem?_set_ne, hq i h', List.getElem_append_left h']
      intro hh
      have := ring_inj (n := cap + 1) hf (by omega) (by omega) hh
      omega
    · have : i = q.length := by omega
      subst this
      rw [List.getElem?_set_self (by omega)]
      simp
  have hmod : ((f + q.length) % (cap + 1) + 1) % (cap + 1) = (f + (q.length + 1)) % (cap + 1) := by
    rw [Nat.mod_add_mod]; rfl
  unfold pushBack
  rw [hle, incr_nat (by omega)]
  simp only
  rw [u64_natCast (by omega), Arr.set_ok m s.data _ d (by omega)]
  simp only
  rw [hsize, modAssign_nat (by omega) (by omega) (by omega), hmod]
  simp only
  by_cases hfull : q.length < cap
  · have hne : ¬ (((f + (q.length + 1)) % (cap + 1) : Nat) : Int) = s.follower := by
      rw [hfo, ring_mod hf (by omega)]; split <;> omega
    rw [if_neg hne, if_pos hfull]
    refine ⟨_, rfl, ?_, rfl, ?_, f, hf, hfo, ?_, ?_⟩
    · simp [hlen]
    · simp; omega
    · simp
    · exact hget
  · have heq : (((f + (q.length + 1)) % (cap + 1) : Nat) : Int) = s.follower := by
      rw [hfo, ring_mod hf (by omega)]; split <;> omega
    rw [if_pos heq, if_neg hfull, hfo, incr_nat (by omega)]
    simp only
    rw [modAssign_nat (by omega) (by omega) (by omega)]
    refine ⟨_, rfl, ?_, rfl, ?_, (f + 1) % (cap + 1), Nat.mod_lt _ (by omega), rfl, ?_, ?_⟩
    · simp [hlen]
    · simp; omega
    · simp only [List.length_tail, List.length_append, List.length_cons, List.length_nil,
        Nat.add_sub_cancel]
      rw [Nat.mod_add_mod, show f + 1 + q.length = f + (q.length + 1) by omega]
    · intro i hi
      simp only [List.length_tail, List.length_append, List.length_cons, List.length_nil] at hi
      rw [Nat.mod_add_mod, show f + 1 + i = f + (i + 1) by omega,
        hget (i + 1) (by simp; omega), List.getElem_tail]

theorem Rel.pop {cap : Nat} {s : PushAndPop α} {a : α} {q : List α} (h : Rel cap s (a :: q))
    (hc : cap + 1 < 2147483648) (m : Mode) :
    ∃ s', popFront m s = .ok s' a ∧ Rel cap s' q := by
  obtain ⟨hlen, hsize, hb, f, hf, hfo, hle, hq⟩ := h
  simp only [List.length_cons] at hb
  have hne : s.follower ≠ s.leader := by
    rw [hfo, hle, ring_mod hf (by simp; omega)]; simp; split <;> omega
  have h0 := hq 0 (by simp)
  rw [Nat.add_zero, Nat.mod_eq_of_lt hf] at h0
  unfold popFront
  rw [hfo, hle] at *
  simp only [hne, ne_eq, not_false_eq_true, decide_true, Arr.assertThrow_true]
  rw [incr_nat (by omega)]
  simp only
  rw [u64_natCast (by omega), Arr.get_ok' m s.data f _ h0]
  simp only
  rw [hsize, modAssign_nat (by omega) (by omega) (by omega)]
  refine ⟨_, rfl, hlen, rfl, by omega, (f + 1) % (cap + 1), Nat.mod_lt _ (by omega), rfl, ?_, ?_⟩
  · simp only [hle, List.length_cons]
    rw [Nat.mod_add_mod, show f + 1 + q.length = f + (q.length + 1) by omega]
  · intro i hi
    rw [Nat.mod_add_mod, show f + 1 + i = f + (i + 1) by omega, hq (i + 1) (by simp; omega)]
    simp

theorem Rel.pop_empty_debug {cap : Nat} {s : PushAndPop α} (h : Rel cap s []) :
    popFront .debug s = .throw s .outOfRange := by
  obtain ⟨hlen, hsize, hb, f, hf, hfo, hle, hq⟩ := h
  have : s.follower = s.leader := by
    rw [hfo, hle]; simp only [List.length_nil, Nat.add_zero]; rw [Nat.mod_eq_of_lt hf]
  unfold popFront
  simp [this, assertThrow]

theorem Rel.get {cap : Nat} {s : PushAndPop α} {q : List α} (h : Rel cap s q)
    (hc : cap + 1 < 2147483648) (m : Mode) (i : Nat) (hi : i < q.length)
    (hov : cap + i < 2147483648) :
    PushAndPop.get m s i = .ok s q[i] := by
  obtain ⟨hlen, hsize, hb, f, hf, hfo, hle, hq⟩ := h
  have hcast : ((f : Int) + (i : Int)) = ((f + i : Nat) : Int) := by omega
  unfold PushAndPop.get
  rw [hfo, hcast, if_neg (by unfold InInt intMin intMax; omega), if_neg (by omega),
    u32_natCast (by omega), hsize, Arr.get_ok' m s.data _ _ (hq i hi)]

theorem Rel.sizeOf {cap : Nat} {s : PushAndPop α} {q : List α} (h : Rel cap s q)
    (hc : cap + 1 < 2147483648) : s.sizeOf = q.length := by
  obtain ⟨hlen, hsize, hb, f, hf, hfo, hle, hq⟩ := h
  unfold PushAndPop.sizeOf
  rw [hle, hfo, hsize, ring_mod hf (by omega)]
  split <;> split <;> (try split) <;> (try simp only [u32]) <;> omega

theorem Rel.clear {cap : Nat} {s : PushAndPop α} {q : List α} (h : Rel cap s q) :
    Rel cap s.clear [] := by
  obtain ⟨hlen, hsize, hb, f, hf, hfo, hle, hq⟩ := h
  exact ⟨hlen, hsize, by simp, 0, by omega, rfl, by simp [PushAndPop.clear], by simp⟩

theorem Rel.fill {cap : Nat} {s : PushAndPop α} {q : List α} (h : Rel cap s q) (m : Mode) (v : α) :
    ∃ s', PushAndPop.fill m s v = .ok s' () ∧ Rel cap s' (List.replicate q.length v) := by
  obtain ⟨hlen, hsize, hb, f, hf, hfo, hle, hq⟩ := h
  unfold PushAndPop.fill
  rw [fillLoop_eq, hsize, ← hlen, Fifo.fillLoop_full]
  refine ⟨_, rfl, by simp [hlen], by simpa using hlen, by simpa using hb, f, hf, hfo, by simpa using hle, ?_⟩
  intro i hi
  have : (f + i) % (cap + 1) < cap + 1 := Nat.mod_lt _ (by omega)
  simp [hlen, this]

theorem Rel.mkFixed (cap : Nat) (hc : cap + 1 < 2147483648) (junk : Nat → α) :
    Rel cap (PushAndPop.mkFixed cap junk) [] :=
  ⟨by simp [PushAndPop.mkFixed], by simp [PushAndPop.mkFixed]; omega, by simp, 0, by omega, rfl,
    by simp [PushAndPop.mkFixed], by simp⟩

end PushAndPop
end Ecl
