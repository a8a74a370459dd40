import Verif.Model.ArrayMore
import Verif.Lemmas.Ring

/-!
# C05 (array access), C06 (comma initialisation), C08 (guard bytes)
-/
set_option autoImplicit false
set_option linter.unusedSimpArgs false

namespace Ecl.Props
variable {α : Type _}

/-! ## C05 -/

/-- **C05**: `at(i)` is element `i` when `i` is below the size, and an `OutOfRangeError` exception
otherwise; it is never undefined.  (`at` does not depend on the build mode.) -/
theorem C05_at (l : List α) (i : Nat) :
    Arr.at' l i = match l[i]? with
      | some a => .ok a
      | none => .throw .outOfRange := by
  unfold Arr.at' Arr.rawGet
  rcases Nat.lt_or_ge i l.length with h | h
  · simp [h, Nat.not_le.mpr h]
  · simp [h]

/-- **C05**: in debug builds `operator[]` agrees with `at` for every index. -/
theorem C05_index_debug (l : List α) (i : Nat) : Arr.get .debug l i = Arr.at' l i := by
  rw [C05_at]
  rcases Nat.lt_or_ge i l.length with h | h
  · rw [Arr.get_ok _ _ _ h]; simp [h]
  · rw [Arr.get_oob_debug _ _ h]; simp [h]

/-- **C05**: in release builds `operator[]` agrees with `at` exactly for the valid indices, and is
undefined for all others. -/
theorem C05_index_release (l : List α) (i : Nat) :
    (i < l.length → Arr.get .release l i = Arr.at' l i) ∧
      (l.length ≤ i → Arr.get .release l i = .ub) := by
  refine ⟨fun h => ?_, fun h => Arr.get_oob_release _ _ h⟩
  rw [C05_at, Arr.get_ok _ _ _ h]; simp [h]

/-- **C05**: writing through `at`/`operator[]` changes element `i` and no other. -/
theorem C05_write (m : Mode) (l : List α) (i : Nat) (v : α) (h : i < l.length) :
    ∃ l', Arr.atSet l i v = .ok l' ∧ Arr.set m l i v = .ok l' ∧ l'.length = l.length ∧
      ∀ j, l'[j]? = if j = i then some v else l[j]? := by
  refine ⟨l.set i v, ?_, Arr.set_ok m l i v h, by simp, ?_⟩
  · simp [Arr.atSet, Arr.rawSet, Nat.not_le.mpr h, h]
  · intro j
    rw [List.getElem?_set]
    by_cases hj : i = j
    · subst hj; simp [h]
    · simp [hj, Ne.symm hj]

/-- **C05**: `front()`/`back()` of a non-empty array (fixed or dynamic) are elements `0` and
`size-1`. -/
theorem C05_front_back (m : Mode) (l : List α) (h : 0 < l.length) (h' : l.length < 4294967296) :
    Arr.frontFixed l = .ok l[0] ∧ Arr.backFixed l = .ok l[l.length - 1] ∧
      Arr.Dyn.front m (some l) = .ok l[0] ∧ Arr.Dyn.back m (some l) = .ok l[l.length - 1] := by
  have e1 : ((l.length : Int) - 1) = ((l.length - 1 : Nat) : Int) := by omega
  have e2 : l.length - 1 < l.length := by omega
  refine ⟨?_, ?_, ?_, ?_⟩
  · simp [Arr.frontFixed, Arr.rawGet, h]
  · rw [Arr.backFixed, e1, u64_natCast (by omega)]; simp [Arr.rawGet, e2]
  · simp [Arr.Dyn.front, Arr.rawGet, h]
  · simp only [Arr.Dyn.back, Arr.Dyn.size, Option.getD_some, e1]
    rw [u32_natCast (by omega)]; simp [Arr.rawGet, e2]

/-- `front()` on an empty dynamic array: a null buffer is caught in debug builds, but an array
constructed with size zero is not: the read is undefined in both modes. -/
theorem C05_front_empty (m : Mode) :
    Arr.Dyn.front .debug (none : Arr.Dyn α) = .throw .outOfRange ∧
      Arr.Dyn.front m (some ([] : List α)) = .ub := by
  constructor
  · simp [Arr.Dyn.front, assertThrow]
  · simp [Arr.Dyn.front, Arr.rawGet]

/-- **C05** for dynamic arrays, also those without storage: `at` and, in debug builds, `operator[]` give element `i` or throw; in
release builds `operator[]` gives element `i` or is undefined; an array without storage has size zero, and `back()` of an
array of size zero is undefined. -/
theorem C05_dynamic (m : Mode) (d : Arr.Dyn α) (l : List α) (hd : d = some l ∨ d = none ∧ l = []) (i : Nat) :
    d.size = l.length ∧ (∀ h : i < l.length, d.at' i = .ok l[i] ∧ d.get m i = .ok l[i]) ∧
      (l.length ≤ i → d.at' i = .throw .outOfRange ∧ d.get .debug i = .throw .outOfRange ∧ d.get .release i = .ub) ∧
      Arr.Dyn.back .debug (none : Arr.Dyn α) = .throw .outOfRange ∧ Arr.Dyn.back m (some ([] : List α)) = .ub := by
  have e : d.getD [] = l := by rcases hd with rfl | ⟨rfl, rfl⟩ <;> rfl
  refine ⟨by rw [Arr.Dyn.size, e], fun h => ?_, fun h => ?_, ?_, ?_⟩
  · rw [Arr.Dyn.at', Arr.Dyn.get, e, C05_at, Arr.get_ok _ _ _ h]
    simp [h]
  · rw [Arr.Dyn.at', Arr.Dyn.get, Arr.Dyn.get, e, C05_at, Arr.get_oob_debug _ _ h, Arr.get_oob_release _ _ h]
    simp [h]
  · simp [Arr.Dyn.back, assertThrow]
  · simp [Arr.Dyn.back, Arr.rawGet]

example : Arr.Dyn.at' (some [4, 5, 6]) 2 = .ok 6 ∧ Arr.Dyn.get .debug (none : Arr.Dyn Nat) 0 = .throw .outOfRange := by decide
example : Arr.at' [4, 5, 6] 1 = .ok 5 ∧ Arr.at' [4, 5, 6] 3 = .throw .outOfRange := by decide
example : 0 < [7, 8].length ∧ [7, 8].length < 4294967296 := by decide

/-! ## C06 -/

/-- Result promised for `array << v0, v1, …` on elements `l`: the values are stored from the front;
too many values are an error (debug) or undefined (release) once the array is full. -/
def initSpec (m : Mode) (l vals : List α) : Res (List α) Unit :=
  if vals.length ≤ l.length then .ok (vals ++ l.drop vals.length) ()
  else match m with
    | .debug => .throw (vals.take l.length) .outOfRange
    | .release => .ub

theorem commas_spec (m : Mode) (vs : List α) : ∀ (pre rest : List α),
    Init.commas m (pre.length + rest.length) (pre ++ rest) ⟨pre.length, pre.length⟩ vs =
      if vs.length ≤ rest.length then .ok (pre ++ vs ++ rest.drop vs.length) ()
      else match m with
        | .debug => .throw (pre ++ vs.take rest.length) .outOfRange
        | .release => .ub := by
  induction vs with
  | nil => intro pre rest; simp [Init.commas]
  | cons v vs ih =>
    intro pre rest
    cases rest with
    | nil =>
      cases m <;>
      simp [Init.commas, Init.comma, assertThrow, Res.bind, Init.put, Arr.rawSet]
    | cons r rest =>
      have h1 : Init.comma m (pre.length + (r :: rest).length) (pre ++ r :: rest)
          ⟨pre.length, pre.length⟩ v = .ok (pre ++ v :: rest) ⟨pre.length + 1, pre.length + 1⟩ := by
        simp [Init.comma, Init.put, Arr.rawSet]
      rw [Init.commas, h1]
      simp only [Res.bind]
      have := ih (pre ++ [v]) rest
      simp only [List.length_append, List.length_cons, List.length_nil, List.append_assoc,
        List.singleton_append] at this
      rw [show pre.length + (r :: rest).length = pre.length + (0 + 1) + rest.length by simp; omega]
      rw [this]
      simp

/-- **C06**, fixed-size arrays (whose size is at least 1). -/
theorem C06_init_fixed (m : Mode) (l : List α) (hl : 0 < l.length) (v : α) (vs : List α) :
    Init.initFixed m l v vs = initSpec m l (v :: vs) := by
  cases l with
  | nil => simp at hl
  | cons a l =>
    have := commas_spec m vs [v] l
    simp only [List.length_cons, List.length_nil, List.singleton_append] at this
    simp only [Init.initFixed, Init.startFixed, Arr.rawSet, List.length_cons, Nat.zero_lt_succ,
      if_true, List.set_cons_zero, Res.bind]
    rw [show l.length + 1 = 0 + 1 + l.length by omega, this]
    simp [initSpec]

/-- **C06**, dynamic arrays of any size, including 0: the stored prefix, the rest unchanged, the
exception of debug builds and the absence of out-of-bounds writes in debug builds. -/
theorem C06_init_dynamic (m : Mode) (l : List α) (v : α) (vs : List α) :
    Init.initDyn m l v vs = initSpec m l (v :: vs) := by
  cases l with
  | nil =>
    cases m <;> simp [Init.initDyn, Init.startDyn, assertThrow, Res.bind, initSpec, Arr.rawSet]
  | cons a l =>
    rw [← C06_init_fixed m (a :: l) (by simp) v vs]
    simp [Init.initDyn, Init.initFixed, Init.startDyn, Init.startFixed, Arr.rawSet]

/-- **C06** in words: with at most `size` values, element `i` is value `i`, later elements are
unchanged. -/
theorem C06_init_elements (m : Mode) (l : List α) (v : α) (vs : List α)
    (h : (v :: vs).length ≤ l.length) :
    ∃ l', Init.initDyn m l v vs = .ok l' () ∧ l'.length = l.length ∧
      (∀ i (hi : i < (v :: vs).length), l'[i]? = some (v :: vs)[i]) ∧
      (∀ i, (v :: vs).length ≤ i → l'[i]? = l[i]?) := by
  refine ⟨(v :: vs) ++ l.drop (v :: vs).length, ?_, ?_, ?_, ?_⟩
  · rw [C06_init_dynamic]; unfold initSpec; rw [if_pos h]
  · simp at *; omega
  · intro i hi; rw [List.getElem?_append_left hi]; simp [hi]
  · intro i hi
    rw [List.getElem?_append_right hi, List.getElem?_drop]
    congr 1; omega

/-- **C06**: in debug builds an initialisation is never undefined. -/
theorem C06_init_debug_safe (l : List α) (v : α) (vs : List α) :
    Init.initDyn .debug l v vs ≠ .ub := by
  rw [C06_init_dynamic]; unfold initSpec; split <;> simp

example : Init.initDyn .debug [0, 0, 0, 9] 1 [2, 3] = .ok [1, 2, 3, 9] () := by decide
example : Init.initDyn .debug [0, 0] 1 [2, 3] = .throw [1, 2] .outOfRange := by decide

/-! ## C08 -/

/-- The last value written to address `a` by a history of writes. -/
def lastWrite (ws : List (Nat × UInt8)) (a : Nat) : Option UInt8 :=
  ((ws.filter fun w => w.1 == a).getLast?).map Prod.snd

theorem foldl_write (ws : List (Nat × UInt8)) : ∀ (mem : Nat → UInt8) (a : Nat),
    ws.foldl Guard.write mem a = (lastWrite ws a).getD (mem a) := by
  induction ws with
  | nil => intro mem a; simp [lastWrite]
  | cons w ws ih =>
    intro mem a
    rw [List.foldl_cons, ih]
    unfold lastWrite
    by_cases h : w.1 = a
    · subst h
      simp only [List.filter_cons, beq_self_eq_true, if_true, Guard.write]
      cases hf : (ws.filter fun x => x.1 == w.1).getLast? with
      | none => simp [List.getLast?_cons, hf]
      | some y => simp [List.getLast?_cons, hf]
    · have h' : ¬ a = w.1 := fun e => h e.symm
      simp [List.filter_cons, h, Guard.write, h']

theorem check_iff (mem : Nat → UInt8) (k : Nat) : ∀ (start : Nat),
    Guard.check mem start k = true ↔ ∃ g, g < k ∧ mem (start + g) ≠ Guard.magic := by
  induction k with
  | zero => intro s; simp [Guard.check]
  | succ k ih =>
    intro s
    unfold Guard.check
    by_cases h : mem s = Guard.magic
    · simp only [h, bne_self_eq_false, Bool.false_eq_true, if_false, ih]
      constructor
      · rintro ⟨g, hg, hm⟩
        exact ⟨g + 1, by omega, by rwa [show s + (g + 1) = s + 1 + g by omega]⟩
      · rintro ⟨g, hg, hm⟩
        cases g with
        | zero => exact absurd h hm
        | succ g => exact ⟨g, by omega, by rwa [show s + 1 + g = s + (g + 1) by omega]⟩
    · simp only [bne_iff_ne, ne_eq, h, not_false_eq_true, if_true, true_iff]
      exact ⟨0, by omega, by simpa using h⟩

/-- **C08**: after any history of byte writes, `bufferUnderRun()` reports true exactly when the last
write to one of the four bytes below the array left a value other than the magic one. -/
theorem C08_under_run_iff (L : Guard.Layout) (junk : Nat → UInt8) (ws : List (Nat × UInt8)) :
    Guard.underRun (ws.foldl Guard.write (Guard.init L junk)) = true ↔
      ∃ g b, g < 4 ∧ lastWrite ws g = some b ∧ b ≠ 0xCC := by
  change _ ↔ ∃ g b, g < 4 ∧ lastWrite ws g = some b ∧ b ≠ Guard.magic
  unfold Guard.underRun
  rw [check_iff]
  constructor
  · rintro ⟨g, hg, hm⟩
    rw [foldl_write, Nat.zero_add] at hm
    cases h : lastWrite ws g with
    | none => simp [h, Guard.init, hg] at hm
    | some b => exact ⟨g, b, hg, h, by simpa [h] using hm⟩
  · rintro ⟨g, b, hg, hl, hb⟩
    exact ⟨g, hg, by rw [foldl_write, Nat.zero_add, hl]; simpa using hb⟩

/-- **C08**: the same for `bufferOverRun()` and the four bytes above the array. -/
theorem C08_over_run_iff (L : Guard.Layout) (junk : Nat → UInt8) (ws : List (Nat × UInt8)) :
    Guard.overRun L (ws.foldl Guard.write (Guard.init L junk)) = true ↔
      ∃ g b, 4 + L.p + L.elems + L.q ≤ g ∧ g < 4 + L.p + L.elems + L.q + 4 ∧
        lastWrite ws g = some b ∧ b ≠ 0xCC := by
  change _ ↔ ∃ g b, L.overStart ≤ g ∧ g < L.overStart + 4 ∧ lastWrite ws g = some b ∧ b ≠ Guard.magic
  unfold Guard.overRun
  rw [check_iff]
  constructor
  · rintro ⟨g, hg, hm⟩
    rw [foldl_write] at hm
    cases h : lastWrite ws (L.overStart + g) with
    | none =>
      have h4 : ¬ L.overStart + g < 4 := by simp only [Guard.Layout.overStart]; omega
      simp [h, Guard.init, hg, h4] at hm
    | some b => exact ⟨_, b, by omega, by omega, h, by simpa [h] using hm⟩
  · rintro ⟨g, b, hg, hg', hl, hb⟩
    refine ⟨g - L.overStart, by omega, ?_⟩
    rw [foldl_write, show L.overStart + (g - L.overStart) = g by omega, hl]
    simpa using hb

/-- **C08** (no false alarm): if every write lands inside the elements, no query reports anything. -/
theorem C08_no_false_alarm (L : Guard.Layout) (junk : Nat → UInt8) (ws : List (Nat × UInt8))
    (h : ∀ w ∈ ws, 4 + L.p ≤ w.1 ∧ w.1 < 4 + L.p + L.elems) :
    let mem := ws.foldl Guard.write (Guard.init L junk)
    Guard.underRun mem = false ∧ Guard.overRun L mem = false ∧ Guard.overFlow L mem = false := by
  have hnone : ∀ a, (a < 4 ∨ L.overStart ≤ a) → lastWrite ws a = none := by
    intro a ha
    unfold lastWrite
    have : ws.filter (fun w => w.1 == a) = [] := by
      rw [List.filter_eq_nil_iff]
      intro w hw
      have := h w hw
      simp only [Guard.Layout.elemStart, Guard.Layout.overStart] at *
      simp only [beq_iff_eq]
      omega
    simp [this]
  have hu : Guard.underRun (ws.foldl Guard.write (Guard.init L junk)) = false := by
    rw [Bool.eq_false_iff, ne_eq, C08_under_run_iff]
    rintro ⟨g, b, hg, hl, _⟩
    rw [hnone g (.inl hg)] at hl; simp at hl
  have ho : Guard.overRun L (ws.foldl Guard.write (Guard.init L junk)) = false := by
    rw [Bool.eq_false_iff, ne_eq, C08_over_run_iff]
    rintro ⟨g, b, hg, _, hl, _⟩
    rw [hnone g (.inr hg)] at hl; simp at hl
  exact ⟨hu, ho, by simp [Guard.overFlow, hu, ho]⟩

/-- **C08** (detection): a final write of a non-magic byte anywhere in the guard sections makes the
overall query report it. -/
theorem C08_detects (L : Guard.Layout) (junk : Nat → UInt8) (ws : List (Nat × UInt8)) (g : Nat)
    (b : UInt8) (hg : g < 4 ∨ (4 + L.p + L.elems + L.q ≤ g ∧ g < 4 + L.p + L.elems + L.q + 4))
    (hl : lastWrite ws g = some b) (hb : b ≠ 0xCC) :
    Guard.overFlow L (ws.foldl Guard.write (Guard.init L junk)) = true := by
  unfold Guard.overFlow
  rcases hg with hg | hg
  · rw [(C08_under_run_iff L junk ws).mpr ⟨g, b, hg, hl, hb⟩]; simp
  · rw [(C08_over_run_iff L junk ws).mpr ⟨g, b, hg.1, hg.2, hl, hb⟩]; simp

example : lastWrite [(2, 7), (9, 1), (2, 8)] 2 = some 8 ∧ (8 : UInt8) ≠ 0xCC := by decide
example : let L : Guard.Layout := ⟨0, 8, 0⟩
    ∀ w ∈ [(4, (1 : UInt8)), (11, 2)], 4 + L.p ≤ w.1 ∧ w.1 < 4 + L.p + L.elems := by decide

end Ecl.Props
