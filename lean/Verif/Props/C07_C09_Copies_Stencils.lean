import Verif.Lemmas.DynHeap

/-!
# C07 (copying dynamic arrays), C09 (stencils)
-/
set_option autoImplicit false
set_option linter.unusedSimpArgs false

namespace Ecl.Props
variable {α : Type _}

/-! ## C07 -/

/-- Independent specification: arrays are values, one list per name. -/
def valueStep (c : Nat → List α) : DynHeap.Op α → (Nat → List α)
  | .resize i n junk => fun k => if k = i then (List.range n).map junk else c k
  | .clear i => fun k => if k = i then [] else c k
  | .assign i j _ => fun k => if k = i then c j else c k
  | .copyCtor i j _ => fun k => if k = i then c j else c k
  | .set i n v => fun k => if k = i then (c i).set n v else c k

/-- Legal calls: writes inside the array; no assignment of an array to itself. -/
def valueLegal (c : Nat → List α) : DynHeap.Op α → Prop
  | .assign i j _ => i ≠ j
  | .copyCtor i j _ => i ≠ j
  | .set i n _ => n < (c i).length
  | _ => True

/-- All calls of a history are legal. -/
def valuesLegal : (Nat → List α) → List (DynHeap.Op α) → Prop
  | _, [] => True
  | c, op :: ops => valueLegal c op ∧ valuesLegal (valueStep c op) ops

/-- Run a history on the heap model. -/
def heapRun (m : Mode) : DynHeap.St α → List (DynHeap.Op α) → Outcome (DynHeap.St α)
  | s, [] => .ok s
  | s, op :: ops => do
    let s ← DynHeap.step m s op
    heapRun m s ops

theorem heap_copy_ok (m : Mode) {s : DynHeap.St α} (h : DynHeap.Inv s) {i j p q : Nat} {l d : List α}
    (hi : (s.obj i).buf = some p) (hj : (s.obj j).buf = some q)
    (hs : (s.obj j).size = (s.obj i).size) (hq : s.mem q = some l) (hp : s.mem p = some d) :
    DynHeap.copy m s i j = .ok (DynHeap.setMem s p (some l)) := by
  obtain ⟨l', hl', hll⟩ := h.live j q hj
  obtain ⟨d', hd', hdl⟩ := h.live i p hi
  rw [hq] at hl'; cases hl'
  rw [hp] at hd'; cases hd'
  simp only [DynHeap.copy, hi, hj, Option.isSome_some, Arr.assertThrow_true, Outcome.bind_ok,
    DynHeap.deref, hq, hp]
  rw [if_pos ⟨by omega, by omega⟩]
  simp only [← hll, List.take_length]
  rw [List.drop_eq_nil_of_le (by omega)]
  simp

/-- **C07** step: a legal call never is undefined and never throws, keeps the ownership invariant, and
changes the visible contents exactly as the value semantics says — so no write to one array is
seen in another. -/
theorem C07_step (m : Mode) (s : DynHeap.St α) (h : DynHeap.Inv s) (op : DynHeap.Op α)
    (hl : valueLegal (DynHeap.contents s) op) :
    ∃ s', DynHeap.step m s op = .ok s' ∧ DynHeap.Inv s' ∧
      DynHeap.contents s' = valueStep (DynHeap.contents s) op := by
  have assignCase : ∀ (s : DynHeap.St α) (h : DynHeap.Inv s) (i j : Nat) (junk : Nat → α), i ≠ j →
      (s.obj j).size ≠ 0 → ∃ s1 s', DynHeap.resize s i (s.obj j).size junk = .ok s1 ∧
        DynHeap.copy m s1 i j = .ok s' ∧ DynHeap.Inv s' ∧
        DynHeap.contents s' i = DynHeap.contents s j ∧
        ∀ k, k ≠ i → DynHeap.contents s' k = DynHeap.contents s k := by
    intro s h i j junk hij hsz
    obtain ⟨s1, h1, hInv1, ⟨p, hoi, hmp⟩, hobj, hcont⟩ := h.resize i (s.obj j).size junk
    have hbj : ∃ q, (s.obj j).buf = some q := by
      cases hb : (s.obj j).buf with
      | none => exact absurd (h.null j hb) hsz
      | some q => exact ⟨q, rfl⟩
    obtain ⟨q, hq⟩ := hbj
    have hoj : s1.obj j = s.obj j := hobj j (Ne.symm hij)
    have hq1 : (s1.obj j).buf = some q := by rw [hoj]; exact hq
    obtain ⟨l, hml, hll⟩ := hInv1.live j q hq1
    have hp1 : (s1.obj i).buf = some p := by rw [hoi]
    have hc := heap_copy_ok m hInv1 hp1 hq1 (by rw [hoi, hoj]) hml hmp
    obtain ⟨hI, hci, hck⟩ := hInv1.overwrite hp1 l (by rw [hll, hoi, hoj])
    refine ⟨s1, _, h1, hc, hI, ?_, ?_⟩
    · rw [hci, ← hcont j (Ne.symm hij)]
      simp [DynHeap.contents, hq1, hml]
    · intro k hk
      rw [hck k hk, hcont k hk]
  cases op with
  | resize i n junk =>
    obtain ⟨s', h1, hI, ⟨p, ho, hm⟩, _, hc⟩ := h.resize i n junk
    refine ⟨s', h1, hI, ?_⟩
    funext k
    by_cases hk : k = i
    · subst hk; simp [valueStep, DynHeap.contents, ho, hm]
    · simp [valueStep, hk, hc k hk]
  | clear i =>
    obtain ⟨s', h1, hI, hc, hck⟩ := h.clear i
    refine ⟨s', h1, hI, ?_⟩
    funext k
    by_cases hk : k = i
    · subst hk; simp [valueStep, hc]
    · simp [valueStep, hk, hck k hk]
  | assign i j junk =>
    have hij : i ≠ j := hl
    by_cases hsz : (s.obj j).size = 0
    · obtain ⟨s', h1, hI, hc, hck⟩ := h.clear i
      refine ⟨s', by simp [DynHeap.step, DynHeap.assign, hsz, h1], hI, ?_⟩
      have hj : DynHeap.contents s j = [] := by
        apply List.eq_nil_of_length_eq_zero; rw [h.size_eq, hsz]
      funext k
      by_cases hk : k = i
      · subst hk; simp [valueStep, hc, hj]
      · simp [valueStep, hk, hck k hk]
    · obtain ⟨s1, s', h1, h2, hI, hc, hck⟩ := assignCase s h i j junk hij hsz
      refine ⟨s', by simp [DynHeap.step, DynHeap.assign, hsz, h1, h2], hI, ?_⟩
      funext k
      by_cases hk : k = i
      · subst hk; simp [valueStep, hc]
      · simp [valueStep, hk, hck k hk]
  | copyCtor i j junk =>
    have hij : i ≠ j := hl
    have hI0 : DynHeap.Inv (DynHeap.setObj s i ⟨0, none⟩) := by
      refine ⟨?_, ?_, ?_, h.fresh⟩
      · intro k p hp
        by_cases hk : k = i
        · simp [DynHeap.setObj, hk] at hp
        · simp only [DynHeap.setObj, hk, if_false] at hp ⊢; exact h.live k p hp
      · intro k hp
        by_cases hk : k = i
        · simp [DynHeap.setObj, hk]
        · simp only [DynHeap.setObj, hk, if_false] at hp ⊢; exact h.null k hp
      · intro a b p ha hb
        by_cases hai : a = i
        · simp [DynHeap.setObj, hai] at ha
        · by_cases hbi : b = i
          · simp [DynHeap.setObj, hbi] at hb
          · simp only [DynHeap.setObj, hai, hbi, if_false] at ha hb; exact h.inj a b p ha hb
    have hc0 : ∀ k, k ≠ i → DynHeap.contents (DynHeap.setObj s i ⟨0, none⟩) k = DynHeap.contents s k := by
      intro k hk; simp [DynHeap.contents, DynHeap.setObj, hk]
    have hoj : (DynHeap.setObj s i ⟨0, none⟩).obj j = s.obj j := by
      simp [DynHeap.setObj, Ne.symm hij]
    by_cases hsz : (s.obj j).size = 0
    · refine ⟨_, by simp [DynHeap.step, DynHeap.copyCtor, hoj, hsz], hI0, ?_⟩
      have hj : DynHeap.contents s j = [] := by
        apply List.eq_nil_of_length_eq_zero; rw [h.size_eq, hsz]
      funext k
      by_cases hk : k = i
      · subst hk
        have : DynHeap.contents (DynHeap.setObj s k ⟨0, none⟩) k = [] := by
          simp [DynHeap.contents, DynHeap.setObj]
        simp [valueStep, hj, this]
      · simp [valueStep, hk, hc0 k hk]
    · obtain ⟨s1, s', h1, h2, hI, hc, hck⟩ := assignCase _ hI0 i j junk hij (by rw [hoj]; exact hsz)
      refine ⟨s', ?_, hI, ?_⟩
      · simp only [DynHeap.step, DynHeap.copyCtor]
        rw [if_neg (by rw [hoj]; exact hsz), h1]
        exact h2
      · funext k
        by_cases hk : k = i
        · subst hk; simp [valueStep, hc, hc0 j (Ne.symm hij)]
        · simp [valueStep, hk, hck k hk, hc0 k hk]
  | set i n v =>
    have hn : n < (DynHeap.contents s i).length := hl
    have hsz : n < (s.obj i).size := by rw [← h.size_eq]; exact hn
    have hb : ∃ p, (s.obj i).buf = some p := by
      cases hb : (s.obj i).buf with
      | none => rw [h.null i hb] at hsz; omega
      | some q => exact ⟨q, rfl⟩
    obtain ⟨p, hp⟩ := hb
    obtain ⟨l, hml, hll⟩ := h.live i p hp
    obtain ⟨hI, hci, hck⟩ := h.overwrite hp (l.set n v) (by simp [hll])
    refine ⟨DynHeap.setMem s p (some (l.set n v)), ?_, hI, ?_⟩
    · have hnl : n < l.length := by omega
      simp [DynHeap.step, DynHeap.set, hsz, DynHeap.deref, hp, hml, Arr.rawSet, hnl]
    · funext k
      by_cases hk : k = i
      · subst hk
        have : DynHeap.contents s k = l := by simp [DynHeap.contents, hp, hml]
        rw [hci]; simp [valueStep, this]
      · simp [valueStep, hk, hck k hk]

/-- **C07 (partial)**: over every history of construction, copying, assignment, resizing, clearing and
writing on any number of arrays, each array shows exactly what value semantics promises (equal
after copying, independent afterwards), with no double free, leak-induced aliasing or
use-after-free.  Missing: self-assignment, for which the property is false (below). -/
theorem C07_value_semantics_partial (m : Mode) (ops : List (DynHeap.Op α))
    (hl : valuesLegal (fun _ => []) ops) :
    ∃ s, heapRun m DynHeap.init ops = .ok s ∧
      DynHeap.contents s = ops.foldl valueStep (fun _ => []) := by
  have key : ∀ (ops : List (DynHeap.Op α)) (s : DynHeap.St α), DynHeap.Inv s →
      valuesLegal (DynHeap.contents s) ops →
      ∃ s', heapRun m s ops = .ok s' ∧
        DynHeap.contents s' = ops.foldl valueStep (DynHeap.contents s) := by
    intro ops
    induction ops with
    | nil => intro s _ _; exact ⟨s, rfl, rfl⟩
    | cons op ops ih =>
      intro s h hl
      obtain ⟨s', h1, hI, hc⟩ := C07_step m s h op hl.1
      have hl2 := hl.2
      rw [← hc] at hl2
      obtain ⟨s'', h2, hc2⟩ := ih s' hI hl2
      refine ⟨s'', ?_, ?_⟩
      · simp [heapRun, h1, h2]
      · rw [List.foldl_cons, ← hc, hc2]
  have h0 : DynHeap.contents (DynHeap.init : DynHeap.St α) = fun _ => [] := by
    funext k; simp [DynHeap.contents, DynHeap.init]
  have := key ops DynHeap.init DynHeap.Inv.init (by rw [h0]; exact hl)
  rwa [h0] at this

example : valuesLegal (fun _ => ([] : List Nat))
    [.resize 0 2 (fun _ => 0), .set 0 1 7, .assign 1 0 (fun _ => 9), .set 0 1 8, .copyCtor 2 1 (fun _ => 3),
      .clear 1] := by
  simp [valuesLegal, valueLegal, valueStep, List.range_succ]

/-- **C07**: after every such history, a write outside an array (every write, if it is empty) is reported in a debug
build and undefined in a release build. -/
theorem C07_write_outside (m : Mode) (ops : List (DynHeap.Op α)) (hl : valuesLegal (fun _ => []) ops)
    (i k : Nat) (v : α) (hk : (ops.foldl valueStep (fun _ => []) i).length ≤ k) :
    heapRun m DynHeap.init (ops ++ [.set i k v]) =
      match m with
      | .debug => .throw .outOfRange
      | .release => .ub := by
  have key : ∀ (ops : List (DynHeap.Op α)) (s : DynHeap.St α), DynHeap.Inv s →
      valuesLegal (DynHeap.contents s) ops → (ops.foldl valueStep (DynHeap.contents s) i).length ≤ k →
      heapRun m s (ops ++ [.set i k v]) = match m with | .debug => .throw .outOfRange | .release => .ub := by
    intro ops
    induction ops with
    | nil =>
      intro s h _ hk
      have hsz : (s.obj i).size ≤ k := by rw [← h.size_eq i]; exact hk
      cases m
      · have hn : ¬ k < (s.obj i).size := by omega
        simp [heapRun, DynHeap.step, DynHeap.set, assertThrow, hn]
      · rcases hb : (s.obj i).buf with _ | p
        · simp [heapRun, DynHeap.step, DynHeap.set, assertThrow, DynHeap.deref, hb]
        · obtain ⟨l, hm, hlen⟩ := h.live i p hb
          have : ¬ k < l.length := by omega
          simp [heapRun, DynHeap.step, DynHeap.set, assertThrow, DynHeap.deref, hb, hm, Arr.rawSet, this]
    | cons op ops ih =>
      intro s h hl hk
      obtain ⟨s', h1, hI, hc⟩ := C07_step m s h op hl.1
      have hl2 := hl.2
      rw [← hc] at hl2
      rw [List.foldl_cons, ← hc] at hk
      have := ih s' hI hl2 hk
      simp [heapRun, h1, this]
  have h0 : DynHeap.contents (DynHeap.init : DynHeap.St α) = fun _ => [] := by
    funext k; simp [DynHeap.contents, DynHeap.init]
  exact key ops DynHeap.init DynHeap.Inv.init (by rw [h0]; exact hl) (by rw [h0]; exact hk)

example : heapRun .release DynHeap.init [.set 0 0 7] = .ub :=
  C07_write_outside .release [] trivial 0 0 7 (by simp)

/-- **C07 fails** for self-assignment: the old buffer is freed and replaced before the copy, so the
elements are lost (here the value 7 becomes the indeterminate value 0). -/
theorem C07_fails_self_assignment (m : Mode) :
    ∃ s, heapRun m DynHeap.init
        [.resize 0 1 (fun _ => 0), .set 0 0 7, .assign 0 0 (fun _ => (0 : Nat))] = .ok s ∧
      DynHeap.contents s 0 = [0] := by
  cases m <;>
  exact ⟨_, rfl, rfl⟩

/-! ## C09 -/

/-- A stencil lies inside an array of length `len`. -/
def StencilOk (len : Nat) (s : Stencil) : Prop := 0 ≤ s.b ∧ s.b ≤ s.e ∧ s.e ≤ len

/-- **C09**: creating a stencil with `start+n ≤ size` succeeds in both modes, lies inside the array and
has length `n` (through the constructor, and for `start < size` also through the array's
`stencil` function). -/
theorem C09_create (m : Mode) (len start n : Nat) (h : start + n ≤ len) (hl : len < 4294967296) :
    Stencil.mkIdx m len start n = .ok ⟨start, start + n⟩ ∧
      (start < len → Stencil.ofArray m len start n = .ok ⟨start, start + n⟩) ∧
      StencilOk len ⟨start, start + n⟩ ∧ (⟨start, start + n⟩ : Stencil).size = n := by
  have h1 : Stencil.inRange len (start : Int) = true := by simp [Stencil.inRange]; omega
  have h2 : Stencil.inRange len ((start : Int) + n) = true := by simp [Stencil.inRange]; omega
  refine ⟨?_, ?_, ?_, ?_⟩
  · simp [Stencil.mkIdx, Stencil.mkIter, h1, h2]
  · intro hs
    have h3 : (start + n) % 4294967296 ≤ len := by rw [Nat.mod_eq_of_lt (by omega)]; exact h
    simp [Stencil.ofArray, Stencil.mkIter, h1, h2, hs, h3]
  · simp only [StencilOk]; omega
  · unfold Stencil.size u64
    simp only
    omega

/-- **C09**: reading element `i < size()` of a stencil inside the array returns array element
`begin+i`, in both modes. -/
theorem C09_read (m : Mode) (l : List α) (s : Stencil) (h : StencilOk l.length s) (i : Nat)
    (hi : (i : Int) < s.e - s.b) :
    ∃ hk : (s.b + i).toNat < l.length, Stencil.get m l s i = .ok l[(s.b + i).toNat] := by
  obtain ⟨h0, h1, h2⟩ := h
  have hk : (s.b + i).toNat < l.length := by omega
  refine ⟨hk, ?_⟩
  have e1 : 0 ≤ s.b + i := by omega
  have e2 : s.b + i ≤ l.length := by omega
  simp [Stencil.get, e1, e2, Stencil.deref, Arr.rawGet, hk]

/-- **C09**: writing element `i < size()` changes array element `begin+i` and nothing else. -/
theorem C09_write (m : Mode) (l : List α) (s : Stencil) (h : StencilOk l.length s) (i : Nat)
    (hi : (i : Int) < s.e - s.b) (v : α) :
    Stencil.set m l s i v = .ok (l.set (s.b + i).toNat v) := by
  obtain ⟨h0, h1, h2⟩ := h
  have hk : (s.b + i).toNat < l.length := by omega
  have e1 : 0 ≤ s.b + i := by omega
  have e2 : s.b + i ≤ l.length := by omega
  simp [Stencil.set, e1, e2, Stencil.store, Arr.rawSet, hk]

/-- **C09** (every access decided, whatever the stencil and the index, also negative places): reading and writing
reach exactly the place counted from the beginning of the stencil if it lies in the array.  One place past the
array is undefined in both builds; all other places are rejected in debug builds and undefined in release
builds. -/
theorem C09_access_decided (m : Mode) (l : List α) (s : Stencil) (i : Nat) (v : α) :
    (∀ k : Nat, (k : Int) = s.b + i → ∀ hk : k < l.length,
      Stencil.get m l s i = .ok l[k] ∧ Stencil.set m l s i v = .ok (l.set k v)) ∧
    (s.b + i = l.length → Stencil.get m l s i = .ub ∧ Stencil.set m l s i v = .ub) ∧
    (s.b + i < 0 ∨ (l.length : Int) < s.b + i →
      (m = .debug → Stencil.get m l s i = .throw .outOfRange ∧ Stencil.set m l s i v = .throw .outOfRange) ∧
      (m = .release → Stencil.get m l s i = .ub ∧ Stencil.set m l s i v = .ub)) := by
  refine ⟨?_, ?_, ?_⟩
  · intro k hk hlt
    have e1 : 0 ≤ s.b + i := by omega
    have e2 : s.b + i ≤ l.length := by omega
    have e3 : (s.b + i).toNat = k := by omega
    simp [Stencil.get, Stencil.set, e1, e2, Stencil.deref, Stencil.store, Arr.rawGet, Arr.rawSet, e3, hlt]
  · intro h
    have e1 : 0 ≤ s.b + i := by omega
    have e2 : s.b + i ≤ l.length := by omega
    have e3 : (s.b + i).toNat = l.length := by omega
    simp [Stencil.get, Stencil.set, e1, e2, Stencil.deref, Stencil.store, Arr.rawGet, Arr.rawSet, e3]
  · intro h
    constructor
    · rintro rfl
      rcases h with h | h
      · have e1 : ¬0 ≤ s.b + i := by omega
        simp [Stencil.get, Stencil.set, e1, assertThrow, Outcome.bind_throw]
      · have e1 : 0 ≤ s.b + i := by omega
        have e2 : ¬s.b + i ≤ l.length := by omega
        simp [Stencil.get, Stencil.set, e1, e2, assertThrow]
    · rintro rfl
      rcases h with h | h
      · have e1 : ¬0 ≤ s.b + i := by omega
        simp [Stencil.get, Stencil.set, Stencil.deref, Stencil.store, e1]
      · have e1 : 0 ≤ s.b + i := by omega
        have e3 : ¬(s.b + i).toNat < l.length := by omega
        simp [Stencil.get, Stencil.set, Stencil.deref, Stencil.store, Arr.rawGet, Arr.rawSet, e1, e3]

/-- A stencil that begins two places before an array of three, made in a release build. -/
example : Stencil.mkIter .release 3 (-2) 1 = .ok ⟨-2, 1⟩ ∧ Stencil.get .release [1, 2, 3] ⟨-2, 1⟩ 1 = .ub ∧
    Stencil.get .release [1, 2, 3] ⟨-2, 1⟩ 3 = .ok 2 := by decide

/-- **C09**: `front()` and `back()` of a non-empty stencil are its first and last element. -/
theorem C09_front_back (m : Mode) (l : List α) (s : Stencil) (h : StencilOk l.length s)
    (hne : s.b < s.e) :
    Stencil.front m l s = Stencil.get m l s 0 ∧
      Stencil.back m l s = Stencil.get m l s (s.e - s.b - 1).toNat := by
  obtain ⟨h0, h1, h2⟩ := h
  have e1 : s.b ≤ l.length := by omega
  have e2 : s.b + ((s.e - s.b - 1).toNat : Int) = s.e - 1 := by omega
  have e3 : (0 : Int) ≤ s.e - 1 := by omega
  have e4 : s.e - 1 ≤ l.length := by omega
  constructor
  · simp [Stencil.front, Stencil.get, h0, e1]
  · unfold Stencil.back Stencil.get
    rw [e2]
    have e5 : 1 ≤ s.e := by omega
    simp [h2, e3, e4, e5]

/-- **C09 (partial)**: `at(i)` with `i < size()` agrees with `operator[]` except for the very first
element of the array; `at` never is undefined for a stencil inside its array, whatever `i`.
Missing: `at(0)` on a stencil starting at the array's begin, and rejection of indices between the
stencil's end and the array's end, for which the property is false (below). -/
theorem C09_at_partial (m : Mode) (l : List α) (s : Stencil) (h : StencilOk l.length s) (i : Nat) :
    ((i : Int) < s.e - s.b → 0 < s.b + i → Stencil.at' l s i = Stencil.get m l s i) ∧
      Stencil.at' l s i ≠ .ub := by
  obtain ⟨h0, h1, h2⟩ := h
  constructor
  · intro hi hpos
    have e0 : ¬ s.b + i ≤ 0 := by omega
    have e1 : 0 ≤ s.b + i := by omega
    have e2 : s.b + i ≤ l.length := by omega
    have e3 : ¬ s.b + i ≥ l.length := by omega
    unfold Stencil.at' Stencil.get
    rw [if_neg e0, if_neg e3]
    simp [e1, e2]
  · unfold Stencil.at'
    split
    · simp
    · split
      · simp
      · have hk : (s.b + i).toNat < l.length := by omega
        have e1 : 0 ≤ s.b + i := by omega
        simp [Stencil.deref, e1, Arr.rawGet, hk]

/-- **C09 (partial)**: a debug-mode sub-stencil stays inside the *array*; it stays inside the parent
stencil exactly when `start+n ≤ size()` of the parent.  Missing: the parent-stencil bound is not
checked (below). -/
theorem C09_sub_partial (len : Nat) (s : Stencil) (h : StencilOk len s) (start n : Nat) (t : Stencil)
    (ht : Stencil.sub .debug len s start n = .ok t) :
    StencilOk len t ∧ t.b = s.b + start ∧ t.e = s.b + start + n ∧
      (t.e ≤ s.e ↔ (start : Int) + n ≤ s.e - s.b) := by
  obtain ⟨h0, h1, h2⟩ := h
  unfold Stencil.sub at ht
  by_cases c1 : s.b + start < len
  · by_cases c2 : s.b + start + n ≤ len
    · have e1 : Stencil.inRange len (s.b + start) = true := by simp [Stencil.inRange]; omega
      have e2 : Stencil.inRange len (s.b + start + n) = true := by simp [Stencil.inRange]; omega
      simp [c1, c2, Stencil.mkIter, e1, e2] at ht
      subst ht
      simp only [StencilOk]
      refine ⟨⟨?_, ?_, ?_⟩, trivial, trivial, ?_⟩ <;> omega
    · simp [c1, c2, assertThrow] at ht
  · simp [c1, assertThrow] at ht

/-- Copying between stencils of different arrays (`operator=`): element `i` of the target becomes
element `i` of the source, everything else in the target array is unchanged. -/
theorem C09_assign_other (m : Mode) (dst src : List α) (t s : Stencil) (ht : StencilOk dst.length t)
    (hs : StencilOk src.length s) (hsz : s.e - s.b ≤ t.e - t.b) (hsm : s.e - s.b < 4294967296)
    (htm : t.e - t.b < 4294967296) :
    ∃ dst', Stencil.assignOther m dst t src s = .ok dst' ∧ dst'.length = dst.length ∧
      ∀ k : Nat, dst'[k]? = if t.b ≤ k ∧ (k : Int) < t.b + (s.e - s.b)
        then src[(s.b + (k - t.b)).toNat]? else dst[k]? := by
  obtain ⟨t0, t1, t2⟩ := ht
  obtain ⟨s0, s1, s2⟩ := hs
  have key : ∀ (k i : Nat) (d : List α), d.length = dst.length → (i : Int) + k = s.e - s.b →
      ∃ d', Stencil.copyLoop src s t i k d = .ok d' ∧ d'.length = d.length ∧
        ∀ a : Nat, d'[a]? = if t.b + i ≤ a ∧ (a : Int) < t.b + (s.e - s.b)
          then src[(s.b + (a - t.b)).toNat]? else d[a]? := by
    intro k
    induction k with
    | zero =>
      intro i d hd hk
      refine ⟨d, rfl, rfl, ?_⟩
      intro a
      rw [if_neg (by omega)]
    | succ k ih =>
      intro i d hd hk
      have e1 : (s.b + i).toNat < src.length := by omega
      have e2 : (t.b + i).toNat < d.length := by omega
      have e3 : 0 ≤ s.b + i := by omega
      have e4 : 0 ≤ t.b + i := by omega
      obtain ⟨d', h1, h2, h3⟩ := ih (i + 1) (d.set (t.b + i).toNat src[(s.b + i).toNat])
        (by simpa using hd) (by omega)
      refine ⟨d', ?_, by simpa using h2, ?_⟩
      · rw [Stencil.copyLoop]
        simp [Stencil.deref, Stencil.store, e3, e4, Arr.rawGet, Arr.rawSet, e1, e2]
        exact h1
      · intro a
        rw [h3 a]
        by_cases ha : (a : Int) = t.b + i
        · have ha' : (t.b + i).toNat = a := by omega
          rw [if_neg (by omega), if_pos (by omega), ha', List.getElem?_set_self (by omega)]
          rw [show (s.b + ((a : Int) - t.b)).toNat = (s.b + i).toNat by omega]
          simp [e1]
        · by_cases hb : t.b + (i + 1 : Nat) ≤ a ∧ (a : Int) < t.b + (s.e - s.b)
          · rw [if_pos hb, if_pos (by omega)]
          · rw [if_neg hb, if_neg (by omega), List.getElem?_set_ne (by omega)]
  have hsize : ((s.size : Nat) : Int) = s.e - s.b := by unfold Stencil.size u64; omega
  have htsize : ((t.size : Nat) : Int) = t.e - t.b := by unfold Stencil.size u64; omega
  obtain ⟨d', h1, h2, h3⟩ := key s.size 0 dst rfl (by rw [hsize]; omega)
  refine ⟨d', ?_, h2, ?_⟩
  · have : s.size ≤ t.size := by omega
    simp [Stencil.assignOther, this, h1]
  · intro k
    simpa using h3 k

/-- **C09 fails**: `at(0)` on a stencil that starts at the beginning of the array throws although the
element exists. -/
theorem C09_fails_at_zero (a : α) (l : List α) :
    StencilOk (a :: l).length ⟨0, 1⟩ ∧ Stencil.at' (a :: l) ⟨0, 1⟩ 0 = .throw .outOfRange := by
  constructor
  · simp only [StencilOk, List.length_cons]; omega
  · simp [Stencil.at']

/-- **C09 fails**: even in debug builds `operator[](size())` on a stencil ending at the array's end
passes the checks and reads past the array. -/
theorem C09_fails_one_past_end (l : List α) :
    Stencil.get .debug l ⟨0, l.length⟩ l.length = .ub := by
  simp [Stencil.get, Stencil.deref, Arr.rawGet]

/-- **C09 fails**: an index outside a stencil that ends before its array is not rejected by either
accessor. -/
theorem C09_fails_index_outside_stencil :
    Stencil.get .debug [1, 2, 3, 4] ⟨1, 2⟩ 1 = .ok 3 ∧ Stencil.at' [1, 2, 3, 4] ⟨1, 2⟩ 2 = .ok 4 := by
  decide

/-- **C09 fails**: a sub-stencil may leave its parent stencil, in debug builds too. -/
theorem C09_fails_sub_escapes :
    StencilOk 4 ⟨0, 2⟩ ∧ Stencil.sub .debug 4 ⟨0, 2⟩ 1 3 = .ok ⟨1, 4⟩ := by
  refine ⟨?_, by decide⟩
  simp only [StencilOk]; omega

/-- The array's `stencil(start, n)` computes `start+n` modulo 2^32: a huge `n` passes its check, but
the stencil constructor then rejects it in debug builds. -/
theorem C09_array_stencil_wrap :
    Stencil.ofArray .debug 4 1 4294967295 = .throw .outOfRange ∧
      Stencil.ofArray .release 4 1 4294967295 = .ok ⟨1, 4294967296⟩ := by decide

/-- A throwing `resettle` leaves the stencil outside its array. -/
theorem C09_fails_resettle :
    Stencil.resettle .debug 4 ⟨0, 2⟩ 3 9 = .throw ⟨3, 12⟩ .outOfRange ∧ ¬ StencilOk 4 ⟨3, 12⟩ := by
  refine ⟨by decide, ?_⟩
  simp [StencilOk]

example : StencilOk 4 ⟨1, 3⟩ ∧ ((1 : Nat) : Int) < 3 - 1 := by simp only [StencilOk]; omega
example : Stencil.assignOther .debug [0, 0, 0, 0] ⟨1, 4⟩ [7, 8] ⟨0, 2⟩ = .ok [0, 7, 8, 0] := by decide

end Ecl.Props
