import Verif.Spec.Waypoints
import Verif.Lemmas.Manipulator
import Mathlib.Tactic.NormNum

/-! # C81: comparing waypoints -/
set_option autoImplicit false
set_option linter.unusedSimpArgs false

namespace Ecl.Props
open Ecl Ecl.Manip

theorem eqLoop_spec (mode : Mode) (a b : List ℝ) : ∀ is : List ℕ, (∀ i ∈ is, i < a.length ∧ i < b.length) →
    ∃ r, eqLoop mode a b is = .ok r ∧ (r = true ↔ ∀ i ∈ is, a[i]? = b[i]?) := by
  intro is
  induction is with
  | nil => intro _; exact ⟨true, rfl, by simp⟩
  | cons i is ih =>
    intro h
    obtain ⟨h1, h2⟩ := h i (by simp)
    obtain ⟨r, hr, hs⟩ := ih (fun k hk => h k (by simp [hk]))
    unfold eqLoop
    rw [get_ok mode _ i h1, get_ok mode _ i h2]
    simp only [Outcome.bind_ok]
    split
    next hne => exact ⟨false, rfl, by simp [h1, h2, hne]⟩
    next heq => exact ⟨r, hr, by rw [hs]; simp [h1, h2, not_not.1 heq]⟩

theorem neLoop_spec (mode : Mode) (a b : List ℝ) : ∀ is : List ℕ, (∀ i ∈ is, i < a.length ∧ i < b.length) →
    ∃ r, neLoop mode a b is = .ok r ∧ (r = false ↔ ∀ i ∈ is, a[i]? = b[i]?) := by
  intro is
  induction is with
  | nil => intro _; exact ⟨false, rfl, by simp⟩
  | cons i is ih =>
    intro h
    obtain ⟨h1, h2⟩ := h i (by simp)
    obtain ⟨r, hr, hs⟩ := ih (fun k hk => h k (by simp [hk]))
    unfold neLoop
    rw [get_ok mode _ i h1, get_ok mode _ i h2]
    simp only [Outcome.bind_ok]
    split
    next hne => exact ⟨true, rfl, by simp [h1, h2, hne]⟩
    next heq => exact ⟨r, hr, by rw [hs]; simp [h1, h2, not_not.1 heq]⟩

theorem approxLoop_spec (mode : Mode) (a b : List ℝ) (eps : ℝ) : ∀ is : List ℕ,
    (∀ i ∈ is, i < a.length ∧ i < b.length) → ∃ r, approxLoop mode a b eps is = .ok r ∧
      (r = true ↔ ∀ i ∈ is, ∀ x y, a[i]? = some x → b[i]? = some y → |x - y| ≤ eps) := by
  intro is
  induction is with
  | nil => intro _; exact ⟨true, rfl, by simp⟩
  | cons i is ih =>
    intro h
    obtain ⟨h1, h2⟩ := h i (by simp)
    obtain ⟨r, hr, hs⟩ := ih (fun k hk => h k (by simp [hk]))
    unfold approxLoop
    rw [get_ok mode _ i h1, get_ok mode _ i h2]
    simp only [Outcome.bind_ok]
    split
    next hne =>
      refine ⟨false, rfl, ?_⟩
      simp only [List.mem_cons, forall_eq_or_imp, Bool.false_eq_true, false_iff]
      intro hc
      have := hc.1 a[i] b[i] (by simp [h1]) (by simp [h2])
      linarith
    next heq =>
      refine ⟨r, hr, ?_⟩
      rw [hs]
      simp only [List.mem_cons, forall_eq_or_imp]
      constructor
      · intro hall
        refine ⟨?_, hall⟩
        intro x y hx hy
        simp [h1, h2] at hx hy
        subst hx; subst hy; exact not_lt.1 heq
      · exact fun h => h.2

theorem equal_of_range {a b : List ℝ} (hl : a.length = b.length) :
    (∀ i ∈ List.range a.length, a[i]? = b[i]?) ↔ a = b := by
  constructor
  · intro h
    apply List.ext_getElem? 
    intro i
    by_cases hi : i < a.length
    · exact h i (List.mem_range.2 hi)
    · rw [List.getElem?_eq_none (by omega), List.getElem?_eq_none (by omega)]
  · rintro rfl i _; rfl

/-- **C81.** Waypoints of the same dimension: `==` tells whether all angles are equal, `!=` the opposite,
and `approx` whether no angles differ by more than epsilon. -/
theorem C81_compare_partial (mode : Mode) (a b : WayPoint) (eps : ℝ) (h : a.angles.length = b.angles.length) :
    ∃ r, a.eq mode b = .ok r ∧ (r = true ↔ a.angles = b.angles) ∧ a.ne mode b = .ok (!r) ∧
      ∃ q, a.approx mode b eps = .ok q ∧ (q = true ↔
        ∀ (i : ℕ) x y, a.angles[i]? = some x → b.angles[i]? = some y → |x - y| ≤ eps) := by
  have hr : ∀ i ∈ List.range a.angles.length, i < a.angles.length ∧ i < b.angles.length := by
    intro i hi; have := List.mem_range.1 hi; omega
  obtain ⟨r, h1, h2⟩ := eqLoop_spec mode a.angles b.angles _ hr
  obtain ⟨r', h3, h4⟩ := neLoop_spec mode a.angles b.angles _ hr
  obtain ⟨q, h5, h6⟩ := approxLoop_spec mode a.angles b.angles eps _ hr
  rw [equal_of_range h] at h2 h4
  have hrr : r' = !r := by cases r <;> cases r' <;> simp_all
  refine ⟨r, h1, h2, by rw [← hrr]; exact h3, q, h5, ?_⟩
  rw [h6]
  constructor
  · intro hall i x y hx hy
    exact hall i (List.mem_range.2 (List.getElem?_eq_some_iff.1 hx).1) x y hx hy
  · intro hall i _ x y hx hy
    exact hall i x y hx hy

/-- Consequently `==` is an equivalence relation between waypoints of one dimension. -/
theorem C81_equivalence_partial (mode : Mode) (a b c : WayPoint) (h : a.angles.length = b.angles.length)
    (h' : b.angles.length = c.angles.length) :
    a.eq mode a = .ok true ∧ a.eq mode b = b.eq mode a ∧
    (a.eq mode b = .ok true → b.eq mode c = .ok true → a.eq mode c = .ok true) := by
  obtain ⟨r1, e1, s1, -⟩ := C81_compare_partial mode a a 0 rfl
  obtain ⟨r2, e2, s2, -⟩ := C81_compare_partial mode a b 0 h
  obtain ⟨r3, e3, s3, -⟩ := C81_compare_partial mode b a 0 h.symm
  obtain ⟨r4, e4, s4, -⟩ := C81_compare_partial mode b c 0 h'
  obtain ⟨r5, e5, s5, -⟩ := C81_compare_partial mode a c 0 (h.trans h')
  refine ⟨by rw [e1, s1.2 rfl], ?_, ?_⟩
  · rw [e2, e3]
    congr 1
    have : r2 = true ↔ r3 = true := by rw [s2, s3]; exact eq_comm
    cases r2 <;> cases r3 <;> simp_all
  · rw [e2, e4, e5]
    intro h1 h2
    cases h1; cases h2
    rw [s5.2 ((s2.1 rfl).trans (s4.1 rfl))]

/-- Waypoints of different dimension: a waypoint equals every longer one that starts with its angles, and
the reverse comparison fails (debug) or is undefined (release). -/
theorem C81_fails_dimension :
    ¬ (∀ a b : WayPoint, a.eq .release b = .ok true → a.angles = b.angles) ∧
    ¬ (∀ (mode : Mode) (a b : WayPoint), a.eq mode b = b.eq mode a) := by
  have e1 : ∀ mode, (⟨[1], [0], [1], 0, false⟩ : WayPoint).eq mode ⟨[1, 2], [0, 0], [1, 1], 0, false⟩ = .ok true := by
    intro mode
    cases mode <;> simp [WayPoint.eq, List.range_succ, eqLoop, Arr.get, Arr.rawGet, assertThrow]
  have e2 : (⟨[1, 2], [0, 0], [1, 1], 0, false⟩ : WayPoint).eq .release ⟨[1], [0], [1], 0, false⟩ = .ub := by
    simp [WayPoint.eq, List.range_succ, eqLoop, Arr.get, Arr.rawGet, assertThrow]
  constructor
  · intro h
    have := h _ _ (e1 .release)
    simp at this
  · intro h
    have := h .release ⟨[1], [0], [1], 0, false⟩ ⟨[1, 2], [0, 0], [1, 1], 0, false⟩
    rw [e1, e2] at this
    cases this

/-- Two waypoints of the same dimension that differ. -/
example : ∃ r, (⟨[1, 2], [0, 0], [1, 1], 0, false⟩ : WayPoint).eq .debug ⟨[1, 3], [0, 0], [1, 1], 0, false⟩ = .ok r ∧
    r ≠ true := by
  obtain ⟨r, h, s, -⟩ := C81_compare_partial .debug (⟨[1, 2], [0, 0], [1, 1], 0, false⟩ : WayPoint)
    ⟨[1, 3], [0, 0], [1, 1], 0, false⟩ 0 rfl
  refine ⟨r, h, ?_⟩
  rw [Ne, s]; norm_num

/-- **C81.** A waypoint made for a dimension has all its values for it and passes the check of its rates; after
`redimension` to a positive one it has all values, too, but does not pass, until rates are set. -/
theorem C81_redimension (w last : WayPoint) (dim : ℕ) (hd : 0 < dim) (rate : ℝ) (hr : 0 < rate) :
    Spec.Fits dim (WayPoint.make dim) ∧ Spec.Fits dim (w.redimension dim) ∧ Spec.Fits dim ((w.redimension dim).setNominal rate) ∧
    validate [WayPoint.make dim, last] 2 = .ok true ∧ validate [w.redimension dim, last] 2 = .ok false ∧
    validate [(w.redimension dim).setNominal rate, last] 2 = .ok true := by
  refine ⟨by simp [Spec.Fits, WayPoint.make], by simp [Spec.Fits, WayPoint.redimension],
    by simp [Spec.Fits, WayPoint.redimension, WayPoint.setNominal], ?_⟩
  refine ⟨?_, ?_, ?_⟩ <;> unfold validate <;> rw [if_neg (by simp), if_neg (by simp)]
  · rw [if_pos]
    intro u hu r h
    simp at hu; subst hu
    simp [WayPoint.make] at h
    rw [h.2]; norm_num
  · rw [if_neg]
    intro h
    exact h (w.redimension dim) (by simp) 0 (by simp [WayPoint.redimension]; omega) le_rfl
  · rw [if_pos]
    intro u hu r h
    simp at hu; subst hu
    simp [WayPoint.setNominal, WayPoint.redimension] at h
    rw [h.2]; linarith

/-- **C81**: waypoints are appended one after the other. In debug builds all are taken exactly if all have the trajectory's
number of joints; the first that has not is refused and the ones before it stay. Release builds take all of them. -/
theorem C81_append (dim : ℕ) (ws : List WayPoint) :
    ((∃ out, ws.foldlM (append .debug dim) [] = Outcome.ok out) ↔ ∀ w ∈ ws, w.angles.length = dim) ∧
    (∀ w rest, (∀ v ∈ ws, v.angles.length = dim) → w.angles.length ≠ dim →
      (ws ++ w :: rest).foldlM (append .debug dim) [] = Outcome.throw .invalidInputError) ∧
    (∀ mode, (mode = .debug → ∀ w ∈ ws, w.angles.length = dim) → ws.foldlM (append mode dim) [] = Outcome.ok ws) := by
  have good : ∀ (mode : Mode) (l acc : List WayPoint), (mode = .debug → ∀ w ∈ l, w.angles.length = dim) →
      l.foldlM (append mode dim) acc = Outcome.ok (acc ++ l) := by
    intro mode l
    induction l with
    | nil => intro acc _; simp [List.foldlM]
    | cons v l ih =>
      intro acc h
      have ha : append mode dim acc v = .ok (acc ++ [v]) := by
        cases mode with
        | debug => simp [append, assertThrow, h rfl v (by simp), Outcome.bind]
        | release => simp [append, assertThrow, Outcome.bind]
      rw [List.foldlM_cons, ha]
      have := ih (acc ++ [v]) fun hm w hw => h hm w (by simp [hw])
      rw [List.append_assoc] at this
      exact this
  have bad : ∀ (l : List WayPoint) (w : WayPoint) (rest acc : List WayPoint), (∀ v ∈ l, v.angles.length = dim) →
      w.angles.length ≠ dim → (l ++ w :: rest).foldlM (append .debug dim) acc = Outcome.throw .invalidInputError := by
    intro l
    induction l with
    | nil =>
      intro w rest acc _ hw
      have ha : append .debug dim acc w = .throw .invalidInputError := by
        simp [append, assertThrow, Ne.symm hw, Outcome.bind]
      rw [List.nil_append, List.foldlM_cons, ha]
      rfl
    | cons v l ih =>
      intro w rest acc hl hw
      have ha : append .debug dim acc v = .ok (acc ++ [v]) := by
        simp [append, assertThrow, hl v (by simp), Outcome.bind]
      rw [List.cons_append, List.foldlM_cons, ha]
      exact ih w rest _ (fun u hu => hl u (by simp [hu])) hw
  refine ⟨?_, fun w rest hl hw => bad ws w rest [] hl hw, fun mode h => by simpa using good mode ws [] h⟩
  constructor
  · rintro ⟨out, ho⟩
    by_contra hc
    -- split at the first one that does not fit
    have : ∀ l : List WayPoint, (¬ ∀ w ∈ l, w.angles.length = dim) →
        ∃ l1 w l2, l = l1 ++ w :: l2 ∧ (∀ v ∈ l1, v.angles.length = dim) ∧ w.angles.length ≠ dim := by
      intro l
      induction l with
      | nil => intro h; exact (h (by simp)).elim
      | cons v l ih =>
        intro h
        by_cases hv : v.angles.length = dim
        · obtain ⟨l1, w, l2, e, h1, h2⟩ := ih fun hh => h (by simpa [hv] using hh)
          exact ⟨v :: l1, w, l2, by rw [e]; rfl, by simpa [hv] using h1, h2⟩
        · exact ⟨[], v, l, rfl, by simp, hv⟩
    obtain ⟨l1, w, l2, e, h1, h2⟩ := this ws hc
    rw [e, bad l1 w l2 [] h1 h2] at ho
    cases ho
  · intro h
    exact ⟨_, good .debug ws [] fun _ => h⟩

example : ([⟨[1, 2], [1, 1], [0, 0], 0, false⟩, ⟨[1], [1], [0], 0, false⟩] : List WayPoint).foldlM (append .debug 2) [] =
    Outcome.throw .invalidInputError :=
  (C81_append 2 [⟨[1, 2], [1, 1], [0, 0], 0, false⟩]).2.1 ⟨[1], [1], [0], 0, false⟩ [] (by simp) (by simp)

end Ecl.Props
