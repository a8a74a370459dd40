import Verif.Lemmas.Fifo
import Verif.Spec.Queue
import Verif.Spec.Window

/-!
# C01-C04: `FiFo` and `PushAndPop`
-/
set_option autoImplicit false
set_option linter.unusedSimpArgs false

namespace Ecl.Props
open Ecl.Spec
variable {α : Type _}

/-! ## C01 -/

/-- A window operation as a call on the `FiFo`. -/
def fifoCall : WOp α → Fifo.Op α
  | .push d => .push d
  | .get i => .get i
  | .fill v => .fill v

/-- A window observation as the observed result of a call. -/
def fifoOut : WOut α → Fifo.Out α
  | .unit => .unit
  | .val a => .val a

/-- A read is legal when it is inside the window. -/
def wLegal (w : List α) : WOp α → Prop
  | .get i => i < w.length
  | _ => True

/-- **C01** (history form). A `FiFo` of length `N` behaves, over every history of pushes, fills and
reads inside the window, exactly like the sliding window of `N` values; nothing is undefined and
nothing throws, in either build mode. -/
theorem C01_fifo_refines_window (m : Mode) (N : Nat) (hN : 0 < N) (hN' : N ≤ 2147483648) (v : α)
    (ops : List (WOp α)) (hl : Legal wStep wLegal (List.replicate N v) ops) :
    ∃ s, runOps (Fifo.step m) (Fifo.mkFill N v) (ops.map fifoCall) =
      some (s, (runSpec wStep (List.replicate N v) ops).2.map (fun o => o.map fifoOut)) := by
  have key : ∀ (ops : List (WOp α)) (s : Fifo α) (w : List α), Fifo.Rel N s w →
      Legal wStep wLegal w ops → ∃ s', runOps (Fifo.step m) s (ops.map fifoCall) =
        some (s', (runSpec wStep w ops).2.map (fun o => o.map fifoOut)) := by
    intro ops
    induction ops with
    | nil => intro s w _ _; exact ⟨s, rfl⟩
    | cons op ops ih =>
      intro s w hR hl
      rw [List.map_cons, runOps_cons]
      cases op with
      | push d =>
        obtain ⟨s', h1, h2⟩ := hR.push (by omega) m d
        obtain ⟨s'', h3⟩ := ih s' _ h2 hl.2
        exact ⟨s'', by simp [fifoCall, Fifo.step, h1, Res.bind, Res.obs, h3, runSpec, wStep,
          Except.map, fifoOut]⟩
      | get i =>
        have hi : i < w.length := hl.1
        have h1 := hR.get hN' m i hi
        have hw : wStep w (.get i) = (w, .ok (.val w[i])) := by simp [wStep, hi]
        have hl2 := hl.2
        rw [hw] at hl2
        obtain ⟨s'', h3⟩ := ih s w hR hl2
        exact ⟨s'', by simp [fifoCall, Fifo.step, h1, Res.bind, Res.obs, h3, runSpec, hw,
          Except.map, fifoOut]⟩
      | fill v =>
        obtain ⟨s', h1, h2⟩ := hR.fill m v
        obtain ⟨s'', h3⟩ := ih s' _ h2 hl.2
        exact ⟨s'', by simp [fifoCall, Fifo.step, h1, Res.bind, Res.obs, h3, runSpec, wStep,
          Except.map, fifoOut]⟩
  exact key ops _ _ (Fifo.Rel.mkFill N hN v) hl

/-- **C01** (closed form). After any pushes `xs` onto a `FiFo` of length `N` filled with `v`,
element `i` is the `i`-th oldest of the last `N` entries of `v, …, v, xs₀, xs₁, …`. -/
theorem C01_fifo_last_values (m : Mode) (N : Nat) (hN : 0 < N) (hN' : N ≤ 2147483648) (v : α)
    (xs : List α) (i : Nat) (hi : i < N) :
    ∃ s, runOps (Fifo.step m) (Fifo.mkFill N v) (xs.map Fifo.Op.push) =
        some (s, xs.map fun _ => .ok .unit) ∧
      Fifo.get m s i = .ok s ((List.replicate N v ++ xs)[xs.length + i]'(by simp; omega)) := by
  have key : ∀ (xs : List α) (s : Fifo α) (w : List α), Fifo.Rel N s w →
      ∃ s', runOps (Fifo.step m) s (xs.map Fifo.Op.push) = some (s', xs.map fun _ => .ok .unit) ∧
        Fifo.Rel N s' ((w ++ xs).drop xs.length) := by
    intro xs
    induction xs with
    | nil => intro s w h; exact ⟨s, rfl, by simpa using h⟩
    | cons x xs ih =>
      intro s w h
      obtain ⟨s', h1, h2⟩ := h.push (by omega) m x
      obtain ⟨s'', h3, h4⟩ := ih s' _ h2
      refine ⟨s'', ?_, ?_⟩
      · rw [List.map_cons, runOps_cons]
        simp [Fifo.step, h1, Res.bind, Res.obs, h3]
      · have hw := h.wlen
        cases w with
        | nil => simp at hw; omega
        | cons a w => simpa using h4
  obtain ⟨s, h1, h2⟩ := key xs _ _ (Fifo.Rel.mkFill N hN v)
  refine ⟨s, h1, ?_⟩
  have hlen : i < ((List.replicate N v ++ xs).drop xs.length).length := by simp; omega
  rw [h2.get hN' m i hlen, List.getElem_drop]

-- non-vacuity: a legal history with wrap-around, and a concrete read
example : Legal wStep wLegal (List.replicate 2 (0 : Nat))
    [.push 1, .push 2, .push 3, .get 1, .fill 7, .get 0] := by
  simp [Legal, wLegal, wStep]
example : Fifo.get .debug ⟨[3, 2], 2, 1⟩ 0 = .ok ⟨[3, 2], 2, 1⟩ (2 : Nat) := by decide

/-- A test, not part of the claim: beyond `2^31` elements the `unsigned` sum wraps and the read is
wrong, which is why `N ≤ 2^31` is required: the slot read for `running_index = 2^31+1` and
`idx = 2^31-1` in a buffer of `2^31+2` elements is 0 instead of `2^31-2`. -/
theorem C01_large_length_wraps :
    u32 ((2147483649 : Int) + 2147483647) % 2147483650 = 0 ∧
      (2147483649 + 2147483647) % 2147483650 = 2147483646 := by decide

/-! ## C02 -/

/-- Every `resize n` in the history is called while `get_idx()` is below `n`. -/
def ResizesAboveIndex (m : Mode) : Fifo α → List (Fifo.Op α) → Prop
  | _, [] => True
  | s, op :: ops =>
    (match op with
      | .resize n _ => (∀ k, Fifo.step m s .getIdx = .ok s (.idx k) → k < n) ∧ n < 4294967296
      | _ => True) ∧
    ∀ s' o, (Fifo.step m s op).obs = some (s', o) → ResizesAboveIndex m s' ops

/-- **C02 (partial)**: every history of public calls, with reads at arbitrary indices, is free of
undefined behaviour and of exceptions, provided the buffer is constructed with a positive length
and no `resize` shrinks the buffer to or below the value returned by `get_idx()`.
Missing: histories that do shrink that far, for which the property is false (below). -/
theorem C02_fifo_safe_partial (m : Mode) (N : Nat) (hN : 0 < N) (hN' : N < 4294967296)
    (junk : Nat → α) (ops : List (Fifo.Op α)) (h : ResizesAboveIndex m (Fifo.mk0 N junk) ops) :
    ∃ s os, runOps (Fifo.step m) (Fifo.mk0 N junk) ops = some (s, os) ∧ ∀ o ∈ os, ∃ a, o = .ok a := by
  have key : ∀ (ops : List (Fifo.Op α)) (s : Fifo α), s.data.length = s.size → s.idx < s.size →
      s.size < 4294967296 → ResizesAboveIndex m s ops →
      ∃ s' os, runOps (Fifo.step m) s ops = some (s', os) ∧ ∀ o ∈ os, ∃ a, o = .ok a := by
    intro ops
    induction ops with
    | nil => intro s _ _ _ _; exact ⟨s, [], rfl, by simp⟩
    | cons op ops ih =>
      intro s hd hi hs hr
      have hstep : ∃ s' a, Fifo.step m s op = .ok s' a ∧ s'.data.length = s'.size ∧
          s'.idx < s'.size ∧ s'.size < 4294967296 := by
        cases op with
        | push d =>
          refine ⟨⟨s.data.set s.idx d, s.size, (s.idx + 1) % 4294967296 % s.size⟩, .unit, ?_, ?_, ?_, ?_⟩
          · simp only [Fifo.step, Fifo.pushBack]
            rw [Arr.set_ok m _ _ d (by omega)]
            simp only
            rw [if_neg (by omega)]
            rfl
          · simp [hd]
          · exact Nat.mod_lt _ (by omega)
          · exact hs
        | get i =>
          have hlt : u32 (s.idx + i) % s.size < s.data.length := by
            rw [hd]; exact Nat.mod_lt _ (by omega)
          refine ⟨s, .val (s.data[u32 (s.idx + i) % s.size]), ?_, hd, hi, hs⟩
          · simp only [Fifo.step, Fifo.get]
            rw [if_neg (by omega), Arr.get_ok m _ _ hlt]
            rfl
        | fill v =>
          refine ⟨⟨List.replicate s.data.length v, s.size, s.idx⟩, .unit, ?_, ?_, hi, hs⟩
          · simp only [Fifo.step, Fifo.fill]
            rw [← hd, Fifo.fillLoop_full]
            simp [Res.bind, hd]
          · simp [hd]
        | resize n j =>
          have h1 := hr.1.1 s.idx rfl
          have h2 := hr.1.2
          refine ⟨⟨(List.range n).map j, n, s.idx⟩, .unit, ?_, ?_, ?_, ?_⟩
          · simp only [Fifo.step, Fifo.resize]
            rw [show decide (0 < n) = true by simp; omega, Arr.assertThrow_true]
            rfl
          · simp
          · exact h1
          · exact h2
        | getIdx => exact ⟨s, _, rfl, hd, hi, hs⟩
      obtain ⟨s', a, h1, h2, h3, h4⟩ := hstep
      obtain ⟨s'', os, h5, h6⟩ := ih s' h2 h3 h4 (hr.2 s' (.ok a) (by rw [h1]; rfl))
      refine ⟨s'', .ok a :: os, ?_, ?_⟩
      · rw [runOps_cons, h1]; simp [Res.obs, h5]
      · intro o ho
        rcases List.mem_cons.mp ho with rfl | ho
        · exact ⟨a, rfl⟩
        · exact h6 o ho
  exact key ops _ (by simp [Fifo.mk0]) (by simpa [Fifo.mk0]) (by simpa [Fifo.mk0]) h

-- non-vacuity: a history with a shrinking resize that is still above the index
example : ResizesAboveIndex .release (Fifo.mk0 4 (fun _ => (0 : Nat)))
    [.push 1, .resize 3 (fun _ => 9), .push 2, .push 3, .get (-1)] := by
  simp [ResizesAboveIndex, Fifo.step, Fifo.mk0, Fifo.pushBack, Arr.set, Arr.rawSet, Res.bind,
    Res.obs, Fifo.resize]

/-- **C02 fails** in release builds: push three times into a buffer of four, shrink it to two, push
again: the write lands outside the storage. -/
theorem C02_fails_shrink :
    runOps (Fifo.step .release) (Fifo.mk0 4 (fun _ => (0 : Nat)))
      [.push 1, .push 2, .push 3, .resize 2 (fun _ => 0), .push 4] = none := by
  simp [runOps, Fifo.step, Fifo.mk0, Fifo.pushBack, Arr.set, Arr.rawSet, Res.bind, Fifo.resize]

/-- **C02 fails** in debug builds in its own way: after the same shrinking every push is refused, however many follow, and each
refused push moves the index further away. -/
theorem C02_fails_stuck (a b c : α) (ds : List α) (junk junk' : Nat → α) (h : ds.length < 4294967293) :
    runOps (Fifo.step .debug) (Fifo.mk0 4 junk) ([.push a, .push b, .push c, .resize 2 junk'] ++ (ds.map .push ++ [.getIdx])) =
      some (⟨[junk' 0, junk' 1], 2, 3 + ds.length⟩, [.ok .unit, .ok .unit, .ok .unit, .ok .unit] ++
        (List.replicate ds.length (.error .outOfRange) ++ [.ok (.idx (3 + ds.length))])) := by
  have key : ∀ (ds : List α) (i : Nat), 2 ≤ i → i + ds.length < 4294967296 →
      runOps (Fifo.step .debug) ⟨[junk' 0, junk' 1], 2, i⟩ (ds.map .push ++ [.getIdx]) =
        some (⟨[junk' 0, junk' 1], 2, i + ds.length⟩,
          List.replicate ds.length (.error .outOfRange) ++ [.ok (.idx (i + ds.length))]) := by
    intro ds
    induction ds with
    | nil => intro i _ _; simp [runOps, Fifo.step]
    | cons d ds ih =>
      intro i h2 hi
      rw [List.length_cons] at hi
      have e : (i + 1) % 4294967296 = i + 1 := Nat.mod_eq_of_lt (by omega)
      have hs : Fifo.step .debug ⟨[junk' 0, junk' 1], 2, i⟩ (.push d) = .throw ⟨[junk' 0, junk' 1], 2, i + 1⟩ .outOfRange := by
        simp [Fifo.step, Fifo.pushBack, Arr.set, assertThrow, Res.bind, Nat.not_lt.2 h2, e]
      rw [List.map_cons, List.cons_append, runOps, hs]
      simp only [ih (i + 1) (by omega) (by omega), Option.map_some, List.length_cons, List.replicate_succ, List.cons_append]
      rw [show i + 1 + ds.length = i + (ds.length + 1) by omega]
  have first : ∀ ops, runOps (Fifo.step .debug) (Fifo.mk0 4 junk) ([.push a, .push b, .push c, .resize 2 junk'] ++ ops) =
      (runOps (Fifo.step .debug) ⟨[junk' 0, junk' 1], 2, 3⟩ ops).map fun r =>
        (r.1, [.ok .unit, .ok .unit, .ok .unit, .ok .unit] ++ r.2) := by
    intro ops
    simp [runOps, Fifo.step, Fifo.mk0, Fifo.pushBack, Arr.set, Arr.rawSet, assertThrow, Res.bind, Fifo.resize, List.range_succ,
      Function.comp_def]
  rw [first, key ds 3 (by omega) (by omega)]
  rfl

/-- **C02 fails** even in debug builds: `resize(0)` throws, but only after the size was
overwritten, so a later read divides by zero. -/
theorem C02_fails_resize_zero :
    runOps (Fifo.step .debug) (Fifo.mk0 4 (fun _ => (0 : Nat)))
      [.resize 0 (fun _ => 0), .get 0] = none := by
  simp [runOps, Fifo.step, Fifo.mk0, Res.bind, Fifo.resize, assertThrow, Fifo.get]

/-- **C02 fails** for the default constructor (length 0) on the first read, in both modes. -/
theorem C02_fails_default (m : Mode) (i : Int) (junk : Nat → α) :
    runOps (Fifo.step m) (Fifo.mk0 0 junk) [.get i] = none := by
  simp [runOps, Fifo.step, Fifo.mk0, Res.bind, Fifo.get]

/-! ## C03 -/

/-- A queue operation as a call on the container. -/
def ppCall : QOp α → PushAndPop.Op α
  | .push d => .push d
  | .pop => .pop
  | .get i => .get i
  | .fill v => .fill v
  | .size => .size
  | .clear => .clear

/-- A queue observation as the observed result of a call. -/
def ppOut : QOut α → PushAndPop.Out α
  | .unit => .unit
  | .val a => .val a
  | .num n => .num n

/-- Legal calls: index inside the contents (and small enough for `int` arithmetic); in release
builds, where the emptiness check is compiled out, no `pop_front` on an empty queue. -/
def qLegal (m : Mode) (cap : Nat) (q : List α) : QOp α → Prop
  | .get i => i < q.length ∧ cap + i < 2147483648
  | .pop => m = .release → q ≠ []
  | _ => True

theorem pp_refines_aux (m : Mode) (cap : Nat) (hc : cap + 1 < 2147483648) :
    ∀ (ops : List (QOp α)) (s : PushAndPop α) (q : List α), PushAndPop.Rel cap s q →
      Legal (qStep cap) (qLegal m cap) q ops →
      ∃ s', runOps (PushAndPop.step m) s (ops.map ppCall) =
          some (s', (runSpec (qStep cap) q ops).2.map (fun o => o.map ppOut)) ∧
        PushAndPop.Rel cap s' (runSpec (qStep cap) q ops).1 := by
  intro ops
  induction ops with
  | nil => intro s q h _; exact ⟨s, rfl, h⟩
  | cons op ops ih =>
    intro s q hR hl
    rw [List.map_cons, runOps_cons]
    have hstep : ∃ s', (PushAndPop.step m s (ppCall op)).obs =
        some (s', ((qStep cap q op).2).map ppOut) ∧ PushAndPop.Rel cap s' (qStep cap q op).1 := by
      cases op with
      | push d =>
        obtain ⟨s', h1, h2⟩ := hR.push hc m d
        exact ⟨s', by simp [ppCall, PushAndPop.step, h1, Res.bind, Res.obs, qStep, Except.map, ppOut], h2⟩
      | pop =>
        cases q with
        | nil =>
          cases m with
          | release => exact absurd rfl (hl.1 rfl)
          | debug =>
            have h1 := hR.pop_empty_debug
            exact ⟨s, by simp [ppCall, PushAndPop.step, h1, Res.bind, Res.obs, qStep, Except.map], hR⟩
        | cons a q =>
          obtain ⟨s', h1, h2⟩ := hR.pop hc m
          exact ⟨s', by simp [ppCall, PushAndPop.step, h1, Res.bind, Res.obs, qStep, Except.map, ppOut], h2⟩
      | get i =>
        have h1 := hR.get hc m i hl.1.1 hl.1.2
        have hi : i < q.length := hl.1.1
        exact ⟨s, by simp [ppCall, PushAndPop.step, h1, Res.bind, Res.obs, qStep, Except.map, ppOut, hi],
          by simpa [qStep, hi] using hR⟩
      | fill v =>
        obtain ⟨s', h1, h2⟩ := hR.fill m v
        exact ⟨s', by simp [ppCall, PushAndPop.step, h1, Res.bind, Res.obs, qStep, Except.map, ppOut], h2⟩
      | size =>
        have h1 := hR.sizeOf hc
        exact ⟨s, by simp [ppCall, PushAndPop.step, h1, Res.bind, Res.obs, qStep, Except.map, ppOut], hR⟩
      | clear =>
        exact ⟨s.clear, by simp [ppCall, PushAndPop.step, Res.bind, Res.obs, qStep, Except.map, ppOut], hR.clear⟩
    obtain ⟨s', h1, h2⟩ := hstep
    obtain ⟨s'', h3, h4⟩ := ih s' _ h2 hl.2
    refine ⟨s'', ?_, h4⟩
    rw [h1]
    simp [h3, runSpec]

/-- **C03**. `PushAndPop<T,cap>` observes, over every legal history, exactly what the bounded evicting
queue of capacity `cap` observes — including the exception of a pop on the empty queue in debug
builds — whatever the initial contents of its storage. -/
theorem C03_push_and_pop_refines_queue (m : Mode) (cap : Nat) (hc : cap + 1 < 2147483648)
    (junk : Nat → α) (ops : List (QOp α)) (hl : Legal (qStep cap) (qLegal m cap) [] ops) :
    ∃ s, runOps (PushAndPop.step m) (PushAndPop.mkFixed cap junk) (ops.map ppCall) =
      some (s, (runSpec (qStep cap) [] ops).2.map (fun o => o.map ppOut)) := by
  obtain ⟨s, h, _⟩ := pp_refines_aux m cap hc ops _ _ (PushAndPop.Rel.mkFixed cap hc junk) hl
  exact ⟨s, h⟩

/-- The queue never stores more than its capacity, and holds exactly the last `cap` pushed values
when only pushes happen (sanity theorems on the specification itself). -/
theorem C03_spec_bounded (cap : Nat) (ops : List (QOp α)) :
    (runSpec (qStep cap) [] ops).1.length ≤ cap := by
  have key : ∀ (ops : List (QOp α)) (q : List α), q.length ≤ cap →
      (runSpec (qStep cap) q ops).1.length ≤ cap := by
    intro ops
    induction ops with
    | nil => intro q h; simpa [runSpec] using h
    | cons op ops ih =>
      intro q h
      apply ih
      cases op with
      | push d => simp only [qStep, qPush]; split <;> simp <;> omega
      | pop => cases q <;> simp_all [qStep]; omega
      | get i => simp only [qStep]; split <;> simpa
      | fill v => simpa [qStep] using h
      | size => simpa [qStep] using h
      | clear => simp [qStep]
  exact key ops [] (by simp)

/-- Eviction in closed form: after pushing `xs` the queue holds the last `cap` values of `xs`. -/
theorem C03_spec_pushes (cap : Nat) (xs : List α) :
    (runSpec (qStep cap) [] (xs.map QOp.push)).1 = xs.drop (xs.length - cap) := by
  have key : ∀ (xs ys : List α),
      (runSpec (qStep cap) (ys.drop (ys.length - cap)) (xs.map QOp.push)).1
        = (ys ++ xs).drop ((ys ++ xs).length - cap) := by
    intro xs
    induction xs with
    | nil => intro ys; simp [runSpec]
    | cons x xs ih =>
      intro ys
      have h1 : qPush cap (ys.drop (ys.length - cap)) x
          = (ys ++ [x]).drop ((ys ++ [x]).length - cap) := by
        unfold qPush
        simp only [List.length_drop, List.length_append, List.length_cons, List.length_nil]
        split
        · rw [show ys.length - cap = 0 by omega, show ys.length + (0 + 1) - cap = 0 by omega]; simp
        · rw [show ys.length + (0 + 1) - cap = (ys.length - cap) + 1 by omega, ← List.drop_drop]
          rw [List.drop_append_of_le_length (by omega)]
          simp
      have := ih (ys ++ [x])
      simp only [List.map_cons, runSpec, qStep, h1]
      rw [this]; simp
  simpa using key xs []

/-- **C03, memory safety**: no history whatsoever of calls (pops on the empty queue in release
builds, reads at any index that does not overflow `int`) is undefined. -/
theorem C03_push_and_pop_no_ub (m : Mode) (cap : Nat) (hc : cap + 1 < 2147483648) (junk : Nat → α)
    (ops : List (PushAndPop.Op α))
    (hidx : ∀ i, PushAndPop.Op.get i ∈ ops → intMin ≤ i ∧ i ≤ intMax - cap)
    (hres : ∀ n j, PushAndPop.Op.resize n j ∉ ops) :
    ∃ r, runOps (PushAndPop.step m) (PushAndPop.mkFixed cap junk) ops = some r := by
  have key : ∀ (ops : List (PushAndPop.Op α)) (s : PushAndPop α) (l f : Nat),
      s.data.length = cap + 1 → s.size = cap + 1 → s.leader = l → s.follower = f →
      l < cap + 1 → f < cap + 1 →
      (∀ i, PushAndPop.Op.get i ∈ ops → intMin ≤ i ∧ i ≤ intMax - cap) →
      (∀ n j, PushAndPop.Op.resize n j ∉ ops) →
      ∃ r, runOps (PushAndPop.step m) s ops = some r := by
    intro ops
    induction ops with
    | nil => intro s _ _ _ _ _ _ _ _ _ _; exact ⟨_, rfl⟩
    | cons op ops ih =>
      intro s l f hd hs hl hf hl' hf' hi hr
      have hml : (l + 1) % (cap + 1) < cap + 1 := Nat.mod_lt _ (by omega)
      have hmf : (f + 1) % (cap + 1) < cap + 1 := Nat.mod_lt _ (by omega)
      have hi' : ∀ i, PushAndPop.Op.get i ∈ ops → intMin ≤ i ∧ i ≤ intMax - cap :=
        fun i h => hi i (List.mem_cons_of_mem _ h)
      have hr' : ∀ n j, PushAndPop.Op.resize n j ∉ ops :=
        fun n j h => hr n j (List.mem_cons_of_mem _ h)
      rw [runOps_cons]
      suffices h : ∃ s' o l f, (PushAndPop.step m s op).obs = some (s', o) ∧
          s'.data.length = cap + 1 ∧ s'.size = cap + 1 ∧ s'.leader = (l : Nat) ∧
          s'.follower = (f : Nat) ∧ l < cap + 1 ∧ f < cap + 1 by
        obtain ⟨s', o, l', f', h0, h1, h2, h3, h4, h5, h6⟩ := h
        obtain ⟨r, hr''⟩ := ih s' l' f' h1 h2 h3 h4 h5 h6 hi' hr'
        exact ⟨(r.1, o :: r.2), by simp [h0, hr'']⟩
      cases op with
      | push d =>
        simp only [PushAndPop.step, PushAndPop.pushBack]
        rw [hl, PushAndPop.incr_nat (by omega)]
        simp only
        rw [u64_natCast (by omega), Arr.set_ok m _ _ d (by omega)]
        simp only
        rw [hs, PushAndPop.modAssign_nat (by omega) (by omega) (by omega)]
        simp only
        split
        · rw [hf, PushAndPop.incr_nat (by omega)]
          simp only
          rw [PushAndPop.modAssign_nat (by omega) (by omega) (by omega)]
          exact ⟨_, _, (l + 1) % (cap + 1), (f + 1) % (cap + 1), rfl, by simp [hd], rfl, rfl, rfl, hml, hmf⟩
        · exact ⟨_, _, (l + 1) % (cap + 1), f, rfl, by simp [hd], rfl, rfl, hf, hml, hf'⟩
      | pop =>
        simp only [PushAndPop.step, PushAndPop.popFront]
        have : assertThrow m (decide (s.follower ≠ s.leader)) .outOfRange = .ok () ∨
            assertThrow m (decide (s.follower ≠ s.leader)) .outOfRange = .throw .outOfRange := by
          cases m <;> simp [assertThrow]; grind
        rcases this with h | h
        · rw [h]
          simp only
          rw [hf, PushAndPop.incr_nat (by omega)]
          simp only
          rw [u64_natCast (by omega), Arr.get_ok m _ f (by omega)]
          simp only
          rw [hs, PushAndPop.modAssign_nat (by omega) (by omega) (by omega)]
          exact ⟨_, _, l, (f + 1) % (cap + 1), rfl, hd, rfl, hl, rfl, hl', hmf⟩
        · rw [h]
          exact ⟨_, _, l, f, rfl, hd, hs, hl, hf, hl', hf'⟩
      | get i =>
        have hi0 := hi i (by simp)
        simp only [PushAndPop.step, PushAndPop.get]
        rw [if_neg (by rw [hf]; simp only [InInt, intMin, intMax] at *; omega), if_neg (by omega)]
        have : u32 (s.follower + i) % s.size < s.data.length := by
          rw [hd, hs]; exact Nat.mod_lt _ (by omega)
        rw [Arr.get_ok m _ _ this]
        exact ⟨_, _, l, f, rfl, hd, hs, hl, hf, hl', hf'⟩
      | fill v =>
        simp only [PushAndPop.step, PushAndPop.fill]
        have hfl : Fifo.fillLoop m v 0 s.size s.data = .ok (List.replicate (cap + 1) v) := by
          rw [hs, ← hd, Fifo.fillLoop_full]
        rw [PushAndPop.fillLoop_eq, hfl]
        exact ⟨_, _, l, f, rfl, by simp, hs, hl, hf, hl', hf'⟩
      | size => exact ⟨_, _, l, f, rfl, hd, hs, hl, hf, hl', hf'⟩
      | clear => exact ⟨_, _, 0, 0, rfl, hd, hs, rfl, rfl, by omega, by omega⟩
      | resize n j => exact absurd (by simp) (hr n j)
  exact key ops _ 0 0 (by simp [PushAndPop.mkFixed]) (by simp [PushAndPop.mkFixed]; omega) rfl rfl
    (by omega) (by omega) hidx hres

-- non-vacuity: a legal history with eviction, reads and a pop on the empty queue
example : Legal (qStep 2) (qLegal .debug 2) ([] : List Nat)
    [.pop, .push 1, .push 2, .push 3, .get 1, .size, .pop, .pop, .pop, .fill 0, .clear] := by
  simp [Legal, qLegal, qStep, qPush]

/-- In release builds a pop on the empty queue is not rejected: it returns a stale cell and makes
the queue report `cap` elements. -/
theorem C03_release_pop_empty (cap : Nat) (hc : 0 < cap) (hc' : cap + 1 < 2147483648)
    (junk : Nat → α) :
    ∃ s, PushAndPop.popFront .release (PushAndPop.mkFixed cap junk) = .ok s (junk 0) ∧
      s.sizeOf = cap := by
  unfold PushAndPop.popFront
  simp only [Arr.assertThrow_release, PushAndPop.mkFixed]
  rw [show (0 : Int) = ((0 : Nat) : Int) from rfl, PushAndPop.incr_nat (by omega)]
  simp only
  rw [u64_natCast (by omega), Arr.get_ok .release _ 0 (by simp)]
  simp only
  rw [PushAndPop.modAssign_nat (by omega) (by omega) (by omega)]
  refine ⟨_, by simp only [List.getElem_map, List.getElem_range]; rfl, ?_⟩
  unfold PushAndPop.sizeOf
  simp only
  rw [show (0 + 1) % ((cap + 1) % 4294967296) = 1 by
    rw [Nat.mod_eq_of_lt (show cap + 1 < 4294967296 by omega), Nat.mod_eq_of_lt (by omega)]]
  rw [if_neg (by omega), if_pos (by omega)]
  unfold u32
  omega

/-! ## C04 -/

/-- **C04 (partial)**: a dynamic `PushAndPop` constructed with length `n` refines the bounded evicting
queue of capacity `n` over every legal history without `resize`.
Missing: histories with `resize`, for which the property is false (below). -/
theorem C04_dynamic_refines_queue_partial (m : Mode) (n : Nat) (hn : n + 1 < 2147483648)
    (junk : Nat → α) (ops : List (QOp α)) (hl : Legal (qStep n) (qLegal m n) [] ops) :
    ∃ s0 s, PushAndPop.mkDyn m n junk = .ok s0 ∧
      runOps (PushAndPop.step m) s0 (ops.map ppCall) =
        some (s, (runSpec (qStep n) [] ops).2.map (fun o => o.map ppOut)) := by
  have h0 : PushAndPop.mkDyn m n junk = .ok (PushAndPop.mkFixed n junk) := by
    unfold PushAndPop.mkDyn PushAndPop.mkFixed
    have : (n + 1) % 4294967296 = n + 1 := Nat.mod_eq_of_lt (by omega)
    simp [this]
  obtain ⟨s, h, _⟩ := pp_refines_aux m n hn ops _ _ (PushAndPop.Rel.mkFixed n hn junk) hl
  exact ⟨_, s, h0, h⟩

/-- **C04 (partial)**: after *any* prior state, `resize(n)` immediately followed by `clear()` gives an
empty queue of capacity `n` obeying the contract. -/
theorem C04_resize_clear_refines_queue_partial (m : Mode) (s : PushAndPop α) (n : Nat)
    (hn : n + 1 < 2147483648) (junk : Nat → α) (ops : List (QOp α))
    (hl : Legal (qStep n) (qLegal m n) [] ops) :
    ∃ s', runOps (PushAndPop.step m) s (.resize n junk :: .clear :: ops.map ppCall) =
      some (s', .ok .unit :: .ok .unit :: (runSpec (qStep n) [] ops).2.map (fun o => o.map ppOut)) := by
  have hmod : (n + 1) % 4294967296 = n + 1 := Nat.mod_eq_of_lt (by omega)
  have hrel : PushAndPop.Rel n (⟨(List.range (n + 1)).map junk, n + 1, 0, 0⟩ : PushAndPop α) [] :=
    ⟨by simp, rfl, by simp, 0, by omega, rfl, by simp, by simp⟩
  obtain ⟨s', h, _⟩ := pp_refines_aux m n hn ops _ _ hrel hl
  refine ⟨s', ?_⟩
  rw [runOps_cons]
  simp [PushAndPop.step, PushAndPop.resize, hmod, Res.bind, Res.obs, runOps_cons, PushAndPop.clear, h]

/-- **C04 fails** after a shrinking `resize` in release builds: the next push writes outside the
buffer. -/
theorem C04_fails_resize (junk : Nat → Nat) :
    ∃ s0, PushAndPop.mkDyn .release 3 junk = .ok s0 ∧
      runOps (PushAndPop.step .release) s0
        [.push 1, .push 2, .push 3, .resize 1 junk, .push 4] = none := by
  refine ⟨_, rfl, ?_⟩
  simp [runOps, PushAndPop.step, PushAndPop.pushBack, PushAndPop.incr, PushAndPop.modAssign,
    Arr.set, Arr.rawSet, Res.bind, PushAndPop.resize, intMax, u64, u32, s32, List.range_succ]

/-- **C04 fails** after the same in debug builds: every further push is refused, and each refused push makes the queue, which has
room for one element, report one element more. -/
theorem C04_fails_stuck (a b c : α) (ds : List α) (junk junk' : Nat → α) (h : ds.length < 2147483640) :
    ∃ s0 s, PushAndPop.mkDyn .debug 3 junk = .ok s0 ∧
      runOps (PushAndPop.step .debug) s0 ([.push a, .push b, .push c, .resize 1 junk'] ++ (ds.map .push ++ [.size])) =
        some (s, [.ok .unit, .ok .unit, .ok .unit, .ok .unit] ++
          (List.replicate ds.length (.error .outOfRange) ++ [.ok (.num (3 + ds.length))])) := by
  have key : ∀ (ds : List α) (i : Nat), 2 ≤ i → i + ds.length < 2147483647 →
      runOps (PushAndPop.step .debug) ⟨[junk' 0, junk' 1], 2, i, 0⟩ (ds.map .push ++ [.size]) =
        some (⟨[junk' 0, junk' 1], 2, (i + ds.length : Nat), 0⟩,
          List.replicate ds.length (.error .outOfRange) ++ [.ok (.num (i + ds.length))]) := by
    intro ds
    induction ds with
    | nil =>
      intro i h2 hi
      have e : u32 (i : Int) = i := u32_natCast (by simp at hi; omega)
      have hp : (0 : Int) < i := by omega
      simp [runOps, PushAndPop.step, PushAndPop.sizeOf, e, show 0 < i by omega]
    | cons d ds ih =>
      intro i h2 hi
      rw [List.length_cons] at hi
      have e1 : (i : Int) ≠ intMax := by simp [intMax]; omega
      have e2 : u64 (i : Int) = i := u64_natCast (by omega)
      have hs : PushAndPop.step .debug ⟨[junk' 0, junk' 1], 2, i, 0⟩ (.push d) =
          .throw ⟨[junk' 0, junk' 1], 2, (i + 1 : Nat), 0⟩ .outOfRange := by
        simp [PushAndPop.step, PushAndPop.pushBack, PushAndPop.incr, e1, e2, Arr.set, assertThrow, Res.bind, Nat.not_lt.2 h2]
      rw [List.map_cons, List.cons_append, runOps, hs]
      simp only [ih (i + 1) (by omega) (by omega), Option.map_some, List.length_cons, List.replicate_succ, List.cons_append]
      rw [show i + 1 + ds.length = i + (ds.length + 1) by omega]
  refine ⟨⟨(List.range 4).map junk, 4, 0, 0⟩, ⟨[junk' 0, junk' 1], 2, (3 + ds.length : Nat), 0⟩, rfl, ?_⟩
  have first : ∀ ops, runOps (PushAndPop.step .debug) ⟨(List.range 4).map junk, 4, 0, 0⟩
      ([.push a, .push b, .push c, .resize 1 junk'] ++ ops) =
      (runOps (PushAndPop.step .debug) ⟨[junk' 0, junk' 1], 2, (3 : Nat), 0⟩ ops).map fun r =>
        (r.1, [.ok .unit, .ok .unit, .ok .unit, .ok .unit] ++ r.2) := by
    intro ops
    simp [runOps, PushAndPop.step, PushAndPop.pushBack, PushAndPop.incr, PushAndPop.modAssign, Arr.set, Arr.rawSet, assertThrow,
      Res.bind, PushAndPop.resize, intMax, u64, u32, s32, List.range_succ, Function.comp_def]
  rw [first, key ds 3 (by omega) (by omega)]
  rfl

/-- **C04 fails** for pops after a shrinking `resize` in debug builds: the pop is refused, and yet the element is gone. -/
theorem C04_fails_refused_pop (a b c : α) (junk junk' : Nat → α) : ∃ s0 s, PushAndPop.mkDyn .debug 3 junk = .ok s0 ∧
    runOps (PushAndPop.step .debug) s0 [.push a, .push b, .push c, .pop, .pop, .resize 1 junk', .size, .pop, .size] =
      some (s, [.ok .unit, .ok .unit, .ok .unit, .ok (.val a), .ok (.val b), .ok .unit, .ok (.num 1), .error .outOfRange,
        .ok (.num 0)]) := by
  refine ⟨⟨(List.range 4).map junk, 4, 0, 0⟩, ⟨[junk' 0, junk' 1], 2, 3, 3⟩, rfl, ?_⟩
  simp [runOps, PushAndPop.step, PushAndPop.pushBack, PushAndPop.popFront, PushAndPop.sizeOf, PushAndPop.incr,
    PushAndPop.modAssign, Arr.set, Arr.rawSet, Arr.get, Arr.rawGet, assertThrow, Res.bind, PushAndPop.resize, intMax, u64, u32,
    s32, List.range_succ]

/-- **C04 fails** after a refused `resize` in debug builds: a length of 2^32 - 1 is refused, but only after the size became zero,
so that the next push or read of a queue that was in order divides by zero. -/
theorem C04_fails_resize_max (d : α) (junk junk' : Nat → α) : ∃ s0 s, PushAndPop.mkDyn .debug 3 junk = .ok s0 ∧
    runOps (PushAndPop.step .debug) s0 [.resize 4294967295 junk'] = some (s, [.error .outOfRange]) ∧
    runOps (PushAndPop.step .debug) s [.push d] = none ∧ runOps (PushAndPop.step .debug) s [.get 0] = none := by
  refine ⟨⟨(List.range 4).map junk, 4, 0, 0⟩, ⟨(List.range 4).map junk, 0, 0, 0⟩, rfl, ?_, ?_, ?_⟩
  · simp [runOps, PushAndPop.step, PushAndPop.resize, assertThrow, Res.bind]
  · simp [runOps, PushAndPop.step, PushAndPop.pushBack, PushAndPop.incr, PushAndPop.modAssign, Arr.set, Arr.rawSet, assertThrow,
      Res.bind, intMax, u64]
  · simp [runOps, PushAndPop.step, PushAndPop.get, InInt, Res.bind]

/-- **C04** for the longest length that can be asked for, 2^32 - 1: refused in debug builds; in release builds the queue has no
room at all, and the first push or read is undefined. -/
theorem C04_fails_longest (d : α) (junk : Nat → α) : PushAndPop.mkDyn .debug 4294967295 junk = .throw .outOfRange ∧
    ∃ s, PushAndPop.mkDyn .release 4294967295 junk = .ok s ∧ runOps (PushAndPop.step .release) s [.push d] = none ∧
      runOps (PushAndPop.step .release) s [.get 0] = none := by
  refine ⟨by simp [PushAndPop.mkDyn, assertThrow], ⟨[], 0, 0, 0⟩, by simp [PushAndPop.mkDyn], ?_, ?_⟩
  · simp [runOps, PushAndPop.step, PushAndPop.pushBack, PushAndPop.incr, Arr.set, Arr.rawSet, Res.bind, intMax, u64]
  · simp [runOps, PushAndPop.step, PushAndPop.get, Res.bind]

/-- **C04 fails** for a growing `resize` too: the queue keeps reporting elements although their
values were lost, in both build modes. -/
theorem C04_fails_resize_grow (m : Mode) :
    ∃ s0, PushAndPop.mkDyn m 1 (fun _ => 0) = .ok s0 ∧ ∃ s,
      runOps (PushAndPop.step m) s0 [.push 5, .resize 4 (fun _ => 0), .size, .get 0] =
        some (s, [.ok .unit, .ok .unit, .ok (.num 1), .ok (.val 0)]) := by
  cases m <;>
  exact ⟨_, rfl, ⟨[0, 0, 0, 0, 0], 5, 1, 0⟩, by decide⟩

/-- **C04 fails** for the default constructor: the first push is undefined in release builds and the
first read is undefined in both. -/
theorem C04_fails_default (d : α) (m : Mode) (i : Int) :
    runOps (PushAndPop.step .release) PushAndPop.mkDynDefault [.push d] = none ∧
      runOps (PushAndPop.step m) (PushAndPop.mkDynDefault : PushAndPop α) [.get i] = none := by
  constructor
  · simp [runOps, PushAndPop.step, PushAndPop.pushBack, PushAndPop.incr, PushAndPop.mkDynDefault,
      Arr.set, Arr.rawSet, Res.bind, intMax, u64]
  · simp [runOps, PushAndPop.step, PushAndPop.get, PushAndPop.mkDynDefault, Res.bind]

/-- **C03, C04**: the size allocated is one more than the capacity asked for, and no call but `resize` changes it. -/
theorem C04_allocated (m : Mode) (n : Nat) (hn : n + 1 < 4294967296) (junk : Nat → α) (s : PushAndPop α) :
    (PushAndPop.mkFixed n junk : PushAndPop α).asize = n + 1 ∧
    (∀ s0, PushAndPop.mkDyn m n junk = .ok s0 → s0.asize = n + 1) ∧
    (∀ s', PushAndPop.resize m s n junk = .ok s' () → s'.asize = n + 1) ∧
    ∀ op s' o, (∀ k j, op ≠ PushAndPop.Op.resize k j) → PushAndPop.step m s op = .ok s' o → s'.asize = s.asize := by
  have hmod : (n + 1) % 4294967296 = n + 1 := Nat.mod_eq_of_lt hn
  refine ⟨?_, ?_, ?_, ?_⟩
  · simp [PushAndPop.asize, PushAndPop.mkFixed, hmod]
  · intro s0 h
    unfold PushAndPop.mkDyn at h
    cases m <;> simp [assertThrow, hmod, bind, Outcome.bind] at h <;> subst h <;> rfl
  · intro s' h
    unfold PushAndPop.resize at h
    cases m <;> simp [assertThrow, hmod] at h <;> subst h <;> rfl
  · intro op s' o hop h
    have bindOk : ∀ {β γ : Type} (r : Res (PushAndPop α) β) (f : PushAndPop α → β → Res (PushAndPop α) γ) (c : γ),
        r.bind f = .ok s' c → ∃ s1 b, r = .ok s1 b ∧ f s1 b = .ok s' c := by
      intro β γ r f c h
      cases r <;> simp [Res.bind] at h
      exact ⟨_, _, rfl, h⟩
    cases op with
    | resize k j => exact absurd rfl (hop k j)
    | size => simp [PushAndPop.step] at h; rw [← h.1]
    | clear => simp [PushAndPop.step] at h; rw [← h.1]; rfl
    | push d =>
      obtain ⟨s1, b, h1, h2⟩ := bindOk _ _ _ h
      obtain ⟨rfl, -⟩ : s1 = s' ∧ _ := by simpa using h2
      unfold PushAndPop.pushBack at h1
      (repeat' split at h1) <;> simp at h1 <;> rw [← h1] <;> rfl
    | pop =>
      obtain ⟨s1, b, h1, h2⟩ := bindOk _ _ _ h
      obtain ⟨rfl, -⟩ : s1 = s' ∧ _ := by simpa using h2
      unfold PushAndPop.popFront at h1
      (repeat' split at h1) <;> simp at h1 <;> rw [← h1.1] <;> rfl
    | get i =>
      obtain ⟨s1, b, h1, h2⟩ := bindOk _ _ _ h
      obtain ⟨rfl, -⟩ : s1 = s' ∧ _ := by simpa using h2
      unfold PushAndPop.get at h1
      (repeat' split at h1) <;> simp at h1 <;> rw [← h1.1]
    | fill v =>
      obtain ⟨s1, b, h1, h2⟩ := bindOk _ _ _ h
      obtain ⟨rfl, -⟩ : s1 = s' ∧ _ := by simpa using h2
      unfold PushAndPop.fill at h1
      (repeat' split at h1) <;> simp at h1 <;> rw [← h1] <;> rfl

example : (PushAndPop.mkFixed 3 (fun _ => 0) : PushAndPop Nat).asize = 4 := by decide

end Ecl.Props
