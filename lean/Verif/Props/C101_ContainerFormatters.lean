import Verif.Lemmas.ContainerFormatter
import Verif.Lemmas.FloatConverter

/-!
# C101: formatters of containers of floating point numbers
-/
set_option autoImplicit false
set_option linter.unusedSimpArgs false

namespace Ecl.Props.C101
open Ecl Ecl.Form Ecl.Spec
open Ecl.Conv (fixedText fixedText_numeral)
variable {V : Type}

/-- Widths for which no padding overflows. -/
def WidthOk (w : Int) : Prop := -2147483600 ≤ w ∧ w ≤ 2147483647

/-- The calls that are handled as the reader expects: while a container with temporary settings waits, only
`width` is called and the container is streamed; precisions are at most 20; numbers have at most 29 characters; in a
chosen width there is at least one number and their texts are decimal numerals of their values. -/
def Fine (val : V → ℚ) (printf : Nat → V → List Char) (s : RowView V) (op : Cont.Op V) : Prop :=
  (∀ c t, s.pending = some (c, some t) → (∃ w, op = .width w) ∨ op = .stream) ∧
  match op with
  | .precision p => p ≤ 20
  | .width w => WidthOk w
  | .setPW p w => p ≤ 20 ∧ WidthOk w
  | .item _ => True
  | .itemPW _ p w => p ≤ 20 ∧ WidthOk w
  | .stream => ∀ c tmp, s.pending = some (c, tmp) →
      (∀ v ∈ c, (printf (tmp.getD (s.p, s.w)).1 v).length ≤ 29) ∧ ((tmp.getD (s.p, s.w)).2 = -1 →
        c ≠ [] ∧ ∀ v ∈ c, FixedNumeral (tmp.getD (s.p, s.w)).1 (val v) (printf (tmp.getD (s.p, s.w)).1 v))

def FineAll (val : V → ℚ) (printf : Nat → V → List Char) : RowView V → List (Cont.Op V) → Prop
  | _, [] => True
  | s, op :: ops => Fine val printf s op ∧ FineAll val printf (s.next op) ops

/-! ## Lemmas -/

theorem s32_small {p : Nat} (h : p ≤ 20) : s32 p = p := by
  unfold s32; split <;> omega

theorem set_precision (m : Mode) (printf : Nat → V → Text) (f : Float.State V) {fw : Int} {q : Int} {p : Nat}
    (hf : f.prm = ⟨fw, q, .right, .fixed⟩) (hu : f.useTmp = false) (hp : p ≤ 20) :
    Cont.set m printf f (.precision p) = { f with prm := ⟨fw, p, .right, .fixed⟩ } := by
  simp [Cont.set, Float.step, Float.State.setCur, Float.State.cur, hu, hf, s32_small hp]

theorem set_width (m : Mode) (printf : Nat → V → Text) (f : Float.State V) {fw : Int} {q : Int} (w : Int)
    (hf : f.prm = ⟨fw, q, .right, .fixed⟩) (hu : f.useTmp = false) :
    Cont.set m printf f (.width w) = { f with prm := ⟨w, q, .right, .fixed⟩ } := by
  simp [Cont.set, Float.step, Float.State.setCur, Float.State.cur, hu, hf, Float.widthRule]

/-- The width that is used, and what is shown with it. -/
theorem shown (m : Mode) (val : V → ℚ) (printf : Nat → V → Text)
    (p : Nat) (h20 : p ≤ 20) (w : Int) (hw : WidthOk w) (c : List V) (hc : w = -1 → c ≠ [] ∧ ∀ v ∈ c, FixedNumeral p (val v) (printf p v))
    (hl : ∀ v ∈ c, (printf p v).length ≤ 29) (f : Float.State V) (fw : Int) (hf : f.prm = ⟨fw, p, .right, .fixed⟩)
    (hu : f.useTmp = false) (hi : f.item = none) :
    ∃ u t, Cont.chosen val f.cur.precision w c = .ok u ∧
      Cont.printAll m printf (Cont.set m printf f (.width u)) c = .ok { f with prm := ⟨u, p, .right, .fixed⟩ } t ∧
      ShownContainer printf p w c ("[ ".toList ++ t ++ "]".toList) := by
  have hcur : f.cur.precision = p := by simp [Float.State.cur, hu, hf]
  by_cases h1 : w = -1
  · cases c with
    | nil => exact absurd rfl (hc h1).1
    | cons x xs =>
      obtain ⟨g1, g2, g3⟩ := digits_fits val printf p x xs (hc h1).2 hl
      obtain ⟨u, hu'⟩ := Int.eq_ofNat_of_zero_le g2
      rw [hu'] at g1 g3
      obtain ⟨cells, h2, h3⟩ := printAll_ok m printf u p (by omega) h20 (x :: xs)
        { f with prm := ⟨u, p, .right, .fixed⟩ } rfl hu hi hl
      refine ⟨u, _, by rw [Cont.chosen, if_pos h1, hcur]; simp only [hu'], by rw [set_width m printf f u hf hu]; exact h2, cells, rfl, ?_⟩
      rw [if_pos h1]
      refine ⟨u, h3, ?_⟩
      intro t ht
      have : ∀ (c : List V) (cells : List (List Char)), Cells printf p u c cells → (∀ v ∈ c, ((printf p v).length : Int) ≤ u) →
          ∀ t ∈ cells, t.length = u := by
        intro c cells hcs
        induction hcs with
        | nil => intro _ t ht; simp at ht
        | cons hab _ ih =>
          intro hle t ht
          rcases List.mem_cons.1 ht with rfl | ht
          · obtain ⟨l, r, _, _, hlen⟩ := hab
            have := hle _ List.mem_cons_self
            omega
          · exact ih (fun v hv => hle v (List.mem_cons_of_mem _ hv)) t ht
      exact this _ _ h3 g1 t ht
  · obtain ⟨cells, h2, h3⟩ := printAll_ok m printf w p hw h20 c { f with prm := ⟨w, p, .right, .fixed⟩ } rfl hu hi hl
    refine ⟨w, _, by simp [Cont.chosen, h1], by rw [set_width m printf f w hf hu]; exact h2, cells, rfl, ?_⟩
    rw [if_neg h1]
    exact h3

/-- The relation between a formatter and the reader's view. -/
def Rel (s : Cont.State V) (v : RowView V) : Prop :=
  v.p ≤ 20 ∧ WidthOk v.w ∧ s.prmWidth = v.w ∧ s.format.useTmp = false ∧ s.format.item = none ∧
  match v.pending with
  | none => (∃ fw, s.format.prm = ⟨fw, v.p, .right, .fixed⟩) ∧ s.ready = false ∧ s.useTmp = false ∧ s.oldPrecision = -1
  | some (c, none) =>
    (∃ fw, s.format.prm = ⟨fw, v.p, .right, .fixed⟩) ∧ s.ready = true ∧ s.container = some c ∧ s.useTmp = false ∧
      s.oldPrecision = -1
  | some (c, some (p, w)) =>
    (∃ fw, s.format.prm = ⟨fw, p, .right, .fixed⟩) ∧ s.ready = true ∧ s.container = some c ∧ s.useTmp = true ∧
      s.oldPrecision = v.p ∧ s.tmpWidth = w ∧ p ≤ 20 ∧ WidthOk w

theorem step_rel (val : V → ℚ) (printf : Nat → V → Text)
    (s : Cont.State V) (v : RowView V) (op : Cont.Op V) (h : Rel s v) (hf : Fine val printf v op) :
    ∃ s' o, (Cont.step .debug val printf s op).obs = some (s', o) ∧ v.Writes printf op o ∧ Rel s' (v.next op) := by
  obtain ⟨hvp, hvw, hw, hu, hi, hm⟩ := h
  obtain ⟨hf1, hf2⟩ := hf
  cases op with
  | precision p =>
    refine ⟨{ s with format := Cont.set .debug printf s.format (.precision p) }, .ok [], rfl, rfl, ?_⟩
    rcases hv : v.pending with _ | ⟨c, _ | ⟨tp, tw⟩⟩
    · rw [hv] at hm
      obtain ⟨⟨fw, h1⟩, h2⟩ := hm
      refine ⟨hf2, hvw, hw, ?_⟩
      rw [set_precision _ printf s.format h1 hu hf2]
      simp only [RowView.next, hv]
      exact ⟨hu, hi, ⟨fw, rfl⟩, h2⟩
    · rw [hv] at hm
      obtain ⟨⟨fw, h1⟩, h2⟩ := hm
      refine ⟨hf2, hvw, hw, ?_⟩
      rw [set_precision _ printf s.format h1 hu hf2]
      simp only [RowView.next, hv]
      exact ⟨hu, hi, ⟨fw, rfl⟩, h2⟩
    · rcases hf1 c (tp, tw) hv with ⟨w, h⟩ | h <;> cases h
  | width w =>
    refine ⟨{ s with prmWidth := w }, .ok [], rfl, rfl, hvp, hf2, rfl, hu, hi, hm⟩
  | setPW p w =>
    refine ⟨{ s with format := Cont.set .debug printf s.format (.precision p), prmWidth := w }, .ok [], rfl, rfl, ?_⟩
    rcases hv : v.pending with _ | ⟨c, _ | ⟨tp, tw⟩⟩
    · rw [hv] at hm
      obtain ⟨⟨fw, h1⟩, h2⟩ := hm
      refine ⟨hf2.1, hf2.2, rfl, ?_⟩
      rw [set_precision _ printf s.format h1 hu hf2.1]
      simp only [RowView.next, hv]
      exact ⟨hu, hi, ⟨fw, rfl⟩, h2⟩
    · rw [hv] at hm
      obtain ⟨⟨fw, h1⟩, h2⟩ := hm
      refine ⟨hf2.1, hf2.2, rfl, ?_⟩
      rw [set_precision _ printf s.format h1 hu hf2.1]
      simp only [RowView.next, hv]
      exact ⟨hu, hi, ⟨fw, rfl⟩, h2⟩
    · rcases hf1 c (tp, tw) hv with ⟨w, h⟩ | h <;> cases h
  | item c =>
    refine ⟨{ s with container := some c, ready := true }, .ok [], rfl, rfl, hvp, hvw, hw, hu, hi, ?_⟩
    rcases hv : v.pending with _ | ⟨c', _ | ⟨tp, tw⟩⟩
    · rw [hv] at hm
      exact ⟨hm.1, rfl, rfl, hm.2.2⟩
    · rw [hv] at hm
      exact ⟨hm.1, rfl, rfl, hm.2.2.2⟩
    · rcases hf1 c' (tp, tw) hv with ⟨w, h⟩ | h <;> cases h
  | itemPW c p w =>
    refine ⟨{ s with container := some c, ready := true, oldPrecision := s.format.cur.precision,
                     format := Cont.set .debug printf s.format (.precision p), tmpWidth := w, useTmp := true },
      .ok [], rfl, rfl, hvp, hvw, hw, ?_⟩
    rcases hv : v.pending with _ | ⟨c', _ | ⟨tp, tw⟩⟩
    · rw [hv] at hm
      obtain ⟨⟨fw, h1⟩, h2⟩ := hm
      rw [set_precision _ printf s.format h1 hu hf2.1]
      exact ⟨hu, hi, ⟨fw, rfl⟩, rfl, rfl, rfl, by simp [Float.State.cur, hu, h1, RowView.next], rfl, hf2.1, hf2.2⟩
    · rw [hv] at hm
      obtain ⟨⟨fw, h1⟩, h2⟩ := hm
      rw [set_precision _ printf s.format h1 hu hf2.1]
      exact ⟨hu, hi, ⟨fw, rfl⟩, rfl, rfl, rfl, by simp [Float.State.cur, hu, h1, RowView.next], rfl, hf2.1, hf2.2⟩
    · rcases hf1 c' (tp, tw) hv with ⟨w, h⟩ | h <;> cases h
  | stream =>
    rcases hv : v.pending with _ | ⟨c, _ | ⟨tp, tw⟩⟩
    · rw [hv] at hm
      refine ⟨s, .error .usageError, by simp [Cont.step, hm.2.1, Res.obs], by simp [RowView.Writes, hv], hvp, hvw, hw, hu, hi, ?_⟩
      simp only [RowView.next]
      exact hm
    · rw [hv] at hm
      obtain ⟨⟨fw, h1⟩, h2, h3, h4, h5⟩ := hm
      obtain ⟨g1, g2⟩ := hf2 c none hv
      simp only [Option.getD_none] at g1 g2
      obtain ⟨u, t, k1, k2, k3⟩ := shown .debug val printf v.p hvp v.w hvw c g2 g1 s.format fw h1 hu hi
      refine ⟨{ s with format := { s.format with prm := ⟨u, v.p, .right, .fixed⟩ }, ready := false },
        .ok ("[ ".toList ++ t ++ "]".toList), ?_, ?_, hvp, hvw, hw, hu, hi,
        ⟨u, rfl⟩, rfl, h4, h5⟩
      rotate_left
      · simp only [RowView.Writes, hv]
        exact ⟨_, rfl, k3⟩
      · simp only [Cont.step, h2, h3, h4, hw]
        rw [if_neg (by simp)]
        simp only [Bool.false_eq_true, if_false]
        rw [k1]
        simp only [k2, h5, ne_eq, not_true_eq_false, if_false, Res.obs]
    · rw [hv] at hm
      obtain ⟨⟨fw, h1⟩, h2, h3, h4, h5, h6, h7, h8⟩ := hm
      obtain ⟨g1, g2⟩ := hf2 c (some (tp, tw)) hv
      simp only [Option.getD_some] at g1 g2
      obtain ⟨u, t, k1, k2, k3⟩ := shown .debug val printf tp h7 tw h8 c g2 g1 s.format fw h1 hu hi
      refine ⟨{ s with format := { s.format with prm := ⟨u, v.p, .right, .fixed⟩ }, oldPrecision := -1, useTmp := false, ready := false },
        .ok ("[ ".toList ++ t ++ "]".toList), ?_, ?_, hvp, hvw, hw, hu, hi, ⟨u, rfl⟩, rfl, rfl, rfl⟩
      rotate_left
      · simp only [RowView.Writes, hv]
        exact ⟨_, rfl, k3⟩
      · simp only [Cont.step, h2, h3, h4, h6]
        rw [if_neg (by simp)]
        simp only [if_true]
        rw [k1]
        simp only [k2, h5, Int.toNat_natCast, Res.obs]
        rw [if_pos (by omega), set_precision .debug printf
          { s.format with prm := ⟨u, tp, .right, .fixed⟩ } (fw := u) (q := tp) rfl hu hvp]

end Ecl.Props.C101

/-! ## The property -/

namespace Ecl.Props
open Ecl Ecl.Form Ecl.Spec Ecl.Props.C101
open Ecl.Conv (fixedText fixedText_numeral)
variable {V : Type}

/-- **C101** (partial): what a new formatter writes in any sequence of careful calls: every container is shown in
the temporary or the permanent settings that hold for it, in brackets, the numbers with the decimals asked for and right
aligned in the width asked for, or, if none is asked for, all in the same width; streaming without a container
is an error.  Missing: calls between a container with temporary settings and its streaming, see below. -/
theorem C101_history_partial (val : V → ℚ) (printf : Nat → V → List Char) (p : Nat) (w : Int) (hp20 : p ≤ 20) (hw : WidthOk w)
    (ops : List (Cont.Op V)) (hf : FineAll val printf ⟨p, w, none⟩ ops) :
    ∃ s obs, runOps (Cont.step .debug val printf) (Cont.State.new p w) ops = some (s, obs) ∧
      RowView.History printf ⟨p, w, none⟩ ops obs := by
  have gen : ∀ (ops : List (Cont.Op V)) (s : Cont.State V) (v : RowView V), Rel s v → FineAll val printf v ops →
      ∃ s' obs, runOps (Cont.step .debug val printf) s ops = some (s', obs) ∧ v.History printf ops obs := by
    intro ops
    induction ops with
    | nil => intro s v _ _; exact ⟨s, [], rfl, trivial⟩
    | cons op ops ih =>
      intro s v hR hF
      obtain ⟨s1, o, h1, h2, h3⟩ := step_rel val printf s v op hR hF.1
      obtain ⟨s2, os, h4, h5⟩ := ih s1 _ h3 hF.2
      refine ⟨s2, o :: os, ?_, h2, h5⟩
      rw [runOps_cons, h1]
      simp [h4]
  refine gen ops _ _ ⟨hp20, hw, rfl, rfl, rfl, ⟨w, ?_⟩, rfl, rfl, rfl⟩ hf
  simp [Cont.State.new, Float.State.new, C101.s32_small hp20]

/-- The calls used in the examples: rational numbers, printed exactly rounded. -/
private def run (m : Mode) (p : Nat) (w : Int) (ops : List (Cont.Op ℚ)) : Option (List (Obs String)) :=
  (runOps (Cont.step m id fixedText) (Cont.State.new p w) ops).map fun r => r.2.map fun o => o.map String.ofList

example : run .debug 2 (-1) [.item [1, -2, 99999 / 1000], .stream, .itemPW [1, 2] 0 4, .stream, .item [1], .stream] =
    some [.ok "", .ok "[    1.00   -2.00  100.00 ]", .ok "", .ok "[    1    2 ]", .ok "", .ok "[ 1.00 ]"] := by decide +kernel

example : FineAll id fixedText ⟨2, -1, none⟩ [.item [1, -2, 99999 / 1000], .stream, .itemPW [1, 2] 0 4, .width 9, .stream] := by
  refine ⟨⟨by simp, trivial⟩, ⟨by simp, ?_⟩, ⟨by simp [RowView.next], by simp [WidthOk]⟩, ⟨by simp [RowView.next], by simp [WidthOk]⟩,
    ⟨by simp [RowView.next], ?_⟩, trivial⟩
  · intro c tmp h
    cases h
    exact ⟨by decide +kernel, fun _ => ⟨by simp, fun v _ => fixedText_numeral _ _⟩⟩
  · intro c tmp h
    cases h
    exact ⟨by decide +kernel, fun h => by simp at h⟩

/-! ## What fails -/

/-- **C101** fails: if a second container with temporary settings is given before the first one is streamed, the
permanent precision is lost: here 2, afterwards 0. -/
theorem C101_fails_two_temporaries :
    run .debug 2 5 [.itemPW [1] 0 3, .itemPW [1] 1 3, .stream, .item [1], .stream] =
      some [.ok "", .ok "", .ok "[ 1.0 ]", .ok "", .ok "[     1 ]"] := by decide +kernel

/-- **C101** fails: a precision set while temporary settings wait is lost after the next streaming, and the container
that waits is shown with it. -/
theorem C101_fails_precision_while_waiting :
    run .debug 2 5 [.itemPW [1] 0 3, .precision 1, .stream, .item [1], .stream] =
      some [.ok "", .ok "", .ok "[ 1.0 ]", .ok "", .ok "[  1.00 ]"] := by decide +kernel

/-- **C101** fails: a container given without settings is shown with the temporary ones of the container given before it
and not streamed. -/
theorem C101_fails_stale_settings :
    run .debug 2 5 [.itemPW [7] 0 3, .item [1], .stream] = some [.ok "", .ok "", .ok "[   1 ]"] := by decide +kernel

/-- **C101** fails: an empty container has no first element to choose a width from. -/
theorem C101_fails_empty (m : Mode) (val : V → ℚ) (printf : Nat → V → List Char) (p : Nat) :
    runOps (Cont.step m val printf) (Cont.State.new p (-1)) [.item [], .stream] = none := by
  cases m <;> simp [runOps, Cont.step, Cont.State.new, Cont.chosen]

/-- **C101** fails: in a release build a formatter that was given nothing is streamed from nowhere. -/
theorem C101_fails_nothing (val : V → ℚ) (printf : Nat → V → List Char) (p : Nat) (w : Int) :
    runOps (Cont.step .release val printf) (Cont.State.new p w) [.stream] = none := by
  simp [runOps, Cont.step, Cont.State.new]

/-- **C101** fails: in a release build the container is shown a second time. -/
theorem C101_fails_twice :
    run .release 2 5 [.item [1], .stream, .stream] = some [.ok "", .ok "[  1.00 ]", .ok "[  1.00 ]"] ∧
    run .debug 2 5 [.item [1], .stream, .stream] = some [.ok "", .ok "[  1.00 ]", .error .usageError] := by
  constructor <;> decide +kernel

/-- Numbers with a negative zero. -/
inductive C101.Z where
  | num (q : ℚ)
  | negZero

def C101.Z.val : Z → ℚ
  | .num q => q
  | .negZero => 0

def C101.Z.text (d : Nat) : Z → List Char
  | .num q => fixedText d q
  | .negZero => '-' :: fixedText d 0

/-- **C101** fails: a negative zero is wider than the width that is chosen, and the cells are not aligned. -/
theorem C101_fails_negative_zero :
    (runOps (Cont.step .debug Z.val Z.text) (Cont.State.new 1 (-1)) [.item [.num 1, .negZero], .stream]).map
      (fun r => r.2.map fun o => o.map String.ofList) = some [.ok "", .ok "[ 1.0 -0.0 ]"] := by decide +kernel

end Ecl.Props
