import Verif.Spec.Tables
import Verif.Props.C101_ContainerFormatters

/-!
# C102: formatters of matrices and of bytes
-/
set_option autoImplicit false
set_option linter.unusedSimpArgs false

namespace Ecl.Props.C102
open Ecl Ecl.Form Ecl.Spec
open Ecl.Conv (fixedText fixedText_numeral)
open Ecl.Props.C101 (WidthOk)
variable {V : Type}

/-! ## Matrices -/

/-- The calls that are handled as the reader expects: no matrix without settings is given while one with temporary
settings waits; precisions are at most 20; numbers have at most 29 characters. -/
def Fine (printf : Nat → V → List Char) (s : MatView V) : Mat.Op V → Prop
  | .precision p => p ≤ 20
  | .width w => WidthOk w
  | .item _ => ∀ c t, s.pending ≠ some (c, some t)
  | .itemWP _ w p => p ≤ 20 ∧ WidthOk w
  | .stream => ∀ c tmp, s.pending = some (c, tmp) → ∀ r ∈ c, ∀ v ∈ r, (printf (tmp.getD (s.w, s.p)).2 v).length ≤ 29

def FineAll (printf : Nat → V → List Char) : MatView V → List (Mat.Op V) → Prop
  | _, [] => True
  | s, op :: ops => Fine printf s op ∧ FineAll printf (s.next op) ops

/-- A format at rest with the given width and precision. -/
def At (f : Float.State V) (w : Int) (p : Nat) : Prop :=
  f.useTmp = false ∧ f.item = none ∧ ∃ a, f.prm = ⟨w, p, a, .fixed⟩ ∧ (a = .right ∨ a = .no ∧ w ≤ 0)

theorem At.precision (m : Mode) (printf : Nat → V → Text) {f : Float.State V} {w : Int} {q p : Nat} (h : At f w q) (hp : p ≤ 20) :
    At (Cont.set m printf f (.precision p)) w p := by
  obtain ⟨h1, h2, a, h3, h4⟩ := h
  refine ⟨?_, ?_, a, ?_, h4⟩ <;>
    simp [Cont.set, Float.step, Float.State.setCur, Float.State.cur, h1, h2, h3, C101.s32_small hp]

theorem At.width (m : Mode) (printf : Nat → V → Text) {f : Float.State V} {w : Int} {p : Nat} (h : At f w p) (w' : Int) :
    At (Cont.set m printf f (.width w')) w' p := by
  obtain ⟨h1, h2, a, h3, h4⟩ := h
  refine ⟨?_, ?_, Float.widthRule w' a, ?_, ?_⟩
  rotate_right
  · unfold Float.widthRule
    split
    · exact .inl rfl
    · rename_i hn
      rcases h4 with rfl | ⟨rfl, _⟩
      · exact .inl rfl
      · exact .inr ⟨rfl, by simpa using hn⟩
  all_goals simp [Cont.set, Float.step, Float.State.setCur, Float.State.cur, h1, h2, h3]

theorem At.cur {f : Float.State V} {w : Int} {p : Nat} (h : At f w p) : f.cur.precision = p ∧ f.cur.width = w := by
  obtain ⟨h1, h2, a, h3, h4⟩ := h
  simp [Float.State.cur, h1, h3]

theorem printRow_ok (m : Mode) (printf : Nat → V → Text) (w : Int) (p : Nat) (hw : WidthOk w) (hp : p ≤ 20)
    (f : Float.State V) (hf : At f w p) : ∀ r : List V, (∀ v ∈ r, (printf p v).length ≤ 29) →
    ∃ t, Mat.printRow m printf f r = .ok f t ∧ ShownRow printf p w r t
  | [], _ => ⟨[], rfl, [], rfl, List.Forall₂.nil⟩
  | v :: vs, hl => by
    obtain ⟨h1, h2, a, h3, h4⟩ := hf
    obtain ⟨t, g1, g2, g3⟩ := print_one m printf f w p a v h3 h1 hw hp (hl v (by simp))
    have hfi : ({ f with item := none } : Float.State V) = f := by cases f; simp at h2; simp [h2]
    rw [hfi] at g2
    obtain ⟨ts, k1, cells, k2, k3⟩ := printRow_ok m printf w p hw hp f ⟨h1, h2, a, h3, h4⟩ vs (fun v h => hl v (by simp [h]))
    refine ⟨t ++ "  ".toList ++ ts, by simp only [Mat.printRow, g1, g2, k1], t :: cells, by simp [k2], List.Forall₂.cons ?_ k3⟩
    rcases h4 with rfl | ⟨rfl, h5⟩
    · exact g3
    · obtain ⟨l, r, e, rfl, rfl⟩ := g3
      refine ⟨0, 0, e, rfl, ?_⟩
      rw [e]
      simp
      omega

theorem printRows_ok (m : Mode) (printf : Nat → V → Text) (one : Bool) (w : Int) (p : Nat) (hw : WidthOk w) (hp : p ≤ 20)
    (f : Float.State V) (hf : At f w p) : ∀ c : List (List V), (∀ r ∈ c, ∀ v ∈ r, (printf p v).length ≤ 29) →
    ∃ lines, Mat.printRows m printf one f c =
        .ok f (if one then lines.flatten else (lines.map fun l => l ++ "\n".toList).flatten) ∧
      List.Forall₂ (ShownRow printf p w) c lines
  | [], _ => ⟨[], by cases one <;> rfl, List.Forall₂.nil⟩
  | r :: rs, hl => by
    obtain ⟨t, h1, h2⟩ := printRow_ok m printf w p hw hp f hf r (hl r (by simp))
    obtain ⟨lines, h3, h4⟩ := printRows_ok m printf one w p hw hp f hf rs (fun r h => hl r (by simp [h]))
    refine ⟨t :: lines, ?_, List.Forall₂.cons h2 h4⟩
    simp only [Mat.printRows, h1, h3]
    cases one <;> simp

theorem shown (m : Mode) (printf : Nat → V → Text) (w : Int) (p : Nat) (hw : WidthOk w) (hp : p ≤ 20)
    (f : Float.State V) (hf : At f w p) (c : List (List V)) (hl : ∀ r ∈ c, ∀ v ∈ r, (printf p v).length ≤ 29) :
    ∃ t, Mat.printRows m printf (c.length == 1) f c = .ok f t ∧ ShownMatrix printf p w c t := by
  obtain ⟨lines, h1, h2⟩ := printRows_ok m printf (c.length == 1) w p hw hp f hf c hl
  refine ⟨_, h1, lines, h2, ?_⟩
  simp

def Rel (s : Mat.State V) (v : MatView V) : Prop :=
  v.p ≤ 20 ∧ WidthOk v.w ∧ At s.format v.w v.p ∧
  match v.pending with
  | none => s.ready = false ∧ s.tmp = none
  | some (c, tmp) => s.ready = true ∧ s.matrix = some c ∧ s.tmp = tmp ∧ ∀ t, tmp = some t → t.2 ≤ 20 ∧ WidthOk t.1

theorem step_rel (m : Mode) (printf : Nat → V → Text) (s : Mat.State V) (v : MatView V) (op : Mat.Op V) (h : Rel s v)
    (hf : Fine printf v op) :
    ∃ s' o, (Mat.step m printf s op).obs = some (s', o) ∧ v.Writes m printf op o ∧ Rel s' (v.next op) := by
  obtain ⟨hp, hw, ha, hm⟩ := h
  cases op with
  | precision p => exact ⟨{ s with format := Cont.set m printf s.format (.precision p) }, .ok [], rfl, rfl, hf, hw, ha.precision m printf hf, hm⟩
  | width w => exact ⟨{ s with format := Cont.set m printf s.format (.width w) }, .ok [], rfl, rfl, hp, hf, ha.width m printf w, hm⟩
  | item c =>
    refine ⟨{ s with matrix := some c, ready := true }, .ok [], rfl, rfl, hp, hw, ha, rfl, rfl, ?_, by simp⟩
    rcases hv : v.pending with _ | ⟨c', _ | t⟩ <;> rw [hv] at hm
    · exact hm.2
    · exact hm.2.2.1
    · exact absurd hv (hf c' t)
  | itemWP c w p =>
    refine ⟨{ s with matrix := some c, tmp := some (w, p), ready := true }, .ok [], rfl, rfl, hp, hw, ha, rfl, rfl, rfl, ?_⟩
    rintro t h
    cases h
    exact hf
  | stream =>
    rcases hv : v.pending with _ | ⟨c, tmp⟩ <;> rw [hv] at hm
    · cases m with
      | debug =>
        refine ⟨s, .error .usageError, by simp [Mat.step, hm.1, Res.obs], by simp [MatView.Writes, hv], hp, hw, ha, hm⟩
      | release =>
        refine ⟨s, .ok [], by simp [Mat.step, hm.1, Res.obs], by simp [MatView.Writes, hv], hp, hw, ha, hm⟩
    · obtain ⟨h1, h2, h3, h4⟩ := hm
      have hl := hf c tmp hv
      have hng : ¬ (m = .debug ∧ (s.matrix.isNone = true ∨ s.ready = false)) := by simp [h1, h2]
      cases tmp with
      | none =>
        obtain ⟨t, k1, k2⟩ := shown m printf v.w v.p hw hp s.format ha c hl
        refine ⟨{ s with tmp := none, ready := false }, .ok t, ?_, ?_, hp, hw, ha, rfl, rfl⟩
        · rw [h1, h2] at hng
          simp only [Mat.step, h1, h2, h3, if_true, k1]
          rw [if_neg hng, Res.obs]
        · simp only [MatView.Writes, hv]
          exact ⟨t, rfl, k2⟩
      | some tt =>
        obtain ⟨tw, tp⟩ := tt
        obtain ⟨g1, g2⟩ := h4 _ rfl
        have ha2 : At (Cont.set m printf (Cont.set m printf s.format (.precision tp)) (.width tw)) tw tp := (ha.precision m printf g1).width m printf tw
        obtain ⟨t, k1, k2⟩ := shown m printf tw tp g2 g1 _ ha2 c hl
        refine ⟨{ s with
            format := Cont.set m printf (Cont.set m printf (Cont.set m printf (Cont.set m printf s.format (.precision tp))
              (.width tw)) (.precision v.p)) (.width v.w)
            tmp := none
            ready := false }, .ok t, ?_, ?_, hp, hw, (ha2.precision m printf hp).width m printf v.w, rfl, rfl⟩
        · rw [h1, h2] at hng
          simp only [Mat.step, h1, h2, h3, if_true, k1, ha.cur.1, ha.cur.2, Int.toNat_natCast]
          rw [if_neg hng, Res.obs]
        · simp only [MatView.Writes, hv]
          exact ⟨t, rfl, k2⟩

end Ecl.Props.C102

namespace Ecl.Props
open Ecl Ecl.Form Ecl.Spec Ecl.Props.C102
open Ecl.Conv (fixedText fixedText_numeral)
open Ecl.Props.C101 (WidthOk)
variable {V : Type}

/-- **C102** (partial): what a new formatter of matrices writes in any sequence of careful calls, in both builds: every
matrix is shown in the temporary or the permanent settings that hold for it, and the permanent ones hold again
afterwards.  Missing: a matrix without settings given while one with temporary settings waits, see below. -/
theorem C102_matrices_partial (m : Mode) (printf : Nat → V → List Char) (p : Nat) (w : Int) (hp : p ≤ 20) (hw : WidthOk w)
    (ops : List (Mat.Op V)) (hf : FineAll printf ⟨p, w, none⟩ ops) :
    ∃ s obs, runOps (Mat.step m printf) (Mat.State.new m printf w p) ops = some (s, obs) ∧
      MatView.History m printf ⟨p, w, none⟩ ops obs := by
  have gen : ∀ (ops : List (Mat.Op V)) (s : Mat.State V) (v : MatView V), Rel s v → FineAll printf v ops →
      ∃ s' obs, runOps (Mat.step m printf) s ops = some (s', obs) ∧ v.History m printf ops obs := by
    intro ops
    induction ops with
    | nil => intro s v _ _; exact ⟨s, [], rfl, trivial⟩
    | cons op ops ih =>
      intro s v hR hF
      obtain ⟨s1, o, h1, h2, h3⟩ := step_rel m printf s v op hR hF.1
      obtain ⟨s2, os, h4, h5⟩ := ih s1 _ h3 hF.2
      refine ⟨s2, o :: os, ?_, h2, h5⟩
      rw [runOps_cons, h1]
      simp [h4]
  refine gen ops _ _ ⟨hp, hw, ?_, rfl, rfl⟩ hf
  have h0 : At (Float.State.new (-1) 4 .no .fixed : Float.State V) (-1) 4 := ⟨rfl, rfl, .no, rfl, .inr ⟨rfl, by omega⟩⟩
  exact (h0.width m printf w).precision m printf hp

private def run (m : Mode) (w : Int) (p : Nat) (ops : List (Mat.Op ℚ)) : Option (List (Obs String)) :=
  (runOps (Mat.step m fixedText) (Mat.State.new m fixedText w p) ops).map fun r => r.2.map fun o => o.map String.ofList

example : run .debug 5 1 [.itemWP [[1, -2], [3, 4]] 2 0, .precision 2, .stream, .item [[1, 10]], .stream] =
    some [.ok "", .ok "", .ok " 1  -2  \n 3   4  \n", .ok "", .ok " 1.00  10.00  "] := by decide +kernel

example : FineAll fixedText ⟨1, 5, none⟩ [.itemWP [[1, -2], [3, 4]] 2 0, .precision 2, .stream, .item [[1, 10]], .stream] := by
  refine ⟨⟨by omega, by simp [WidthOk]⟩, by simp [Fine], ?_, by simp [Fine, MatView.next], ?_, trivial⟩
  all_goals
    intro c tmp h
    cases h
    decide +kernel

/-- **C102** fails: a matrix given without settings is shown with the temporary ones of the matrix given before it and not
streamed. -/
theorem C102_fails_stale_settings :
    run .debug 5 1 [.itemWP [[7]] 2 0, .item [[1, 2]], .stream] = some [.ok "", .ok "", .ok " 1   2  "] := by decide +kernel

/-- **C102** fails: in the default settings columns are not aligned. -/
theorem C102_fails_columns :
    run .debug (-1) 2 [.item [[1, 2], [-10, 2]], .stream] = some [.ok "", .ok "1.00  2.00  \n-10.00  2.00  \n"] := by
  decide +kernel

/-! ## Bytes -/

/-- **C102** (partial): once bytes were given, streaming shows the bytes given last, in both builds; before that it
is an error in a debug build.  Missing: streaming twice is no error, see below. -/
theorem C102_bytes_partial (m : Mode) (ops : List Bytes.Op) (bs : List Int) :
    (∃ s obs out, runOps (Bytes.step m) Bytes.State.new (.item bs :: ops ++ [.stream]) = some (s, obs ++ [.ok out]) ∧
      ShownBytes ((ops.reverse.findSome? fun op => match op with | .item b => some b | .stream => none).getD bs) out) ∧
    Bytes.step .debug .new .stream = .throw .new .usageError := by
  refine ⟨?_, rfl⟩
  have bytes : ∀ bs, ShownBytes bs ("[ ".toList ++ (bs.map fun b => hexText 1 b ++ " ".toList).flatten ++ "]".toList) := by
    intro bs
    refine ⟨bs.map (hexText 1), by simp [List.map_map, Function.comp_def], ?_⟩
    induction bs with
    | nil => exact List.Forall₂.nil
    | cons b bs ih => exact List.Forall₂.cons (hexText_spec 1 b) ih
  have gen : ∀ (ops : List Bytes.Op) (bs : List Int), ∃ s obs out,
      runOps (Bytes.step m) ⟨some bs, true⟩ (ops ++ [.stream]) = some (s, obs ++ [.ok out]) ∧
      ShownBytes ((ops.reverse.findSome? fun op => match op with | .item b => some b | .stream => none).getD bs) out := by
    intro ops
    induction ops with
    | nil => intro bs; exact ⟨⟨some bs, true⟩, [], _, by simp [runOps, Bytes.step], bytes bs⟩
    | cons op ops ih =>
      intro bs
      cases op with
      | item b =>
        obtain ⟨s, obs, out, h1, h2⟩ := ih b
        refine ⟨s, .ok [] :: obs, out, ?_, ?_⟩
        · simp [runOps_cons, Bytes.step, Res.obs, h1]
        · rw [List.reverse_cons, List.findSome?_append]
          cases hx : ops.reverse.findSome? _ <;> rw [hx] at h2 <;> simpa using h2
      | stream =>
        obtain ⟨s, obs, out, h1, h2⟩ := ih bs
        refine ⟨s, .ok ("[ ".toList ++ (bs.map fun b => hexText 1 b ++ " ".toList).flatten ++ "]".toList) :: obs, out, ?_, ?_⟩
        rotate_left
        · rw [List.reverse_cons, List.findSome?_append]
          cases hx : ops.reverse.findSome? _ <;> rw [hx] at h2 <;> simpa using h2
        · simp [runOps_cons, Bytes.step, Res.obs, h1]
  obtain ⟨s, obs, out, h1, h2⟩ := gen ops bs
  exact ⟨s, .ok [] :: obs, out, by simp [runOps_cons, Bytes.step, Res.obs, h1], h2⟩

private def runB (m : Mode) (ops : List Bytes.Op) : Option (List (Obs String)) :=
  (runOps (Bytes.step m) .new ops).map fun r => r.2.map fun o => o.map String.ofList

example : runB .debug [.item [1, -1, 160], .stream] = some [.ok "", .ok "[ 0x01 0xff 0xa0 ]"] := by decide +kernel

/-- **C102** fails: using a formatter twice in one streaming operation is announced as an error, but is not noticed:
whichever container was given last is shown twice. -/
theorem C102_fails_twice (m : Mode) :
    runB m [.item [1], .item [2], .stream, .stream] = some [.ok "", .ok "", .ok "[ 0x02 ]", .ok "[ 0x02 ]"] := by
  cases m <;> decide +kernel

/-- **C102** fails: in a release build a formatter that was given nothing reads bytes from nowhere. -/
theorem C102_fails_nothing : runB .release [.stream] = none := by decide

end Ecl.Props
