import Verif.Spec.Poses
import Verif.Props.C102_TableFormatters

/-!
# C143: the formatter of poses
-/
set_option autoImplicit false
set_option linter.unusedSimpArgs false

namespace Ecl.Props.C143
open Ecl Ecl.Form Ecl.Spec
open Ecl.Props.C101 (WidthOk)
open Ecl.Props.C102 (At)
variable {V : Type}

/-- The numbers of a pose. -/
def numbersOf (c : Rigid.SE3 V) : List V := [c.tx, c.ty, c.tz, c.qx, c.qy, c.qz, c.qw]

/-- The calls that are handled as the reader expects: no pose without settings is given while one with temporary
settings waits; precisions are at most 20; numbers have at most 29 characters. -/
def Fine (printf : Nat → V → List Char) (s : PoseView V) : Rigid.Op V → Prop
  | .precision p => p ≤ 20
  | .width w => WidthOk w
  | .item _ => ∀ c t, s.pending ≠ some (c, some t)
  | .itemWP _ w p => p ≤ 20 ∧ WidthOk w
  | .stream => ∀ c tmp, s.pending = some (c, tmp) → ∀ v ∈ numbersOf c, (printf (tmp.getD (s.w, s.p)).2 v).length ≤ 29

def FineAll (printf : Nat → V → List Char) : PoseView V → List (Rigid.Op V) → Prop
  | _, [] => True
  | s, op :: ops => Fine printf s op ∧ FineAll printf (s.next op) ops

theorem put_ok (m : Mode) (printf : Nat → V → Text) (w : Int) (p : Nat) (hw : WidthOk w) (hp : p ≤ 20)
    (f : Float.State V) (hf : At f w p) (b : String) (v : V) (a : String) (hl : (printf p v).length ≤ 29) :
    ∃ t, Rigid.put m printf f b v a = .ok f (b.toList ++ t ++ a.toList) ∧ Laid w .right (printf p v) t := by
  obtain ⟨h1, h2, al, h3, h4⟩ := hf
  obtain ⟨t, g1, g2, g3⟩ := print_one m printf f w p al v h3 h1 hw hp hl
  have hfi : ({ f with item := none } : Float.State V) = f := by cases f; simp at h2; simp [h2]
  rw [hfi] at g2
  refine ⟨t, by simp only [Rigid.put, g1, g2], ?_⟩
  rcases h4 with rfl | ⟨rfl, h5⟩
  · exact g3
  · obtain ⟨l, r, e, rfl, rfl⟩ := g3
    refine ⟨0, 0, e, rfl, ?_⟩
    rw [e]
    simp
    omega

theorem shown (m : Mode) (printf : Nat → V → Text) (w : Int) (p : Nat) (hw : WidthOk w) (hp : p ≤ 20)
    (f : Float.State V) (hf : At f w p) (c : Rigid.SE3 V) (hl : ∀ v ∈ numbersOf c, (printf p v).length ≤ 29) :
    ∃ t, Rigid.putAll m printf f (Rigid.parts c) = .ok f t ∧ ShownPose printf p w c t := by
  simp only [numbersOf, List.mem_cons, List.not_mem_nil, or_false, forall_eq_or_imp, forall_eq] at hl
  obtain ⟨l1, l2, l3, l4, l5, l6, l7⟩ := hl
  obtain ⟨t1, h1, g1⟩ := put_ok m printf w p hw hp f hf "[x:" c.tx "  " l1
  obtain ⟨t2, h2, g2⟩ := put_ok m printf w p hw hp f hf "y:" c.ty "  " l2
  obtain ⟨t3, h3, g3⟩ := put_ok m printf w p hw hp f hf "z:" c.tz "]" l3
  obtain ⟨t4, h4, g4⟩ := put_ok m printf w p hw hp f hf "[x:" c.qx "  " l4
  obtain ⟨t5, h5, g5⟩ := put_ok m printf w p hw hp f hf "y:" c.qy "  " l5
  obtain ⟨t6, h6, g6⟩ := put_ok m printf w p hw hp f hf "z:" c.qz "  " l6
  obtain ⟨t7, h7, g7⟩ := put_ok m printf w p hw hp f hf "w:" c.qw "  ]" l7
  refine ⟨_, by simp only [Rigid.parts, Rigid.putAll, h1, h2, h3, h4, h5, h6, h7]; rfl, t1, t2, t3, t4, t5, t6, t7,
    .cons g1 (.cons g2 (.cons g3 (.cons g4 (.cons g5 (.cons g6 (.cons g7 .nil)))))), ?_⟩
  simp [List.append_assoc]

def Rel (s : Rigid.State V) (v : PoseView V) : Prop :=
  v.p ≤ 20 ∧ WidthOk v.w ∧ At s.format v.w v.p ∧
  match v.pending with
  | none => s.ready = false ∧ s.tmp = none
  | some (c, tmp) => s.ready = true ∧ s.pose = some c ∧ s.tmp = tmp ∧ ∀ t, tmp = some t → t.2 ≤ 20 ∧ WidthOk t.1

theorem step_rel (m : Mode) (printf : Nat → V → Text) (s : Rigid.State V) (v : PoseView V) (op : Rigid.Op V) (h : Rel s v)
    (hf : Fine printf v op) :
    ∃ s' o, (Rigid.step m printf s op).obs = some (s', o) ∧ v.Writes m printf op o ∧ Rel s' (v.next op) := by
  obtain ⟨hp, hw, ha, hm⟩ := h
  cases op with
  | precision p => exact ⟨{ s with format := Cont.set m printf s.format (.precision p) }, .ok [], rfl, rfl, hf, hw, ha.precision m printf hf, hm⟩
  | width w => exact ⟨{ s with format := Cont.set m printf s.format (.width w) }, .ok [], rfl, rfl, hp, hf, ha.width m printf w, hm⟩
  | item c =>
    refine ⟨{ s with pose := some c, ready := true }, .ok [], rfl, rfl, hp, hw, ha, rfl, rfl, ?_, by simp⟩
    rcases hv : v.pending with _ | ⟨c', _ | t⟩ <;> rw [hv] at hm
    · exact hm.2
    · exact hm.2.2.1
    · exact absurd hv (hf c' t)
  | itemWP c w p =>
    refine ⟨{ s with pose := some c, tmp := some (w, p), ready := true }, .ok [], rfl, rfl, hp, hw, ha, rfl, rfl, rfl, ?_⟩
    rintro t h
    cases h
    exact hf
  | stream =>
    rcases hv : v.pending with _ | ⟨c, tmp⟩ <;> rw [hv] at hm
    · cases m with
      | debug =>
        refine ⟨s, .error .usageError, by simp [Rigid.step, hm.1, Res.obs], by simp [PoseView.Writes, hv], hp, hw, ha, hm⟩
      | release =>
        refine ⟨s, .ok [], by simp [Rigid.step, hm.1, Res.obs], by simp [PoseView.Writes, hv], hp, hw, ha, hm⟩
    · obtain ⟨h1, h2, h3, h4⟩ := hm
      have hl := hf c tmp hv
      have hng : ¬ (m = .debug ∧ (s.pose.isNone = true ∨ s.ready = false)) := by simp [h1, h2]
      cases tmp with
      | none =>
        obtain ⟨t, k1, k2⟩ := shown m printf v.w v.p hw hp s.format ha c hl
        refine ⟨{ s with tmp := none, ready := false }, .ok t, ?_, ?_, hp, hw, ha, rfl, rfl⟩
        · rw [h1, h2] at hng
          simp only [Rigid.step, h1, h2, h3, if_true, k1]
          rw [if_neg hng, Res.obs]
        · simp only [PoseView.Writes, hv]
          exact ⟨t, rfl, k2⟩
      | some tt =>
        obtain ⟨tw, tp⟩ := tt
        obtain ⟨g1, g2⟩ := h4 _ rfl
        have ha2 : At (Cont.set m printf (Cont.set m printf s.format (.precision tp)) (.width tw)) tw tp := (ha.precision m printf g1).width m printf tw
        obtain ⟨t, k1, k2⟩ := shown m printf tw tp g2 g1 _ ha2 c hl
        refine ⟨{ s with
            format := Cont.set m printf (Cont.set m printf (Cont.set m printf (Cont.set m printf s.format (.precision tp))
              (.width tw)) (.precision v.p)) (.width v.w)
            tmp := none
            ready := false }, .ok t, ?_, ?_, hp, hw, (ha2.precision m printf hp).width m printf v.w, rfl, rfl⟩
        · rw [h1, h2] at hng
          simp only [Rigid.step, h1, h2, h3, if_true, k1, ha.cur.1, ha.cur.2, Int.toNat_natCast]
          rw [if_neg hng, Res.obs]
        · simp only [PoseView.Writes, hv]
          exact ⟨t, rfl, k2⟩

/-- Two texts with a mark after a part without that mark. -/
theorem unmix {c : Char} : ∀ {a a' b b' : List Char}, c ∉ a → c ∉ a' → a ++ c :: b = a' ++ c :: b' → a = a' ∧ b = b'
  | [], [], _, _, _, _, h => ⟨rfl, by simpa using h⟩
  | [], d :: a', _, _, _, h', h => by simp at h; exact absurd h.1 (fun e => h' (by simp [e]))
  | d :: a, [], _, _, h', _, h => by simp at h; exact absurd h.1.symm (fun e => h' (by simp [e]))
  | d :: a, d' :: a', _, _, h1, h2, h => by
    simp only [List.cons_append, List.cons.injEq] at h
    obtain ⟨h3, h4⟩ := unmix (fun e => h1 (by simp [e])) (fun e => h2 (by simp [e])) h.2
    exact ⟨by rw [h.1, h3], h4⟩

/-- The text without its spaces. -/
theorem strip {printf : Nat → V → List Char} {p : Nat} {w : Int} {c : Rigid.SE3 V} {out : List Char}
    (h : ShownPose printf p w c out) (hs : ∀ v ∈ numbersOf c, ' ' ∉ printf p v) :
    out.filter (· ≠ ' ') = "[x:".toList ++ (printf p c.tx ++ 'y' :: ':' :: (printf p c.ty ++ 'z' :: ':' :: (printf p c.tz ++ ']' ::
      ("[x:".toList ++ (printf p c.qx ++ 'y' :: ':' :: (printf p c.qy ++ 'z' :: ':' :: (printf p c.qz ++ 'w' :: ':' ::
        (printf p c.qw ++ ']' :: [])))))))) := by
  simp only [numbersOf, List.mem_cons, List.not_mem_nil, or_false, forall_eq_or_imp, forall_eq] at hs
  obtain ⟨l1, l2, l3, l4, l5, l6, l7⟩ := hs
  obtain ⟨x, y, z, qx, qy, qz, qw, hc, rfl⟩ := h
  simp only [Cells, List.forall₂_cons, List.forall₂_nil_left_iff, and_true] at hc
  obtain ⟨g1, g2, g3, g4, g5, g6, g7⟩ := hc
  simp only [List.filter_append, C40_strip _ _ _ _ g1 l1, C40_strip _ _ _ _ g2 l2, C40_strip _ _ _ _ g3 l3,
    C40_strip _ _ _ _ g4 l4, C40_strip _ _ _ _ g5 l5, C40_strip _ _ _ _ g6 l6, C40_strip _ _ _ _ g7 l7]
  simp

end Ecl.Props.C143

namespace Ecl.Props
open Ecl Ecl.Form Ecl.Spec Ecl.Props.C143
open Ecl.Conv (fixedText fixedText_numeral)
open Ecl.Props.C101 (WidthOk)
variable {V : Type}

/-- **C143, partial.** What a new formatter of poses writes in any sequence of careful calls, in both builds: every
pose is shown as its position and its quaternion, in the temporary or the permanent settings that hold for it, and the
permanent ones hold again afterwards.  Missing: a pose without settings given while one with temporary settings waits
(`C143_fails_stale_settings`). -/
theorem C143_history_partial (m : Mode) (printf : Nat → V → List Char) (p : Nat) (w : Int) (hp : p ≤ 20) (hw : WidthOk w)
    (ops : List (Rigid.Op V)) (hf : FineAll printf ⟨p, w, none⟩ ops) :
    ∃ s obs, runOps (Rigid.step m printf) (Rigid.State.new w p) ops = some (s, obs) ∧
      PoseView.History m printf ⟨p, w, none⟩ ops obs := by
  have gen : ∀ (ops : List (Rigid.Op V)) (s : Rigid.State V) (v : PoseView V), Rel s v → FineAll printf v ops →
      ∃ s' obs, runOps (Rigid.step m printf) s ops = some (s', obs) ∧ v.History m printf ops obs := by
    intro ops
    induction ops with
    | nil => intro s v _ _; exact ⟨s, [], rfl, trivial⟩
    | cons op ops ih =>
      intro s v hR hF
      obtain ⟨s1, o, h1, h2, h3⟩ := step_rel m printf s v op hR hF.1
      obtain ⟨s2, os, h4, h5⟩ := ih s1 _ h3 hF.2
      refine ⟨s2, o :: os, ?_, h2, h5⟩
      rw [runOps_cons, h1]
      simp [h4]
  refine gen ops _ _ ⟨hp, hw, ⟨rfl, rfl, .right, ?_, .inl rfl⟩, rfl, rfl⟩ hf
  simp [Rigid.State.new, Float.State.new, C101.s32_small hp]

private def run (m : Mode) (w : Int) (p : Nat) (ops : List (Rigid.Op ℚ)) : Option (List (Obs String)) :=
  (runOps (Rigid.step m fixedText) (Rigid.State.new w p) ops).map fun r => r.2.map fun o => o.map String.ofList

private def pose1 : Rigid.SE3 ℚ := ⟨1, -2, 3, 0, 0, 0, 1⟩

example : run .debug (-1) 1 [.itemWP pose1 3 0, .width 5, .stream, .item pose1, .stream, .stream] =
    some [.ok "", .ok "", .ok "[x:  1  y: -2  z:  3][x:  0  y:  0  z:  0  w:  1  ]", .ok "",
      .ok "[x:  1.0  y: -2.0  z:  3.0][x:  0.0  y:  0.0  z:  0.0  w:  1.0  ]", .error .usageError] := by decide +kernel

example : FineAll fixedText ⟨1, -1, none⟩ [.itemWP pose1 3 0, .width 5, .stream, .item pose1, .stream, .stream] := by
  refine ⟨⟨by omega, by simp [WidthOk]⟩, by simp [Fine, WidthOk], ?_, by simp [Fine, PoseView.next], ?_, ?_, trivial⟩
  all_goals
    intro c tmp h
    cases h
  all_goals decide +kernel

/-- **C143.** Nothing is lost but the decimals: if two poses are shown by the same text (whatever the widths), all seven
numbers have the same texts, provided that the texts of numbers contain neither spaces nor the marks `y`, `z`, `w`, `]`. -/
theorem C143_readable (printf : Nat → V → List Char) (p : Nat) (w w' : Int) (c c' : Rigid.SE3 V) (out : List Char)
    (hc : ∀ v, ∀ k ∈ printf p v, k ≠ ' ' ∧ k ≠ 'y' ∧ k ≠ 'z' ∧ k ≠ 'w' ∧ k ≠ ']')
    (h : ShownPose printf p w c out) (h' : ShownPose printf p w' c' out) :
    printf p c.tx = printf p c'.tx ∧ printf p c.ty = printf p c'.ty ∧ printf p c.tz = printf p c'.tz ∧
    printf p c.qx = printf p c'.qx ∧ printf p c.qy = printf p c'.qy ∧ printf p c.qz = printf p c'.qz ∧
    printf p c.qw = printf p c'.qw := by
  have hs : ∀ v, ' ' ∉ printf p v := fun v e => (hc v _ e).1 rfl
  have hy : ∀ v, 'y' ∉ printf p v := fun v e => (hc v _ e).2.1 rfl
  have hz : ∀ v, 'z' ∉ printf p v := fun v e => (hc v _ e).2.2.1 rfl
  have hw : ∀ v, 'w' ∉ printf p v := fun v e => (hc v _ e).2.2.2.1 rfl
  have hb : ∀ v, ']' ∉ printf p v := fun v e => (hc v _ e).2.2.2.2 rfl
  have e := (strip h fun v _ => hs v).symm.trans (strip h' fun v _ => hs v)
  obtain ⟨e1, e⟩ := unmix (hy _) (hy _) (List.append_cancel_left e)
  obtain ⟨e2, e⟩ := unmix (hz _) (hz _) (List.cons.inj e).2
  obtain ⟨e3, e⟩ := unmix (hb _) (hb _) (List.cons.inj e).2
  obtain ⟨e4, e⟩ := unmix (hy _) (hy _) (List.append_cancel_left e)
  obtain ⟨e5, e⟩ := unmix (hz _) (hz _) (List.cons.inj e).2
  obtain ⟨e6, e⟩ := unmix (hw _) (hw _) (List.cons.inj e).2
  obtain ⟨e7, _⟩ := unmix (hb _) (hb _) (List.cons.inj e).2
  exact ⟨e1, e2, e3, e4, e5, e6, e7⟩

/-- A text that shows a pose. -/
example : ShownPose (fun _ (v : Nat) => if v = 0 then ['0'] else ['1']) 0 2 ⟨1, 0, 0, 0, 0, 0, 1⟩
    "[x: 1  y: 0  z: 0][x: 0  y: 0  z: 0  w: 1  ]".toList := by
  have h1 : Laid 2 .right ['1'] [' ', '1'] := ⟨1, 0, rfl, rfl, rfl⟩
  have h0 : Laid 2 .right ['0'] [' ', '0'] := ⟨1, 0, rfl, rfl, rfl⟩
  exact ⟨_, _, _, _, _, _, _, .cons h1 (.cons h0 (.cons h0 (.cons h0 (.cons h0 (.cons h0 (.cons h1 .nil)))))), rfl⟩

/-- **C143 fails**: a pose given without settings is shown with the temporary ones of the pose given before it and not
streamed. -/
theorem C143_fails_stale_settings :
    run .debug 5 1 [.itemWP pose1 3 0, .item pose1, .stream] =
      some [.ok "", .ok "", .ok "[x:  1  y: -2  z:  3][x:  0  y:  0  z:  0  w:  1  ]"] := by decide +kernel

end Ecl.Props
