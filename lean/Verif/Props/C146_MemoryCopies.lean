import Mathlib.Data.List.Nodup
import Verif.Spec.MemoryCopies

/-!
# C146: copies of shared memory handles
-/
set_option autoImplicit false

namespace Ecl.Props.C146
open Ecl Ecl.Mapped Ecl.Spec.Mapped

theorem put_upd {α : Type} (f : Nat → α) (k : Nat) (v : α) : put f k v = upd f k v := rfl

theorem upd_same {α : Type} (f : Nat → α) (k : Nat) (v : α) : upd f k v k = v := by simp [upd]

theorem upd_other {α : Type} (f : Nat → α) {k x : Nat} (v : α) (h : x ≠ k) : upd f k v x = f x := by simp [upd, h]

/-- A handle shows what it should. -/
def Shows (maps : List (Nat × Nat)) (v : View) (h : Handle) : Prop :=
  h.name = v.name ∧ h.manager = v.made ∧ maps.lookup h.addr = some v.object

structure Inv (s : Plan) (w : World) : Prop where
  name : w.name = s.name
  data : w.data = s.data
  next : w.next = s.objects
  gone : ∀ k, s.view k = none → w.handle k = none
  shows : ∀ k v, s.view k = some v → ∃ h, w.handle k = some h ∧ Shows w.maps v h
  family : ∀ k v, s.view k = some v → v.family < s.families
  same : ∀ j k u v g h, s.view j = some u → s.view k = some v → w.handle j = some g → w.handle k = some h →
    (g.addr = h.addr ↔ u.family = v.family)
  used : ∀ p ∈ w.maps, ∃ k h, w.handle k = some h ∧ h.addr = p.1

theorem nobody_inv : Inv nobody World.empty := by
  constructor <;> simp [nobody, World.empty]

theorem lookup_mem {l : List (Nat × Nat)} {a o : Nat} (h : l.lookup a = some o) : a ∈ l.map (·.1) := by
  induction l with
  | nil => simp at h
  | cons p l ih =>
    obtain ⟨b, c⟩ := p
    rw [List.lookup_cons] at h
    by_cases e : a = b
    · simp [e]
    · rw [show (a == b) = false by simp [e]] at h
      exact List.mem_cons_of_mem _ (ih h)

theorem lookup_cons_other {l : List (Nat × Nat)} {a b o : Nat} (h : b ≠ a) : ((a, o) :: l).lookup b = l.lookup b := by
  rw [List.lookup_cons, show (b == a) = false by simp [h]]

theorem lookup_cons_self {l : List (Nat × Nat)} {a o : Nat} : ((a, o) :: l).lookup a = some o := by
  rw [List.lookup_cons]; simp

theorem lookup_unmap {l : List (Nat × Nat)} {a b : Nat} (h : b ≠ a) : (unmap l a).lookup b = l.lookup b := by
  induction l with
  | nil => rfl
  | cons p l ih =>
    obtain ⟨c, o⟩ := p
    unfold unmap at ih ⊢
    by_cases e : c = a
    · rw [List.filter_cons_of_neg (by simp [e]), ih, lookup_cons_other (by rw [e]; exact h)]
    · rw [List.filter_cons_of_pos (by simp [e])]
      by_cases k : b = c
      · subst k; rw [lookup_cons_self, lookup_cons_self]
      · rw [lookup_cons_other k, lookup_cons_other k, ih]

theorem lookup_unmap_self {l : List (Nat × Nat)} {a : Nat} : (unmap l a).lookup a = none := by
  induction l with
  | nil => rfl
  | cons p l ih =>
    obtain ⟨c, o⟩ := p
    unfold unmap at ih ⊢
    by_cases e : c = a
    · rw [List.filter_cons_of_neg (by simp [e]), ih]
    · rw [List.filter_cons_of_pos (by simp [e]), lookup_cons_other (fun k => e k.symm), ih]

/-- A constructor. -/
theorem make_inv {pick : List Nat → Nat} (hp : ∀ l, pick l ∉ l) {s : Plan} {w : World} (h : Inv s w) (k n o : Nat) (b : Bool)
    (hk : s.view k = none) (nm : Nat → Option Nat) (dt : Nat → Nat) (nx : Nat) :
    Inv ⟨put s.view k (some ⟨s.families, o, n, b⟩), nm, dt, nx, s.families + 1⟩
      ⟨upd w.handle k (some ⟨n, pick (w.maps.map (·.1)), b⟩), (pick (w.maps.map (·.1)), o) :: w.maps, nm, dt, nx⟩ := by
  have ha := hp (w.maps.map (·.1))
  generalize pick (w.maps.map (·.1)) = a at ha
  have hv : ∀ x, x ≠ k → put s.view k (some ⟨s.families, o, n, b⟩) x = s.view x := fun x e => by simp [put, e]
  have hvk : put s.view k (some ⟨s.families, o, n, b⟩) k = some ⟨s.families, o, n, b⟩ := by simp [put]
  have hh : ∀ x, x ≠ k → upd w.handle k (some ⟨n, a, b⟩) x = w.handle x := fun x e => upd_other _ _ e
  have hhk : upd w.handle k (some ⟨n, a, b⟩) k = some ⟨n, a, b⟩ := upd_same _ _ _
  have far : ∀ x v g, s.view x = some v → w.handle x = some g → g.addr ≠ a := by
    intro x v g hx hg e
    obtain ⟨g', hg', -, -, hl⟩ := h.shows x v hx
    rw [hg] at hg'
    cases hg'
    exact ha (e ▸ lookup_mem hl)
  refine ⟨rfl, rfl, rfl, ?_, ?_, ?_, ?_, ?_⟩
  · intro x hx
    by_cases e : x = k
    · subst e; simp only [hvk] at hx; cases hx
    · simp only [hv x e] at hx; simp only [hh x e]; exact h.gone x hx
  · intro x v hx
    by_cases e : x = k
    · subst e
      simp only [hvk, Option.some.injEq] at hx
      subst hx
      exact ⟨_, hhk, rfl, rfl, lookup_cons_self⟩
    · simp only [hv x e] at hx
      obtain ⟨g, hg, h1, h2, h3⟩ := h.shows x v hx
      refine ⟨g, by simp only [hh x e, hg], h1, h2, ?_⟩
      simp only [lookup_cons_other (far x v g hx hg), h3]
  · intro x v hx
    by_cases e : x = k
    · subst e
      simp only [hvk, Option.some.injEq] at hx
      subst hx
      exact Nat.lt_succ_self _
    · simp only [hv x e] at hx
      exact Nat.lt_succ_of_lt (h.family x v hx)
  · intro x y u v g g' hu hv' hg hg'
    by_cases e : x = k <;> by_cases e' : y = k
    · subst e; subst e'
      simp only [hvk, Option.some.injEq] at hu hv'
      simp only [hhk, Option.some.injEq] at hg hg'
      subst hu hv' hg hg'
      simp
    · subst e
      simp only [hvk, Option.some.injEq] at hu
      simp only [hhk, Option.some.injEq] at hg
      simp only [hv y e'] at hv'
      simp only [hh y e'] at hg'
      subst hu hg
      have a1 := far y v g' hv' hg'
      have a2 := h.family y v hv'
      constructor
      · intro k; exact absurd k.symm a1
      · intro k; simp only at k; omega
    · subst e'
      simp only [hvk, Option.some.injEq] at hv'
      simp only [hhk, Option.some.injEq] at hg'
      simp only [hv x e] at hu
      simp only [hh x e] at hg
      subst hv' hg'
      have a1 := far x u g hu hg
      have a2 := h.family x u hu
      constructor
      · intro k; exact absurd k a1
      · intro k; simp only at k; omega
    · simp only [hv x e] at hu
      simp only [hh x e] at hg
      simp only [hv y e'] at hv'
      simp only [hh y e'] at hg'
      exact h.same x y u v g g' hu hv' hg hg'
  · intro p hm
    rcases List.mem_cons.1 hm with rfl | hm
    · exact ⟨k, _, hhk, rfl⟩
    · obtain ⟨x, g, hx, hg⟩ := h.used p hm
      have : x ≠ k := by rintro rfl; rw [h.gone x hk] at hx; cases hx
      exact ⟨x, g, by simp only [hh x this, hx], hg⟩

theorem step_inv {pick : List Nat → Nat} (hp : ∀ l, pick l ∉ l) {s : Plan} {w : World} (h : Inv s w) (x : Op) (hx : Kept s x) :
    ∃ w', step pick w x = .ok (w', reads s x) ∧ Inv (next s x) w' := by
  cases x with
  | make k n =>
    have hk : s.view k = none := hx
    have hn : (w.handle k).isSome = false := by rw [h.gone k hk]; rfl
    simp only [step, hn, Bool.false_eq_true, if_false, h.name, next, reads]
    cases e : s.name n with
    | some o =>
      refine ⟨_, rfl, ?_⟩
      have := make_inv hp h k n o false hk s.name s.data s.objects
      simp only [← h.next, ← h.data] at this ⊢
      rw [← h.name] at this ⊢
      exact this
    | none =>
      refine ⟨_, rfl, ?_⟩
      have := make_inv hp h k n s.objects true hk (put s.name n (some s.objects)) (put s.data s.objects 0) (s.objects + 1)
      simp only [put_upd] at this ⊢
      rw [h.next, h.data]
      exact this
  | copy j k =>
    obtain ⟨hj, hk⟩ := hx
    obtain ⟨v, hv⟩ := Option.ne_none_iff_exists'.1 hk
    obtain ⟨g, hg, hs⟩ := h.shows k v hv
    have hn : (w.handle j).isSome = false := by rw [h.gone j hj]; rfl
    refine ⟨{ w with handle := upd w.handle j (some g) }, by simp only [step, hg, hn, reads]; rfl, ?_⟩
    have back : ∀ x u, put s.view j (s.view k) x = some u → ∃ y, s.view y = some u ∧ upd w.handle j (some g) x = w.handle y := by
      intro x u hu
      by_cases e : x = j
      · subst e
        exact ⟨k, by simpa [put] using hu, by rw [upd_same, hg]⟩
      · exact ⟨x, by simpa [put, e] using hu, upd_other _ _ e⟩
    refine ⟨h.name, h.data, h.next, ?_, ?_, ?_, ?_, ?_⟩
    · intro x hx
      have e : x ≠ j := by rintro rfl; simp [next, put, hv] at hx
      simp only [next, put, e, if_false] at hx
      simp only [upd_other _ _ e]
      exact h.gone x hx
    · intro x u hu
      obtain ⟨y, h1, h2⟩ := back x u hu
      obtain ⟨g', h3, h4⟩ := h.shows y u h1
      exact ⟨g', h2.trans h3, h4⟩
    · intro x u hu
      obtain ⟨y, h1, -⟩ := back x u hu
      exact h.family y u h1
    · intro x y u v' g1 g2 hu hv' hg1 hg2
      obtain ⟨x', h1, h2⟩ := back x u hu
      obtain ⟨y', h3, h4⟩ := back y v' hv'
      exact h.same x' y' u v' g1 g2 h1 h3 (h2 ▸ hg1) (h4 ▸ hg2)
    · intro p hm
      obtain ⟨x, g', h1, h2⟩ := h.used p hm
      have e : x ≠ j := by rintro rfl; rw [h.gone x hj] at h1; cases h1
      exact ⟨x, g', by simp only [upd_other _ _ e, h1], h2⟩
  | destroy k =>
    obtain ⟨hk, ha⟩ := hx
    obtain ⟨v, hv⟩ := Option.ne_none_iff_exists'.1 hk
    obtain ⟨g, hg, h1, h2, h3⟩ := h.shows k v hv
    refine ⟨_, by simp only [step, hg, reads]; rfl, ?_⟩
    have hnx : next s (.destroy k) =
        { s with view := put s.view k none, name := if v.made then put s.name v.name none else s.name } := by
      simp only [next, hv]
    rw [hnx]
    have back : ∀ x u, put s.view k none x = some u → x ≠ k ∧ s.view x = some u := by
      intro x u hu
      by_cases e : x = k
      · subst e; simp [put] at hu
      · exact ⟨e, by simpa [put, e] using hu⟩
    have far : ∀ x u g', x ≠ k → s.view x = some u → w.handle x = some g' → g'.addr ≠ g.addr := by
      intro x u g' e hu hg' ha'
      exact ha x e u v hu hv ((h.same x k u v g' g hu hv hg' hg).1 ha')
    refine ⟨?_, h.data, h.next, ?_, ?_, ?_, ?_, ?_⟩
    · simp only [h2, h1, h.name, put_upd]
    · intro x hx
      by_cases e : x = k
      · subst e; exact upd_same _ _ _
      · simp only [put, e, if_false] at hx
        simp only [upd_other _ _ e]
        exact h.gone x hx
    · intro x u hu
      obtain ⟨e, hu⟩ := back x u hu
      obtain ⟨g', a1, a2, a3, a4⟩ := h.shows x u hu
      refine ⟨g', by simp only [upd_other _ _ e, a1], a2, a3, ?_⟩
      simp only [lookup_unmap (far x u g' e hu a1), a4]
    · intro x u hu
      exact h.family x u (back x u hu).2
    · intro x y u v' g1 g2 hu hv' hg1 hg2
      obtain ⟨e, hu⟩ := back x u hu
      obtain ⟨e', hv'⟩ := back y v' hv'
      simp only [upd_other _ _ e] at hg1
      simp only [upd_other _ _ e'] at hg2
      exact h.same x y u v' g1 g2 hu hv' hg1 hg2
    · intro p hm
      obtain ⟨m1, m2⟩ := List.mem_filter.1 hm
      obtain ⟨x, g', a1, a2⟩ := h.used p m1
      have e : x ≠ k := by
        rintro rfl
        rw [hg] at a1
        cases a1
        simp [a2] at m2
      exact ⟨x, g', by simp only [upd_other _ _ e, a1], a2⟩
  | write k y =>
    obtain ⟨v, hv⟩ := Option.ne_none_iff_exists'.1 hx
    obtain ⟨g, hg, h1, h2, h3⟩ := h.shows k v hv
    refine ⟨{ w with data := upd w.data v.object y }, by simp only [step, hg, h3, reads], ?_⟩
    simp only [next, hv]
    exact ⟨h.name, by simp only [h.data, put_upd], h.next, h.gone, h.shows, h.family, h.same, h.used⟩
  | read k =>
    obtain ⟨v, hv⟩ := Option.ne_none_iff_exists'.1 hx
    obtain ⟨g, hg, h1, h2, h3⟩ := h.shows k v hv
    refine ⟨w, by simp only [step, hg, h3, reads, hv, h.data]; rfl, h⟩
  | peer n y =>
    simp only [step, h.name, next, reads]
    cases e : s.name n with
    | none => exact ⟨w, rfl, h⟩
    | some o =>
      refine ⟨{ w with data := upd w.data o y }, by rw [← h.name], ?_⟩
      exact ⟨h.name, by simp only [h.data, put_upd], h.next, h.gone, h.shows, h.family, h.same, h.used⟩
  | look n => exact ⟨w, by simp only [step, reads, h.name, h.data], h⟩

theorem run_inv {pick : List Nat → Nat} (hp : ∀ l, pick l ∉ l) (xs : List Op) {s : Plan} {w : World} (h : Inv s w)
    (hx : AllKept s xs) : ∃ w', run pick w xs = .ok (w', readings s xs) ∧ Inv (plan s xs) w' := by
  induction xs generalizing s w with
  | nil => exact ⟨w, rfl, h⟩
  | cons x xs ih =>
    obtain ⟨w1, h1, h2⟩ := step_inv hp h x hx.1
    obtain ⟨w2, h3, h4⟩ := ih h2 hx.2
    exact ⟨w2, by simp only [run, h1, h3, readings], h4⟩

theorem run_append (pick : List Nat → Nat) (xs ys : List Op) (w w1 : World) (r : List (Option Nat))
    (h : run pick w xs = .ok (w1, r)) (hu : run pick w1 ys = .ub) : run pick w (xs ++ ys) = .ub := by
  induction xs generalizing w r with
  | nil => simp only [run, Outcome.ok.injEq, Prod.mk.injEq] at h; rw [List.nil_append, h.1]; exact hu
  | cons x xs ih =>
    rw [List.cons_append]
    simp only [run] at h ⊢
    cases e : step pick w x with
    | ub => rfl
    | throw f => rw [e] at h; cases h
    | ok p =>
      obtain ⟨w2, r2⟩ := p
      rw [e] at h
      simp only at h ⊢
      cases e2 : run pick w2 xs with
      | ub => rw [e2] at h; cases h
      | throw f => rw [e2] at h; cases h
      | ok q =>
        obtain ⟨w3, r3⟩ := q
        rw [e2] at h
        simp only [Outcome.ok.injEq, Prod.mk.injEq] at h
        rw [ih w2 r3 (by rw [e2, h.1])]

/-- Once the address of a handle has no mapping, no call but a constructor gives it one. -/
theorem stays (pick : List Nat → Nat) (k : Nat) (g : Handle) (last : Op)
    (hl : ∀ w : World, w.handle k = some g → w.maps.lookup g.addr = none → step pick w last = .ub) (xs : List Op)
    (hx : ∀ x ∈ xs, Apart k x) (w : World) (hk : w.handle k = some g) (hm : w.maps.lookup g.addr = none) :
    run pick w (xs ++ [last]) = .ub := by
  induction xs generalizing w with
  | nil => simp only [List.nil_append, run, hl w hk hm]
  | cons x xs ih =>
    have ih := fun w => ih (fun y hy => hx y (List.mem_cons_of_mem _ hy)) w
    have hx := hx x List.mem_cons_self
    have go : ∀ w' r, step pick w x = .ok (w', r) → w'.handle k = some g → w'.maps.lookup g.addr = none →
        run pick w (x :: xs ++ [last]) = .ub := by
      intro w' r h1 h2 h3
      rw [List.cons_append]
      simp only [run, h1, ih w' h2 h3]
    have bad : step pick w x = .ub → run pick w (x :: xs ++ [last]) = .ub := by
      intro h1
      rw [List.cons_append]
      simp only [run, h1]
    cases x with
    | make => exact absurd hx id
    | copy j i =>
      cases e : w.handle i with
      | none => exact bad (by simp only [step, e])
      | some h =>
        cases e2 : (w.handle j).isSome with
        | true => exact bad (by simp only [step, e, e2, if_true])
        | false =>
          refine go { w with handle := upd w.handle j (some h) } none
            (by simp only [step, e, e2]; rfl) ?_ hm
          simp only [upd_other _ _ (Ne.symm hx.1), hk]
    | destroy j =>
      cases e : w.handle j with
      | none => exact bad (by simp only [step, e])
      | some h =>
        refine go _ none (by simp only [step, e]; rfl) ?_ ?_
        · simp only [upd_other _ _ (Ne.symm hx), hk]
        · by_cases k : g.addr = h.addr
          · simp only [k, lookup_unmap_self]
          · simp only [lookup_unmap k, hm]
    | write j v =>
      cases e : w.handle j with
      | none => exact bad (by simp only [step, e])
      | some h =>
        cases e2 : w.maps.lookup h.addr with
        | none => exact bad (by simp only [step, e, e2])
        | some o => exact go { w with data := upd w.data o v } none (by simp only [step, e, e2]) hk hm
    | read j =>
      cases e : w.handle j with
      | none => exact bad (by simp only [step, e])
      | some h =>
        cases e2 : w.maps.lookup h.addr with
        | none => exact bad (by simp only [step, e, e2])
        | some o => exact go w (some (w.data o)) (by simp only [step, e, e2]) hk hm
    | peer n v =>
      cases e : w.name n with
      | none => exact go w none (by simp only [step, e]) hk hm
      | some o => exact go { w with data := upd w.data o v } none (by simp only [step, e]) hk hm
    | look n => exact go _ _ (by simp only [step]; rfl) hk hm

end Ecl.Props.C146

namespace Ecl.Props
open Ecl Ecl.Mapped Ecl.Spec.Mapped C146

/-- An address that is not in use. -/
example : ∀ l : List Nat, (l.sum + 1) ∉ l := by
  intro l h
  have key : ∀ (l : List Nat) (x : Nat), x ∈ l → x ≤ l.sum := by
    intro l
    induction l with
    | nil => simp
    | cons a l ih =>
      intro x hx
      rw [List.sum_cons]
      rcases List.mem_cons.1 hx with rfl | hx
      · omega
      · have := ih x hx; omega
  have := key _ _ h
  omega

/-- **C146** (partial): as long as no handle is destroyed while a copy of it exists, every call is defined, every handle shows
its memory to the end, all handles and processes that use a name see one memory, and when no handle is left there is no mapping
left. -/
theorem C146_kept_partial (pick : List Nat → Nat) (hp : ∀ l, pick l ∉ l) (ops : List Op) (h : AllKept nobody ops) :
    ∃ w, run pick World.empty ops = .ok (w, readings nobody ops) ∧ w.name = (plan nobody ops).name ∧
      ((∀ k, (plan nobody ops).view k = none) → w.maps = []) := by
  obtain ⟨w, h1, h2⟩ := run_inv hp ops nobody_inv h
  refine ⟨w, h1, h2.name, fun hn => ?_⟩
  rw [List.eq_nil_iff_forall_not_mem]
  intro p hm
  obtain ⟨k, g, hk, -⟩ := h2.used p hm
  rw [h2.gone k (hn k)] at hk
  cases hk

/-- Two handles of one name, one of another, a copy, another process. -/
example : AllKept nobody [.make 0 5, .make 1 5, .make 2 6, .copy 3 2, .write 0 8, .read 1, .peer 6 9, .read 3, .look 5,
      .destroy 1, .read 0, .destroy 0] ∧
    readings nobody [.make 0 5, .make 1 5, .make 2 6, .copy 3 2, .write 0 8, .read 1, .peer 6 9, .read 3, .look 5,
      .destroy 1, .read 0, .destroy 0] =
      [none, none, none, none, none, some 8, none, some 9, some 8, none, some 8, none] := by
  refine ⟨⟨rfl, rfl, rfl, ⟨rfl, nofun⟩, nofun, nofun, trivial, nofun, trivial, ⟨nofun, ?_⟩, nofun, ⟨nofun, ?_⟩, trivial⟩, rfl⟩
  · intro j hj u v hu hv
    have hv : v = ⟨1, 0, 5, false⟩ := (Option.some.inj hv).symm
    rcases j with _ | _ | _ | _ | j
    · have : u = ⟨0, 0, 5, true⟩ := (Option.some.inj hu).symm
      subst this hv; decide
    · exact absurd rfl hj
    · have : u = ⟨2, 1, 6, true⟩ := (Option.some.inj hu).symm
      subst this hv; decide
    · have : u = ⟨2, 1, 6, true⟩ := (Option.some.inj hu).symm
      subst this hv; decide
    · cases hu
  · intro j hj u v hu hv
    have hv : v = ⟨0, 0, 5, true⟩ := (Option.some.inj hv).symm
    rcases j with _ | _ | _ | _ | j
    · exact absurd rfl hj
    · cases hu
    · have : u = ⟨2, 1, 6, true⟩ := (Option.some.inj hu).symm
      subst this hv; decide
    · have : u = ⟨2, 1, 6, true⟩ := (Option.some.inj hu).symm
      subst this hv; decide
    · cases hu

/-- **C146** fails: once a copy of a handle is destroyed, using the memory of the original is undefined, whatever happens to other
handles meanwhile. -/
theorem C146_fails_copy (pick : List Nat → Nat) (before : List Op) (w : World) (r : List (Option Nat)) (j k : Nat) (h : Handle)
    (hb : run pick World.empty before = .ok (w, r)) (hk : w.handle k = some h) (hj : w.handle j = none) (mid : List Op)
    (hm : ∀ x ∈ mid, Apart k x) (last : Op) (hl : last = .read k ∨ ∃ v, last = .write k v) :
    run pick World.empty (before ++ (.copy j k :: .destroy j :: mid ++ [last])) = .ub := by
  refine run_append pick before _ _ w r hb ?_
  have hjk : k ≠ j := by rintro rfl; rw [hk] at hj; cases hj
  have e1 : step pick w (.copy j k) = .ok ({ w with handle := upd w.handle j (some h) }, none) := by
    simp only [step, hk, hj]; rfl
  have e2 : step pick { w with handle := upd w.handle j (some h) } (.destroy j) = .ok (⟨upd (upd w.handle j (some h)) j none,
      unmap w.maps h.addr, if h.manager then upd w.name h.name none else w.name, w.data, w.next⟩, none) := by
    simp only [step, upd_same]
  have := stays pick k h last (by
    intro w' h1 h2
    rcases hl with rfl | ⟨v, rfl⟩ <;> simp only [step, h1, h2]) mid hm
    ⟨upd (upd w.handle j (some h)) j none, unmap w.maps h.addr, if h.manager then upd w.name h.name none else w.name, w.data, w.next⟩
    (by simp only [upd_other _ _ hjk, hk]) lookup_unmap_self
  simp only [List.cons_append, run, e1, e2] at this ⊢
  rw [this]

/-- A history after which handle 0 exists and handle 1 does not. -/
example : (∃ w r h, run (fun l => l.sum + 1) World.empty [.make 0 5, .write 0 3] = .ok (w, r) ∧ w.handle 0 = some h ∧
    w.handle 1 = none) ∧ ∀ x ∈ [Op.peer 5 8, .look 5], Apart 0 x :=
  ⟨⟨_, _, ⟨5, 1, true⟩, rfl, rfl, rfl⟩, by simp [Apart]⟩

/-- **C146** fails: a handle made after that can get the address of the lost mapping, if the system chooses by what is in use: then
the original handle reads and writes the memory of another name. -/
theorem C146_fails_foreign (pick : List Nat → Nat) (n m v : Nat) :
    ∃ w, run pick World.empty [.make 0 n, .copy 1 0, .destroy 1, .make 2 m, .write 2 v, .read 0] =
      .ok (w, [none, none, none, none, none, some v]) := by
  have : unmap [(pick [], 0)] (pick []) = [] := by simp [unmap]
  by_cases e : m = n
  · subst e
    simp [run, step, World.empty, upd, this]
  · simp [run, step, World.empty, upd, this, e]

/-- **C146** fails: and destroying the original takes the memory from that handle. -/
theorem C146_fails_stolen (pick : List Nat → Nat) (n m : Nat) :
    run pick World.empty [.make 0 n, .copy 1 0, .destroy 1, .make 2 m, .destroy 0, .read 2] = .ub := by
  have h1 : unmap [(pick [], 0)] (pick []) = [] := by simp [unmap]
  have h2 : unmap [(pick [], 1)] (pick []) = [] := by simp [unmap]
  by_cases e : m = n
  · subst e
    simp [run, step, World.empty, upd, h1, h2]
  · simp [run, step, World.empty, upd, h1, h2, e]

/-- **C146** fails: the destruction of a copy removes the name although its maker still exists: other processes find nothing under
the name any more. -/
theorem C146_fails_name (pick : List Nat → Nat) (n v : Nat) :
    ∃ w, run pick World.empty [.make 0 n, .write 0 v, .look n, .copy 1 0, .destroy 1, .look n] =
      .ok (w, [none, none, some v, none, none, none]) := by
  simp [run, step, World.empty, upd]

end Ecl.Props
