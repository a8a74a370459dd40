import Verif.Lemmas.StaticBuffers
import Verif.Spec.HexBeside

/-! # Which elements a call uses (lemmas for C112) -/
set_option autoImplicit false

namespace Ecl.StaticBuf
open Ecl.TextStream Ecl.Spec

/-- The program uses no elements but those of `S`. -/
def Within {α : Type} (S : Nat → Prop) : Prog α → Prop
  | .ret _ => True
  | .store i _ p => S i ∧ Within S p
  | .load i k => S i ∧ ∀ v, Within S (k v)

theorem Within.map {α β : Type} {S : Nat → Prop} (g : α → β) : ∀ {p : Prog α}, Within S p → Within S (p.map g)
  | .ret _, _ => trivial
  | .store _ _ _, h => ⟨h.1, Within.map g h.2⟩
  | .load _ _, h => ⟨h.1, fun v => Within.map g (h.2 v)⟩

theorem Within.run {α : Type} {S : Nat → Prop} : ∀ {p : Prog α} {m m' : Mem}, Within S p → (∀ i, S i → m i = m' i) →
    (p.run m).1 = (p.run m').1
  | .ret _, _, _, _, _ => rfl
  | .store i v p, m, m', h, hm => by
    simp only [Prog.run]
    refine Within.run h.2 fun j hj => ?_
    by_cases e : j = i
    · subst e; simp
    · simp [Function.update_of_ne e, hm j hj]
  | .load i k, m, m', h, hm => by
    simp only [Prog.run]
    rw [hm i h.1]
    exact Within.run (h.2 _) hm

/-- The elements below 100. -/
def Low (i : Nat) : Prop := i < 100
/-- The others. -/
def High (i : Nat) : Prop := 100 ≤ i

theorem storeDigits_within {α : Type} (k : Nat → List Char → Prog α)
    (hk : ∀ j ≤ 25, ∀ r, Within Low (k j r)) : ∀ (room : Nat) (c : Char) (rest : List Char) (j : Nat),
    j + room ≤ 25 → Within Low (storeDigits k c rest room j)
  | 0, c, rest, j, h => by rw [storeDigits]; exact hk j (by omega) _
  | room + 1, c, [], j, h => by
    rw [storeDigits]; split
    · exact ⟨by unfold Low; omega, hk _ (by omega) _⟩
    · exact hk _ (by omega) _
  | room + 1, c, d :: ds, j, h => by
    rw [storeDigits]; split
    · exact ⟨by unfold Low; omega, storeDigits_within k hk room d ds (j + 1) (by omega)⟩
    · exact hk _ (by omega) _

theorem sumDigits_within {α : Type} (ceiling : Nat) (k : Option Nat → Prog α) (hk : ∀ o, Within Low (k o)) :
    ∀ (n i number : Nat), i + n ≤ 25 → Within Low (sumDigits ceiling k i n number)
  | 0, i, number, h => by rw [sumDigits]; exact hk _
  | n + 1, i, number, h => by
    rw [sumDigits]; split
    · exact ⟨by unfold Low; omega, fun v => sumDigits_within ceiling k hk n (i + 1) _ (by omega)⟩
    · exact hk _

theorem intCall_within (t : ITy) (sign old : Int) (c : Char) (rest : List Char) :
    Within Low (intCall t sign old c rest) := by
  unfold intCall
  refine storeDigits_within _ (fun j hj r => ?_) 25 c rest 0 (by omega)
  split
  · trivial
  · exact sumDigits_within _ _ (fun o => by cases o <;> trivial) j 0 0 (by omega)

theorem storeHex_within {α : Type} (k : Nat → List Char → Prog α) (hk : ∀ j r, Within High (k j r)) :
    ∀ (room : Nat) (rest : List Char) (j : Nat), Within High (storeHex k rest room j)
  | 0, rest, j => by rw [storeHex]; exact hk _ _
  | room + 1, [], j => by rw [storeHex]; exact hk _ _
  | room + 1, c :: cs, j => by
    rw [storeHex]; split
    · exact ⟨by unfold High hexBase; omega, storeHex_within k hk room cs (j + 1)⟩
    · exact hk _ _

theorem sumHex_within {α : Type} (k : Option Int → Prog α) (hk : ∀ o, Within High (k o)) :
    ∀ (n i : Nat) (number : Int), Within High (sumHex k i n number)
  | 0, i, number => by rw [sumHex]; exact hk _
  | n + 1, i, number => by
    rw [sumHex]; split
    · exact ⟨by unfold High hexBase; omega, fun v => sumHex_within k hk n (i + 1) _⟩
    · exact hk _

theorem hexCall_within (t : ITy) (inp : List Char) : Within High (hexCall t inp) := by
  unfold hexCall
  refine storeHex_within _ (fun j r => ?_) 25 inp 0
  split
  · trivial
  · exact sumHex_within _ (fun o => by cases o <;> trivial) j 0 0

theorem skip_eq : ∀ (inp : List Char), skip inp =
    match inp.dropWhile fun c => c = ' ' || c = '\n' with
    | [] => none
    | c :: cs => some (c, cs)
  | [] => rfl
  | c :: cs => by
    rw [skip, List.dropWhile_cons]
    by_cases h : blank c = true
    · rw [if_pos h, if_pos (by simpa [blank] using h)]
      exact skip_eq cs
    · rw [if_neg h, if_neg (by simpa [blank] using h)]

theorem getIntCall_within (t : ITy) (old : Int) (inp : List Char) :
    (isHex inp = true → Within High (getIntCall t old inp)) ∧ (isHex inp = false → Within Low (getIntCall t old inp)) := by
  unfold getIntCall isHex
  rw [skip_eq]
  generalize (inp.dropWhile fun c => decide (c = ' ') || decide (c = '\n')) = l
  cases l with
  | nil => simp [Within]
  | cons c cs =>
    simp only
    by_cases h1 : c = '-'
    · subst h1
      refine ⟨by intro h; simp at h, fun _ => ?_⟩
      simp only [if_true]
      split
      · split
        · trivial
        · exact intCall_within _ _ _ _ _
      · exact intCall_within _ _ _ _ _
    rw [if_neg h1]
    by_cases h2 : c = '+'
    · subst h2
      refine ⟨by intro h; simp at h, fun _ => ?_⟩
      simp only [if_true]
      split
      · trivial
      · exact intCall_within _ _ _ _ _
    rw [if_neg h2]
    by_cases h3 : c = '0'
    · subst h3
      simp only [if_true]
      cases cs with
      | nil => simp [Within]
      | cons d ds =>
        simp only
        by_cases hx : d = 'x'
        · subst hx
          simp only [show blank 'x' = false from rfl, Bool.false_eq_true, if_false, if_true]
          exact ⟨fun _ => hexCall_within _ _, fun h => by simp at h⟩
        · refine ⟨fun h => by simp [hx] at h, fun _ => ?_⟩
          split
          · trivial
          · exact intCall_within _ _ _ _ _
    rw [if_neg h3]
    by_cases h4 : c = 'x'
    · subst h4
      simp only [if_true]
      exact ⟨fun _ => hexCall_within _ _, fun h => by simp at h⟩
    · rw [if_neg h4]
      refine ⟨fun h => by simp [h3, h4] at h, fun _ => intCall_within _ _ _ _ _⟩

theorem storeFrac_within {α : Type} (k : Nat → Char → List Char → Prog α)
    (hk : ∀ j ≤ 25, ∀ c r, Within Low (k j c r)) : ∀ (room : Nat) (c : Char) (rest : List Char) (j : Nat),
    j + room ≤ 25 → Within Low (storeFrac k c rest room j)
  | 0, c, rest, j, h => by rw [storeFrac]; exact hk j (by omega) _ _
  | room + 1, c, [], j, h => by
    rw [storeFrac]; split
    · exact ⟨by unfold Low; omega, hk _ (by omega) _ _⟩
    · exact hk _ (by omega) _ _
  | room + 1, c, d :: ds, j, h => by
    rw [storeFrac]; split
    · exact ⟨by unfold Low; omega, storeFrac_within k hk room d ds (j + 1) (by omega)⟩
    · exact hk _ (by omega) _ _

theorem sumInt_within {α : Type} (k : Rat → Prog α) (hk : ∀ o, Within Low (k o)) :
    ∀ (n i : Nat) (number : Rat), i + n ≤ 25 → Within Low (sumInt k i n number)
  | 0, i, number, h => by rw [sumInt]; exact hk _
  | n + 1, i, number, h => by
    rw [sumInt]
    exact ⟨by unfold Low; omega, fun v => sumInt_within k hk n (i + 1) _ (by omega)⟩

theorem sumFrac_within {α : Type} (k : Rat → Prog α) (hk : ∀ o, Within Low (k o)) :
    ∀ (n i : Nat) (mult number : Rat), i + n ≤ 25 → Within Low (sumFrac k i n mult number)
  | 0, i, mult, number, h => by rw [sumFrac]; exact hk _
  | n + 1, i, mult, number, h => by
    rw [sumFrac]
    exact ⟨by unfold Low; omega, fun v => sumFrac_within k hk n (i + 1) _ _ (by omega)⟩

theorem floatCall_within (sign old : Rat) (c : Char) (rest : List Char) : Within Low (floatCall sign old c rest) := by
  unfold floatCall
  refine storeFrac_within _ (fun i hi e r => ?_) 25 c rest 0 (by omega)
  refine sumInt_within _ (fun number => ?_) i 0 0 (by omega)
  split
  · split
    · trivial
    · refine storeFrac_within _ (fun j hj _ r => ?_) 25 _ _ 0 (by omega)
      refine sumFrac_within _ (fun number => ?_) j 0 1 number (by omega)
      split <;> trivial
  · split <;> trivial

theorem getFloatCall_within (old : Rat) (inp : List Char) : Within Low (getFloatCall old inp) := by
  unfold getFloatCall
  split
  · trivial
  · split
    · split
      · trivial
      · exact floatCall_within _ _ _ _
    · split
      · split
        · trivial
        · exact floatCall_within _ _ _ _
      · exact floatCall_within _ _ _ _

theorem putText_within {α : Type} (p : Prog α) (hp : Within Low p) : ∀ (t : List Char) (i : Nat), i + t.length < 100 →
    Within Low (putText p i t)
  | [], i, h => ⟨by unfold Low; simpa using h, hp⟩
  | c :: cs, i, h => by
    rw [List.length_cons] at h
    exact ⟨by unfold Low; omega, putText_within p hp cs (i + 1) (by omega)⟩

theorem getText_within {α : Type} (k : List Char → Prog α) (hk : ∀ t, Within Low (k t)) : ∀ (n i : Nat) (acc : List Char),
    i + n ≤ 100 → Within Low (getText k i n acc)
  | 0, i, acc, h => by rw [getText]; exact hk _
  | n + 1, i, acc, h => by
    rw [getText]
    refine ⟨by unfold Low; omega, fun v => ?_⟩
    show Within Low (if v = 0 then k acc else getText k (i + 1) n (acc ++ [Char.ofNat v]))
    split
    · exact hk _
    · exact getText_within k hk n (i + 1) _ (by omega)

theorem fixedCall_within {V : Type} (printf : Nat → V → List Char) (w : Int) (a : Form.Align) (p : Nat) (v : V) :
    Within Low (fixedCall printf w a p v) := by
  have go : ∀ d : Nat, Within Low (putText
        (getText (fun t =>
          getText (fun u => .ret (
            if ¬ InInt (w - t.length) then .ub
            else .ok (Form.prePad a (w - t.length) ++ u ++ Form.postPad a (w - t.length)))) base 29 [])
          base 29 []) base ((printf d v).take 29) : Prog (Outcome (List Char))) := by
    intro d
    refine putText_within _ (getText_within _ (fun t => ?_) 29 _ _ ?_) _ _ ?_
    · refine getText_within _ (fun u => ?_) 29 _ _ ?_
      · trivial
      · unfold base; omega
    · unfold base; omega
    · have := List.length_take_le 29 (printf d v)
      unfold base; omega
  unfold fixedCall
  simp only
  split
  · exact ⟨by unfold Low; omega, by unfold Low; omega, by unfold Low; omega, by unfold Low; omega, fun _ =>
      ⟨by unfold Low; omega, fun _ => go _⟩⟩
  · split
    · exact ⟨by unfold Low; omega, by unfold Low; omega, by unfold Low; omega, by unfold Low; omega, fun _ =>
        ⟨by unfold Low; omega, fun _ => go _⟩⟩
    · exact ⟨by unfold Low; omega, by unfold Low; omega, by unfold Low; omega, by unfold Low; omega, fun _ =>
        ⟨by unfold Low; omega, fun _ => go _⟩⟩

theorem prog_within {V : Type} (printf : Nat → V → List Char) (c : Call V) :
    (readsHex c = true → Within High (c.prog printf)) ∧ (readsHex c = false → Within Low (c.prog printf)) := by
  cases c with
  | getInt t old inp =>
    have := getIntCall_within t old inp
    exact ⟨fun h => (this.1 h).map _, fun h => (this.2 h).map _⟩
  | getFloat old inp => exact ⟨fun h => absurd h (by simp [readsHex]), fun _ => (getFloatCall_within old inp).map _⟩
  | putFixed w a p v => exact ⟨fun h => absurd h (by simp [readsHex]), fun _ => (fixedCall_within printf w a p v).map _⟩

/-! ## Threads with elements of their own -/

/-- The calls of thread `i` use only the elements `i` owns. -/
def Owned {α : Type} (own : Nat → Nat → Nat → Prop) (s : State α) : Prop :=
  ∀ i, (∀ k p, (s.th i).cur = some (k, p) → Within (own i k) p) ∧ ∀ c ∈ (s.th i).todo, Within (own i c.1) c.2

theorem Owned.step {α : Type} {own : Nat → Nat → Nat → Prop} {s : State α} (h : Owned own s) (j : Nat) :
    Owned own (step s j) := by
  intro i
  unfold StaticBuf.step
  cases hcu : (s.th j).cur with
  | none =>
    cases htd : (s.th j).todo with
    | nil => simp only [htd]; exact h i
    | cons c cs =>
      simp only [htd]
      by_cases hij : i = j
      · subst hij
        simp only [Function.update_self]
        have := (h i).2
        rw [htd] at this
        refine ⟨fun k p e => ?_, fun c' hc' => this c' (by simp [hc'])⟩
        have := this c (by simp)
        simp only [Option.some.injEq] at e
        rw [e] at this
        exact this
      · simp only [Function.update_of_ne hij]
        exact h i
  | some kp =>
    obtain ⟨k, p⟩ := kp
    by_cases hij : i = j
    · subst hij
      have h1 := (h i).1 k p hcu
      cases p with
      | ret a => simp only [Function.update_self]; exact ⟨by simp, (h i).2⟩
      | store n v p =>
        simp only [Function.update_self]
        exact ⟨fun k' p' e => by cases e; exact h1.2, (h i).2⟩
      | load n f =>
        simp only [Function.update_self]
        exact ⟨fun k' p' e => by cases e; exact h1.2 _, (h i).2⟩
    · cases p <;> simp only [Function.update_of_ne hij] <;> exact h i

theorem Good.step_owned {α : Type} {own : Nat → Nat → Nat → Prop} {s : State α} {expected : Nat → List α}
    (h : Good s expected) (ho : Owned own s) (hd : ∀ i j k n, i ≠ j → own i k n → ¬ own j k n) (i : Nat) :
    Good (StaticBuf.step s i) expected := by
  intro j
  by_cases hij : j = i
  · subst hij
    -- the thread that goes on: as in `Good.step`, which does not use the other threads here
    obtain ⟨mid, last, h1, h2, h3⟩ := h j
    unfold StaticBuf.step
    cases hc : (s.th j).cur with
    | none =>
      simp only [hc] at h2
      subst h2
      cases ht : (s.th j).todo with
      | nil =>
        simp only [ht]
        rw [ht] at h3
        refine ⟨[], last, h1, by rw [hc], ?_⟩
        first | exact h3 | (rw [ht]; exact h3)
      | cons c cs =>
        rw [ht] at h3
        cases h3 with
        | cons hv hr =>
          rename_i a as
          simp only [ht]
          refine ⟨[a], as, by simpa using h1, ?_, by simpa using hr⟩
          simp only [Function.update_self]
          rw [hv (s.mem c.1)]
    | some kp =>
      obtain ⟨k, p⟩ := kp
      simp only [hc] at h2
      subst h2
      cases p with
      | ret a =>
        simp only
        refine ⟨[], last, ?_, by simp, by simpa using h3⟩
        simpa [Prog.run] using h1
      | store n v p =>
        simp only
        exact ⟨[((Prog.store n v p).run (s.mem k)).1], last, by simpa using h1, by simp [Prog.run], by simpa using h3⟩
      | load n f =>
        simp only
        exact ⟨[((Prog.load n f).run (s.mem k)).1], last, by simpa using h1, by simp [Prog.run], by simpa using h3⟩
  · obtain ⟨mid, last, h1, h2, h3⟩ := h j
    have hth : (StaticBuf.step s i).th j = s.th j := by
      unfold StaticBuf.step
      cases hc : (s.th i).cur with
      | none => cases ht : (s.th i).todo <;> simp [Function.update_of_ne hij]
      | some kp => obtain ⟨k, p⟩ := kp; cases p <;> simp [Function.update_of_ne hij]
    refine ⟨mid, last, by rw [hth]; exact h1, ?_, by rw [hth]; exact h3⟩
    rw [hth]
    cases hcj : (s.th j).cur with
    | none => simpa [hcj] using h2
    | some kp =>
      obtain ⟨k, q⟩ := kp
      simp only [hcj] at h2 ⊢
      rw [h2]
      have hmem : ∀ n, own j k n → s.mem k n = (StaticBuf.step s i).mem k n := by
        intro n hn
        unfold StaticBuf.step
        cases hc : (s.th i).cur with
        | none => cases ht : (s.th i).todo <;> simp
        | some kp =>
          obtain ⟨k', p⟩ := kp
          cases p with
          | ret a => rfl
          | load n f => rfl
          | store n' v p =>
            simp only
            by_cases hk : k = k'
            · subst hk
              rw [Function.update_self, Function.update_of_ne]
              rintro rfl
              exact hd i j k n (fun e => hij e.symm) ((ho i).1 _ _ hc).1 hn
            · rw [Function.update_of_ne hk]
      rw [((ho j).1 _ _ hcj).run hmem]

theorem owned_exec {α : Type} {own : Nat → Nat → Nat → Prop} (hd : ∀ i j k n, i ≠ j → own i k n → ¬ own j k n)
    (expected : Nat → List α) : ∀ (sched : List Nat) (s : State α), Good s expected → Owned own s →
    Good (exec s sched) expected ∧ Owned own (exec s sched)
  | [], _, h, ho => ⟨h, ho⟩
  | i :: is, s, h, ho => by
    have := owned_exec hd expected is (StaticBuf.step s i) (h.step_owned ho hd i) (ho.step i)
    simpa [exec] using this

theorem Owned.no_race {α : Type} {own : Nat → Nat → Nat → Prop} (hd : ∀ i j k n, i ≠ j → own i k n → ¬ own j k n)
    {s : State α} (h : Owned own s) : ¬ Race s := by
  rintro ⟨i, j, k, n, v, p, hij, hi, ⟨v', p', hj⟩ | ⟨f, hj⟩⟩
  · exact hd i j k n hij ((h i).1 _ _ hi).1 ((h j).1 _ _ hj).1
  · exact hd i j k n hij ((h i).1 _ _ hi).1 ((h j).1 _ _ hj).1

end Ecl.StaticBuf
