import Verif.Spec.StaticBuffers
import Verif.Lemmas.TextStream

/-! # Calls with static buffers: what they give alone, and in threads that exclude each other -/
set_option autoImplicit false
set_option linter.unusedSimpArgs false

namespace Ecl.StaticBuf
open Ecl.TextStream Ecl.Spec

/-- The array holds a text from element `j` on. -/
def Holds (m : Mem) (j : Nat) (ds : List Char) : Prop := ∀ n (h : n < ds.length), m (j + n) = ds[n].toNat

theorem Holds.nil (m : Mem) (j : Nat) : Holds m j [] := fun n h => absurd h (Nat.not_lt_zero n)

theorem Holds.cons {m : Mem} {j : Nat} {c : Char} {cs : List Char} (h : m j = c.toNat) (hs : Holds m (j + 1) cs) :
    Holds m j (c :: cs) := by
  intro n hn
  cases n with
  | zero => simpa using h
  | succ n =>
    have := hs n (by simpa using hn)
    simpa [Nat.add_assoc, Nat.add_comm 1 n] using this

theorem Holds.head {m : Mem} {j : Nat} {c : Char} {cs : List Char} (h : Holds m j (c :: cs)) : m j = c.toNat := by
  have := h 0 (by simp)
  simpa only [Nat.add_zero, List.getElem_cons_zero] using this

theorem Holds.tail {m : Mem} {j : Nat} {c : Char} {cs : List Char} (h : Holds m j (c :: cs)) : Holds m (j + 1) cs := by
  intro n hn
  have := h (n + 1) (by simpa using hn)
  simpa [Nat.add_assoc, Nat.add_comm 1 n] using this

/-! ## Reading integers -/

theorem storeDigits_run {α : Type} (k : Nat → List Char → Prog α) : ∀ (room : Nat) (c : Char) (rest : List Char) (j : Nat)
    (m : Mem), ∃ m', (storeDigits k c rest room j).run m =
      (k (j + (digitLoop c rest room).1.length) (digitLoop c rest room).2).run m' ∧
      (∀ i < j, m' i = m i) ∧ Holds m' j (digitLoop c rest room).1
  | 0, c, rest, j, m => ⟨m, by simp [storeDigits, digitLoop], fun _ _ => rfl, by
      cases rest <;> exact Holds.nil _ _⟩
  | room + 1, c, [], j, m => by
    by_cases h : dig c = true
    · refine ⟨Function.update m j c.toNat, by simp [storeDigits, digitLoop, h, Prog.run], fun i hi => ?_, ?_⟩
      · rw [Function.update_of_ne (by omega)]
      · simp only [digitLoop, h, if_true]
        exact Holds.cons (by simp) (Holds.nil _ _)
    · exact ⟨m, by simp [storeDigits, digitLoop, h], fun _ _ => rfl, by simp [digitLoop, h]; exact Holds.nil _ _⟩
  | room + 1, c, d :: ds, j, m => by
    by_cases h : dig c = true
    · obtain ⟨m', h1, h2, h3⟩ := storeDigits_run k room d ds (j + 1) (Function.update m j c.toNat)
      refine ⟨m', ?_, fun i hi => ?_, ?_⟩
      · simp only [storeDigits, digitLoop, h, if_true, Prog.run, h1, List.length_cons]
        congr 2
        omega
      · rw [h2 i (by omega), Function.update_of_ne (by omega)]
      · simp only [digitLoop, h, if_true]
        exact Holds.cons (by rw [h2 j (by omega)]; simp) h3
    · exact ⟨m, by simp [storeDigits, digitLoop, h], fun _ _ => rfl, by simp [digitLoop, h]; exact Holds.nil _ _⟩

theorem sumDigits_run {α : Type} (ceiling : Nat) (k : Option Nat → Prog α) : ∀ (ds : List Char) (i number : Nat) (m : Mem),
    Holds m i ds → (sumDigits ceiling k i ds.length number).run m = (k (accum ceiling number ds)).run m
  | [], i, number, m, _ => by simp [sumDigits, accum]
  | c :: cs, i, number, m, h => by
    simp only [List.length_cons, sumDigits, accum]
    by_cases hn : number < ceiling
    · simp only [hn, if_true, Prog.run, h.head]
      exact sumDigits_run ceiling k cs (i + 1) _ m h.tail
    · simp only [hn, if_false]

theorem intCall_run (t : ITy) (sign old : Int) (c : Char) (rest : List Char) (m : Mem) :
    ((intCall t sign old c rest).run m).1 = finishInt t sign old c rest := by
  unfold intCall finishInt
  obtain ⟨m', h1, _, h3⟩ := storeDigits_run (α := Got Int) (fun j rest =>
    if j = 0 then .ret ⟨old, .conversionError, rest⟩
    else sumDigits (t.max / 10) (intEnd sign old rest) 0 j 0) 25 c rest 0 m
  rw [h1]
  simp only [Nat.zero_add]
  generalize digitLoop c rest 25 = r at *
  cases hr : r.1 with
  | nil => simp [Prog.run]
  | cons d ds =>
    rw [hr] at h3
    simp only [List.length_cons, Nat.succ_ne_zero, if_false, reduceCtorEq]
    have := sumDigits_run (t.max / 10) (intEnd sign old r.2) (d :: ds) 0 0 m' h3
    rw [List.length_cons] at this
    rw [this]
    cases accum (t.max / 10) 0 (d :: ds) <;> simp [Prog.run, intEnd]

/-! ## Hexadecimal integers -/

def HoldsHex (m : Mem) (j : Nat) (ds : List Nat) : Prop := ∀ n (h : n < ds.length), m (hexBase + (j + n)) = ds[n]

theorem HoldsHex.cons {m : Mem} {j d : Nat} {ds : List Nat} (h : m (hexBase + j) = d) (hs : HoldsHex m (j + 1) ds) :
    HoldsHex m j (d :: ds) := by
  intro n hn
  cases n with
  | zero => simpa using h
  | succ n =>
    have := hs n (by simpa using hn)
    simpa [Nat.add_assoc, Nat.add_comm 1 n] using this

theorem HoldsHex.head {m : Mem} {j d : Nat} {ds : List Nat} (h : HoldsHex m j (d :: ds)) : m (hexBase + j) = d := by
  have := h 0 (by simp)
  simpa only [Nat.add_zero, List.getElem_cons_zero] using this

theorem HoldsHex.tail {m : Mem} {j d : Nat} {ds : List Nat} (h : HoldsHex m j (d :: ds)) : HoldsHex m (j + 1) ds := by
  intro n hn
  have := h (n + 1) (by simpa using hn)
  simpa [Nat.add_assoc, Nat.add_comm 1 n] using this

theorem HoldsHex.nil (m : Mem) (j : Nat) : HoldsHex m j [] := fun n h => absurd h (Nat.not_lt_zero n)

theorem storeHex_run {α : Type} (k : Nat → List Char → Prog α) : ∀ (room : Nat) (rest : List Char) (j : Nat)
    (m : Mem), ∃ m', (storeHex k rest room j).run m =
      (k (j + (hexLoop rest room).1.length) (hexLoop rest room).2).run m' ∧
      (∀ i < j, m' (hexBase + i) = m (hexBase + i)) ∧ HoldsHex m' j (hexLoop rest room).1
  | 0, rest, j, m => ⟨m, by simp [storeHex, hexLoop], fun _ _ => rfl, by
      cases rest <;> exact HoldsHex.nil _ _⟩
  | room + 1, [], j, m => ⟨m, by simp [storeHex, hexLoop], fun _ _ => rfl, HoldsHex.nil _ _⟩
  | room + 1, c :: cs, j, m => by
    cases h : Conv.hexDigit c with
    | none => exact ⟨m, by simp [storeHex, hexLoop, h], fun _ _ => rfl, by simp [hexLoop, h]; exact HoldsHex.nil _ _⟩
    | some d =>
      obtain ⟨m', h1, h2, h3⟩ := storeHex_run k room cs (j + 1) (Function.update m (hexBase + j) d)
      refine ⟨m', ?_, fun i hi => ?_, ?_⟩
      · simp only [storeHex, hexLoop, h, Prog.run, h1, List.length_cons]
        congr 2
        omega
      · rw [h2 i (by omega), Function.update_of_ne (by omega)]
      · simp only [hexLoop, h]
        exact HoldsHex.cons (by rw [h2 j (by omega)]; simp) h3

theorem sumHex_run {α : Type} (k : Option Int → Prog α) : ∀ (ds : List Nat) (i : Nat) (number : Int) (m : Mem),
    HoldsHex m i ds → (sumHex k i ds.length number).run m = (k (hexAccum number ds)).run m
  | [], i, number, m, _ => by simp [sumHex, hexAccum]
  | c :: cs, i, number, m, h => by
    simp only [List.length_cons, sumHex, hexAccum]
    by_cases hn : number < 3276
    · simp only [hn, if_true, Prog.run, h.head]
      exact sumHex_run k cs (i + 1) _ m h.tail
    · simp only [hn, if_false]

theorem hexCall_run (t : ITy) (inp : List Char) (m : Mem) : ((hexCall t inp).run m).1 = parseHex t inp := by
  unfold hexCall parseHex
  obtain ⟨m', h1, _, h3⟩ := storeHex_run (α := Got Int)
    (fun j rest => if j = 0 then .ret ⟨0, .readError, rest⟩ else sumHex (hexEnd t rest) 0 j 0) 25 inp 0 m
  rw [h1]
  simp only [Nat.zero_add]
  generalize hexLoop inp 25 = r at *
  cases hr : r.1 with
  | nil => simp [Prog.run]
  | cons d ds =>
    rw [hr] at h3
    simp only [List.length_cons, Nat.succ_ne_zero, if_false, reduceCtorEq]
    have := sumHex_run (hexEnd t r.2) (d :: ds) 0 0 m' h3
    rw [List.length_cons] at this
    rw [this]
    cases hexAccum 0 (d :: ds) <;> simp [Prog.run, hexEnd]

theorem getIntCall_run (t : ITy) (old : Int) (inp : List Char) (m : Mem) :
    ((getIntCall t old inp).run m).1 = getInt t old inp := by
  unfold getIntCall getInt
  cases skip inp with
  | none => rfl
  | some r =>
    obtain ⟨c, cs⟩ := r
    simp only
    by_cases h1 : c = '-'
    · simp only [h1, if_true]
      by_cases h2 : t.signed = true
      · simp only [h2, if_true]
        cases cs with
        | nil => rfl
        | cons d ds => exact intCall_run ..
      · simp only [h2]
        exact intCall_run ..
    · simp only [h1, if_false]
      by_cases h2 : c = '+'
      · simp only [h2, if_true]
        cases cs with
        | nil => rfl
        | cons d ds => exact intCall_run ..
      · simp only [h2, if_false]
        by_cases h3 : c = '0'
        · simp only [h3, if_true]
          cases cs with
          | nil => rfl
          | cons d ds =>
            simp only
            by_cases h4 : blank d = true
            · simp only [h4, if_true]; rfl
            · simp only [h4]
              by_cases h5 : d = 'x'
              · simp only [h5, if_true]; exact hexCall_run ..
              · simp only [h5, if_false]; exact intCall_run ..
        · simp only [h3, if_false]
          by_cases h5 : c = 'x'
          · simp only [h5, if_true]; exact hexCall_run ..
          · simp only [h5, if_false]; exact intCall_run ..

/-! ## Reading fractions -/

theorem storeFrac_run {α : Type} (k : Nat → Char → List Char → Prog α) : ∀ (room : Nat) (c : Char) (rest : List Char) (j : Nat)
    (m : Mem), ∃ m', (storeFrac k c rest room j).run m =
      (k (j + (fracLoop c rest room).1.length) (fracLoop c rest room).2.1 (fracLoop c rest room).2.2).run m' ∧
      (∀ i < j, m' i = m i) ∧ Holds m' j (fracLoop c rest room).1
  | 0, c, rest, j, m => ⟨m, by simp [storeFrac, fracLoop], fun _ _ => rfl, by
      cases rest <;> exact Holds.nil _ _⟩
  | room + 1, c, [], j, m => by
    by_cases h : dig c = true
    · refine ⟨Function.update m j c.toNat, by simp [storeFrac, fracLoop, h, Prog.run], fun i hi => ?_, ?_⟩
      · rw [Function.update_of_ne (by omega)]
      · simp only [fracLoop]
        exact Holds.nil _ _
    · exact ⟨m, by simp [storeFrac, fracLoop, h], fun _ _ => rfl, by simp [fracLoop]; exact Holds.nil _ _⟩
  | room + 1, c, d :: ds, j, m => by
    by_cases h : dig c = true
    · obtain ⟨m', h1, h2, h3⟩ := storeFrac_run k room d ds (j + 1) (Function.update m j c.toNat)
      refine ⟨m', ?_, fun i hi => ?_, ?_⟩
      · simp only [storeFrac, fracLoop, h, if_true, Prog.run, h1, List.length_cons]
        congr 2
        omega
      · rw [h2 i (by omega), Function.update_of_ne (by omega)]
      · simp only [fracLoop, h, if_true]
        exact Holds.cons (by rw [h2 j (by omega)]; simp) h3
    · exact ⟨m, by simp [storeFrac, fracLoop, h], fun _ _ => rfl, by simp [fracLoop, h]; exact Holds.nil _ _⟩

theorem sumInt_run {α : Type} (k : Rat → Prog α) : ∀ (ds : List Char) (i : Nat) (number : Rat) (m : Mem),
    Holds m i ds → (sumInt k i ds.length number).run m = (k (intSum number ds)).run m
  | [], i, number, m, _ => by simp [sumInt, intSum]
  | c :: cs, i, number, m, h => by
    simp only [List.length_cons, sumInt, intSum, Prog.run, h.head]
    exact sumInt_run k cs (i + 1) _ m h.tail

theorem sumFrac_run {α : Type} (k : Rat → Prog α) : ∀ (ds : List Char) (i : Nat) (mult number : Rat) (m : Mem),
    Holds m i ds → (sumFrac k i ds.length mult number).run m = (k (fracSum mult number ds)).run m
  | [], i, mult, number, m, _ => by simp [sumFrac, fracSum]
  | c :: cs, i, mult, number, m, h => by
    simp only [List.length_cons, sumFrac, fracSum, Prog.run, h.head]
    exact sumFrac_run k cs (i + 1) _ _ m h.tail

theorem floatCall_run (sign old : Rat) (c : Char) (rest : List Char) (m : Mem) :
    ((floatCall sign old c rest).run m).1 = finishFloat sign old c rest := by
  unfold floatCall finishFloat
  generalize hk : (fun (i : Nat) (e : Char) (rest : List Char) =>
    sumInt (α := Got Rat) (fun number =>
      if e = '.' then
        match rest with
        | [] => .ret ⟨old, .readError, []⟩
        | d :: ds =>
          storeFrac (fun j _ rest =>
            sumFrac (fun number =>
              if i + j = 0 then .ret ⟨old, .conversionError, rest⟩ else .ret ⟨sign * number, .noError, rest⟩)
              0 j 1 number) d ds 25 0
      else if i = 0 then .ret ⟨old, .conversionError, rest⟩
      else .ret ⟨sign * number, .noError, rest⟩) 0 i 0) = k
  obtain ⟨m', h1, _, h3⟩ := storeFrac_run k 25 c rest 0 m
  rw [h1]
  subst hk
  simp only [Nat.zero_add]
  generalize fracLoop c rest 25 = r at *
  rw [sumInt_run _ r.1 0 0 m' h3]
  by_cases he : r.2.1 = '.'
  · simp only [he, if_true]
    cases r.2.2 with
    | nil => simp [Prog.run]
    | cons d ds =>
      simp only
      generalize hk : (fun (j : Nat) (_ : Char) (rest : List Char) =>
        sumFrac (α := Got Rat) (fun number =>
          if r.1.length + j = 0 then .ret ⟨old, .conversionError, rest⟩ else .ret ⟨sign * number, .noError, rest⟩)
          0 j 1 (intSum 0 r.1)) = k
      obtain ⟨m2, g1, _, g3⟩ := storeFrac_run k 25 d ds 0 m'
      rw [g1]
      subst hk
      simp only [Nat.zero_add]
      generalize fracLoop d ds 25 = q at *
      rw [sumFrac_run _ q.1 0 1 _ m2 g3]
      split <;> simp [Prog.run]
  · simp only [he, if_false]
    split <;> simp [Prog.run]

theorem getFloatCall_run (old : Rat) (inp : List Char) (m : Mem) :
    ((getFloatCall old inp).run m).1 = getFloat old inp := by
  unfold getFloatCall getFloat
  cases skip inp with
  | none => rfl
  | some r =>
    obtain ⟨c, cs⟩ := r
    simp only
    by_cases h1 : c = '-'
    · simp only [h1, if_true]
      cases cs with
      | nil => rfl
      | cons d ds => exact floatCall_run ..
    · simp only [h1, if_false]
      by_cases h2 : c = '+'
      · simp only [h2, if_true]
        cases cs with
        | nil => rfl
        | cons d ds => exact floatCall_run ..
      · simp only [h2, if_false]
        exact floatCall_run ..

/-! ## Formatting -/

theorem putText_run {α : Type} (p : Prog α) : ∀ (t : List Char) (i : Nat) (m : Mem),
    ∃ m', (putText p i t).run m = p.run m' ∧ (∀ j < i, m' j = m j) ∧ Holds m' i t ∧ m' (i + t.length) = 0
  | [], i, m => ⟨Function.update m i 0, rfl, fun j hj => Function.update_of_ne (by omega) _ _, Holds.nil _ _, by simp⟩
  | c :: cs, i, m => by
    obtain ⟨m', h1, h2, h3, h4⟩ := putText_run p cs (i + 1) (Function.update m i c.toNat)
    refine ⟨m', by simp only [putText, Prog.run, h1], fun j hj => ?_, Holds.cons ?_ h3, ?_⟩
    · rw [h2 j (by omega), Function.update_of_ne (by omega)]
    · rw [h2 i (by omega)]; simp
    · rw [List.length_cons, show i + (cs.length + 1) = i + 1 + cs.length by omega]; exact h4

theorem getText_run {α : Type} (k : List Char → Prog α) : ∀ (t : List Char) (i n : Nat) (acc : List Char) (m : Mem),
    t.length ≤ n → (∀ c ∈ t, c ≠ Char.ofNat 0) → Holds m i t → m (i + t.length) = 0 →
    (getText k i n acc).run m = (k (acc ++ t)).run m
  | [], i, 0, acc, m, _, _, _, _ => by simp [getText]
  | [], i, n + 1, acc, m, _, _, _, hz => by
    have : m i = 0 := by simpa using hz
    simp [getText, Prog.run, this]
  | c :: cs, i, 0, acc, m, hn, _, _, _ => by simp at hn
  | c :: cs, i, n + 1, acc, m, hn, hc, h, hz => by
    have h0 : c.toNat ≠ 0 := by
      intro e
      apply hc c (by simp)
      rw [← e, Char.ofNat_toNat]
    simp only [getText, Prog.run, h.head, h0, if_false, Char.ofNat_toNat]
    rw [getText_run k cs (i + 1) n (acc ++ [c]) m (by simpa using hn) (fun x hx => hc x (by simp [hx])) h.tail (by
      rw [← hz, List.length_cons]; congr 1; omega)]
    simp

theorem fixedCall_run {V : Type} (printf : Nat → V → List Char) (w : Int) (a : Form.Align) (p : Nat) (v : V) (m : Mem)
    (hz : ∀ d, ∀ c ∈ printf d v, c ≠ Char.ofNat 0) :
    ((fixedCall printf w a p v).run m).1 = Form.Float.formatFloat printf w a p .fixed v := by
  have key : ∀ (d : Nat) (m : Mem), ((putText
        (getText (fun t =>
          getText (fun u => .ret (
            if ¬ InInt (w - t.length) then .ub
            else .ok (Form.prePad a (w - t.length) ++ u ++ Form.postPad a (w - t.length)))) base 29 [])
          base 29 []) base ((printf d v).take 29)).run m).1 =
      Form.layout w (some a) ((printf d v).take 29).length ((printf d v).take 29) := by
    intro d m
    have hl : ((printf d v).take 29).length ≤ 29 := by rw [List.length_take]; omega
    have hz' : ∀ c ∈ (printf d v).take 29, c ≠ Char.ofNat 0 := fun c hc => hz d c (List.mem_of_mem_take hc)
    generalize (printf d v).take 29 = t at *
    obtain ⟨m', h1, _, h3, h4⟩ := putText_run (getText (α := Outcome (List Char)) (fun t =>
          getText (fun u => .ret (
            if ¬ InInt (w - t.length) then .ub
            else .ok (Form.prePad a (w - t.length) ++ u ++ Form.postPad a (w - t.length)))) base 29 [])
          base 29 []) t base m
    rw [h1, getText_run _ t base 29 [] m' hl hz' h3 h4, List.nil_append, getText_run _ t base 29 [] m' hl hz' h3 h4,
      List.nil_append]
    unfold Form.layout
    simp only [Prog.run]
    split
    · rfl
    · split
      next h => simp [Form.prePad, Form.postPad, h]
      next h => rfl
  unfold fixedCall Form.Float.formatFloat Form.Float.decimals
  by_cases h1 : p < 10
  · rw [if_pos h1, if_neg (by omega), if_pos (by omega)]
    simp only [Prog.run, Outcome.bind_ok]
    simp only [Function.update_self, Function.update_of_ne (by decide : (2 : Nat) ≠ 3), Function.update_of_ne (by decide : (2 : Nat) ≠ 4),
      Function.update_of_ne (by decide : (3 : Nat) ≠ 4), if_true, Nat.add_sub_cancel_left, Int.toNat_natCast]
    exact key _ _
  · by_cases h2 : p < 20
    · rw [if_neg h1, if_pos h2, if_neg (by omega), if_neg (by omega), if_pos (by omega)]
      simp only [Prog.run, Outcome.bind_ok]
      simp only [Function.update_self, Function.update_of_ne (by decide : (2 : Nat) ≠ 3), Function.update_of_ne (by decide : (2 : Nat) ≠ 4),
        Function.update_of_ne (by decide : (3 : Nat) ≠ 4), Nat.add_sub_cancel_left]
      have hne : '0'.toNat + (p - 10) ≠ 'f'.toNat := by
        have : '0'.toNat = 48 := rfl
        have : 'f'.toNat = 102 := rfl
        omega
      rw [if_neg hne]
      have e : 10 * ('1'.toNat - '0'.toNat) + (p - 10) = 10 + ((p : Int) - 10).toNat := by
        have : '0'.toNat = 48 := rfl
        have : '1'.toNat = 49 := rfl
        omega
      rw [e]
      exact key _ _
    · rw [if_neg h1, if_neg h2, if_neg (by omega), if_neg (by omega), if_neg (by omega)]
      simp only [Prog.run, Outcome.bind_ok]
      simp only [Function.update_self, Function.update_of_ne (by decide : (2 : Nat) ≠ 3), Function.update_of_ne (by decide : (2 : Nat) ≠ 4),
        Function.update_of_ne (by decide : (3 : Nat) ≠ 4)]
      exact key _ _

theorem map_run {α β : Type} (g : α → β) : ∀ (p : Prog α) (m : Mem), ((p.map g).run m).1 = g (p.run m).1
  | .ret a, m => rfl
  | .store i v p, m => map_run g p _
  | .load i k, m => map_run g (k (m i)) m

theorem prog_run {V : Type} (printf : Nat → V → List Char) (hz : ∀ d v, ∀ c ∈ printf d v, c ≠ Char.ofNat 0) (c : Call V)
    (m : Mem) : ((c.prog printf).run m).1 = alone printf c := by
  cases c with
  | getInt t old inp => simp only [Call.prog, map_run, getIntCall_run, alone]
  | getFloat old inp => simp only [Call.prog, map_run, getFloatCall_run, alone]
  | putFixed w a p v => simp only [Call.prog, map_run, fixedCall_run printf w a p v m fun d => hz d v, alone]

/-! ## Threads -/

/-- The value of a call that does not depend on what the array held before. -/
def Value {α : Type} (p : Prog α) (a : α) : Prop := ∀ m, (p.run m).1 = a

/-- Thread by thread: the results so far, then the call in progress, then those to come. -/
def Good {α : Type} (s : State α) (expected : Nat → List α) : Prop :=
  ∀ i, ∃ mid last, expected i = (s.th i).results ++ (mid ++ last) ∧
    (match (s.th i).cur with
      | none => mid = []
      | some (k, p) => mid = [(p.run (s.mem k)).1]) ∧
    List.Forall₂ (fun c a => Value c.2 a) (s.th i).todo last

theorem Good.step {α : Type} {s : State α} {expected : Nat → List α} (h : Good s expected) (hex : Exclusive s) (i : Nat) :
    Good (step s i) expected := by
  intro j
  by_cases hij : j = i
  · subst hij
    obtain ⟨mid, last, h1, h2, h3⟩ := h j
    unfold StaticBuf.step
    cases hc : (s.th j).cur with
    | none =>
      simp only [hc] at h2
      subst h2
      cases ht : (s.th j).todo with
      | nil =>
        simp only [ht]
        rw [ht] at h3
        refine ⟨[], last, h1, by rw [hc], ?_⟩
        first | exact h3 | (rw [ht]; exact h3)
      | cons c cs =>
        rw [ht] at h3
        cases h3 with
        | cons hv hr =>
          rename_i a as
          simp only [ht]
          refine ⟨[a], as, by simpa using h1, ?_, by simpa using hr⟩
          simp only [Function.update_self]
          rw [hv (s.mem c.1)]
    | some kp =>
      obtain ⟨k, p⟩ := kp
      simp only [hc] at h2
      subst h2
      cases p with
      | ret a =>
        simp only
        refine ⟨[], last, ?_, by simp, by simpa using h3⟩
        simpa [Prog.run] using h1
      | store n v p =>
        simp only
        exact ⟨[((Prog.store n v p).run (s.mem k)).1], last, by simpa using h1, by simp [Prog.run], by simpa using h3⟩
      | load n f =>
        simp only
        exact ⟨[((Prog.load n f).run (s.mem k)).1], last, by simpa using h1, by simp [Prog.run], by simpa using h3⟩
  · obtain ⟨mid, last, h1, h2, h3⟩ := h j
    have hth : (StaticBuf.step s i).th j = s.th j := by
      unfold StaticBuf.step
      cases hc : (s.th i).cur with
      | none => cases ht : (s.th i).todo <;> simp [Function.update_of_ne hij]
      | some kp => obtain ⟨k, p⟩ := kp; cases p <;> simp [Function.update_of_ne hij]
    refine ⟨mid, last, by rw [hth]; exact h1, ?_, by rw [hth]; exact h3⟩
    rw [hth]
    cases hcj : (s.th j).cur with
    | none => simpa [hcj] using h2
    | some kp =>
      obtain ⟨k, q⟩ := kp
      simp only [hcj] at h2 ⊢
      rw [h2]
      have hmem : (StaticBuf.step s i).mem k = s.mem k := by
        unfold StaticBuf.step
        cases hc : (s.th i).cur with
        | none => cases ht : (s.th i).todo <;> simp
        | some kp =>
          obtain ⟨k', p⟩ := kp
          cases p with
          | ret a => rfl
          | load n f => rfl
          | store n v p =>
            simp only
            rw [Function.update_of_ne]
            rintro rfl
            exact hex i j k _ _ (fun e => hij e.symm) hc hcj
      rw [hmem]

theorem exec_good {α : Type} (expected : Nat → List α) (sched : List Nat) : ∀ (s : State α), Good s expected →
    (∀ n ≤ sched.length, Exclusive (exec s (sched.take n))) → Good (exec s sched) expected := by
  induction sched with
  | nil => intro s h _; exact h
  | cons i is ih =>
    intro s h hex
    have := ih (step s i) (h.step (by simpa [exec] using hex 0 (Nat.zero_le _)) i) (fun n hn => by
      have := hex (n + 1) (by simpa using hn)
      simpa [exec] using this)
    simpa [exec] using this

end Ecl.StaticBuf
