import Verif.Spec.Rows
import Verif.Spec.FixedNumeral
import Verif.Props.C40_C41_Formatters
import Mathlib.Tactic.Linarith
import Mathlib.Tactic.Ring
import Mathlib.Tactic.FieldSimp
import Mathlib.Tactic.Positivity

/-!
# Lemmas on the formatters of containers
-/
set_option autoImplicit false
set_option linter.unusedSimpArgs false

namespace Ecl.Form
open Ecl.Spec
variable {V : Type}

/-! ## Lengths of numerals -/

theorem digit_lt {c : Char} (h : c.isDigit = true) : c.toNat - '0'.toNat < 10 := by
  simp only [Char.isDigit, Bool.and_eq_true, decide_eq_true_eq, UInt32.le_iff_toNat_le] at h
  have h2 := h.2
  change c.toNat ≤ 57 at h2
  change c.toNat - 48 < 10
  omega

theorem ofDigitChars_lt : ∀ (l : List Char), (∀ c ∈ l, c.isDigit = true) → Nat.ofDigitChars 10 l 0 < 10 ^ l.length
  | [], _ => by simp
  | c :: l, h => by
    have h1 := digit_lt (h c (by simp))
    have h2 := ofDigitChars_lt l (fun c hc => h c (by simp [hc]))
    rw [Nat.ofDigitChars_cons, Nat.ofDigitChars_eq_ofDigitChars_zero, List.length_cons, pow_succ]
    nlinarith [Nat.pow_pos (n := l.length) (show 0 < 10 by norm_num)]

theorem digit_pos {c : Char} (h : c.isDigit = true) (h0 : c ≠ '0') : 1 ≤ c.toNat - '0'.toNat := by
  simp only [Char.isDigit, Bool.and_eq_true, decide_eq_true_eq, UInt32.le_iff_toNat_le] at h
  have h1 := h.1
  change 48 ≤ c.toNat at h1
  change 1 ≤ c.toNat - 48
  have : c.toNat ≠ 48 := fun e => h0 (Char.ext (UInt32.toNat_inj.1 e))
  omega

theorem le_ofDigitChars {c : Char} {l : List Char} (h : c.isDigit = true) (h0 : c ≠ '0') :
    10 ^ l.length ≤ Nat.ofDigitChars 10 (c :: l) 0 := by
  have h1 := digit_pos h h0
  rw [Nat.ofDigitChars_cons, Nat.ofDigitChars_eq_ofDigitChars_zero]
  nlinarith [Nat.pow_pos (n := l.length) (show 0 < 10 by norm_num)]

theorem le_places (x : ℚ) : |x| + 1 ≤ 10 ^ Cont.places x := by
  have h := Nat.le_pow_clog (b := 10) (by norm_num) (⌈|x|⌉₊ + 1)
  have h1 : ((⌈|x|⌉₊ : ℕ) : ℚ) + 1 ≤ 10 ^ Cont.places x := by exact_mod_cast h
  linarith [Nat.le_ceil |x|]

theorem places_le {x : ℚ} {k : Nat} (h : |x| + 1 ≤ 10 ^ k) : Cont.places x ≤ k := by
  refine Nat.clog_le_of_le_pow ?_
  have h1 : |x| ≤ ((10 ^ k - 1 : ℕ) : ℚ) := by
    rw [Nat.cast_sub (Nat.one_le_pow _ _ (by norm_num))]
    push_cast
    linarith
  have h2 := Nat.ceil_le.2 h1
  have h3 := Nat.one_le_pow k 10 (by norm_num)
  omega

theorem places_mono {x y : ℚ} (h : |x| ≤ |y|) : Cont.places x ≤ Cont.places y :=
  places_le (by linarith [le_places y])

/-- A numeral has no more characters than sign, places, point and decimals. -/
theorem numeral_length {d : Nat} {q : ℚ} {t : List Char} (h : FixedNumeral d q t) :
    (t.length : Int) ≤ (if q < 0 then 1 else 0) + (max (Cont.places q) 1 : Nat) + (1 + d) ∧
    (Cont.places q : Int) ≤ t.length + 1 := by
  obtain ⟨ip, fp, rfl, hf, hip, hd, hz, hv⟩ := h
  have hpos : (0 : ℚ) < 10 ^ d := by positivity
  have hv' := abs_le.1 hv
  set N := Nat.ofDigitChars 10 (ip ++ fp) 0 with hN
  have hNd : (N : ℚ) / 10 ^ d * 10 ^ d = N := by field_simp
  have e1 : (1 : ℚ) / 2 / 10 ^ d * 10 ^ d = 1 / 2 := by field_simp
  have up : (N : ℚ) ≤ |q| * 10 ^ d + 1 / 2 := by
    have := mul_le_mul_of_nonneg_right hv'.2 hpos.le
    rw [sub_mul, hNd, e1] at this
    linarith
  have dn : |q| * 10 ^ d - 1 / 2 ≤ (N : ℚ) := by
    have := mul_le_mul_of_nonneg_right hv'.1 hpos.le
    rw [sub_mul, hNd, neg_mul, e1] at this
    linarith
  have hone : (1 : ℚ) ≤ 10 ^ d := one_le_pow₀ (by norm_num)
  have hlen : ip.length ≤ max (Cont.places q) 1 := by
    cases ip with
    | nil => simp
    | cons c l =>
      by_cases h0 : c = '0'
      · have := hz (by simp [h0])
        rw [this]; simp
      · have hb := le_ofDigitChars (l := l ++ fp) (hd c (by simp)) h0
        have hb' : 10 ^ (l.length + d) ≤ N := by
          rw [hN]
          simpa [hf] using hb
        have hp := le_places q
        have h3 : (N : ℚ) < 10 ^ (Cont.places q + d) := by
          have : |q| * 10 ^ d ≤ (10 ^ Cont.places q - 1) * 10 ^ d :=
            mul_le_mul_of_nonneg_right (by linarith) hpos.le
          rw [pow_add]
          nlinarith
        have h4 : N < 10 ^ (Cont.places q + d) := by exact_mod_cast h3
        have h5 := (Nat.pow_lt_pow_iff_right (a := 10) (by norm_num)).1 (lt_of_le_of_lt hb' h4)
        simp only [List.length_cons]
        omega
  have hpl : Cont.places q ≤ ip.length + 1 := by
    have hlt := ofDigitChars_lt (ip ++ fp) hd
    rw [← hN, List.length_append, hf] at hlt
    have h1 : N + 1 ≤ 10 ^ (ip.length + d) := hlt
    have h2 : (N : ℚ) + 1 ≤ 10 ^ ip.length * 10 ^ d := by rw [← pow_add]; exact_mod_cast h1
    have h3 : |q| < 10 ^ ip.length := by
      by_contra hc
      have := mul_le_mul_of_nonneg_right (not_lt.1 hc) hpos.le
      linarith
    refine places_le ?_
    have h4 : (1 : ℚ) ≤ 10 ^ ip.length := one_le_pow₀ (by norm_num)
    rw [pow_succ]
    linarith
  have hl : ∀ a : List Char, (a ++ ip ++ (if d = 0 then [] else '.' :: fp)).length = a.length + ip.length + (if d = 0 then 0 else d + 1) := by
    intro a
    by_cases hd0 : d = 0 <;> simp [hd0, hf, Nat.add_assoc]
  rw [hl]
  by_cases hq : q < 0
  · simp only [hq, if_true]
    constructor
    · split <;> simp <;> omega
    · push_cast; omega
  · simp only [hq, if_false]
    constructor
    · split <;> simp <;> omega
    · push_cast; omega

/-! ## The width that is chosen -/

theorem range_spec (val : V → ℚ) (x : V) (xs : List V) :
    (∀ y ∈ x :: xs, (Cont.range val x xs).1 ≤ val y ∧ val y ≤ (Cont.range val x xs).2) ∧
    (∃ y ∈ x :: xs, (Cont.range val x xs).1 = val y) ∧ (∃ y ∈ x :: xs, (Cont.range val x xs).2 = val y) := by
  have gen : ∀ (xs : List V) (r : ℚ × ℚ), r.1 ≤ r.2 →
      let f := xs.foldl (fun (r : ℚ × ℚ) x => (if val x < r.1 then val x else r.1, if val x > r.2 then val x else r.2)) r
      (f.1 ≤ r.1 ∧ r.2 ≤ f.2) ∧ (∀ y ∈ xs, f.1 ≤ val y ∧ val y ≤ f.2) ∧
      (f.1 = r.1 ∨ ∃ y ∈ xs, f.1 = val y) ∧ (f.2 = r.2 ∨ ∃ y ∈ xs, f.2 = val y) := by
    intro xs
    induction xs with
    | nil => intro r _; simp
    | cons a l ih =>
      intro r hr
      have hr' : (if val a < r.1 then val a else r.1) ≤ (if val a > r.2 then val a else r.2) := by
        split <;> split <;> linarith
      obtain ⟨⟨b1, b2⟩, h2, h3, h4⟩ := ih (if val a < r.1 then val a else r.1, if val a > r.2 then val a else r.2) hr'
      have c1 : (if val a < r.1 then val a else r.1) ≤ r.1 ∧ (if val a < r.1 then val a else r.1) ≤ val a := by
        split <;> constructor <;> linarith
      have c2 : r.2 ≤ (if val a > r.2 then val a else r.2) ∧ val a ≤ (if val a > r.2 then val a else r.2) := by
        split <;> constructor <;> linarith
      refine ⟨⟨b1.trans c1.1, c2.1.trans b2⟩, ?_, ?_, ?_⟩
      · intro y hy
        rcases List.mem_cons.1 hy with rfl | hy
        · exact ⟨b1.trans c1.2, c2.2.trans b2⟩
        · exact h2 y hy
      · rcases h3 with h3 | ⟨y, hy, h3⟩
        · simp only [List.foldl_cons]
          rw [h3]
          split
          · exact .inr ⟨a, by simp, rfl⟩
          · exact .inl rfl
        · exact .inr ⟨y, by simp [hy], h3⟩
      · rcases h4 with h4 | ⟨y, hy, h4⟩
        · simp only [List.foldl_cons]
          rw [h4]
          dsimp only
          split
          · exact .inr ⟨a, by simp, rfl⟩
          · exact .inl rfl
        · exact .inr ⟨y, by simp [hy], h4⟩
  obtain ⟨⟨b1, b2⟩, h2, h3, h4⟩ := gen xs (val x, val x) le_rfl
  refine ⟨?_, ?_, ?_⟩
  · intro y hy
    rcases List.mem_cons.1 hy with rfl | hy
    · exact ⟨b1, b2⟩
    · exact h2 y hy
  · rcases h3 with h3 | ⟨y, hy, h3⟩
    · exact ⟨x, by simp, h3⟩
    · exact ⟨y, by simp [hy], h3⟩
  · rcases h4 with h4 | ⟨y, hy, h4⟩
    · exact ⟨x, by simp, h4⟩
    · exact ⟨y, by simp [hy], h4⟩

/-- All numbers of the container fit into the width that is chosen. -/
theorem digits_fits (val : V → ℚ) (printf : Nat → V → Text) (p : Nat) (x : V) (xs : List V)
    (hp : ∀ v ∈ x :: xs, FixedNumeral p (val v) (printf p v)) (hl : ∀ v ∈ x :: xs, (printf p v).length ≤ 29) :
    (∀ v ∈ x :: xs, ((printf p v).length : Int) ≤ Cont.digits p (Cont.range val x xs).1 (Cont.range val x xs).2) ∧
    0 ≤ Cont.digits p (Cont.range val x xs).1 (Cont.range val x xs).2 ∧
    Cont.digits p (Cont.range val x xs).1 (Cont.range val x xs).2 ≤ p + 40 := by
  obtain ⟨h1, ⟨a, ha, h2⟩, ⟨b, hb, h3⟩⟩ := range_spec val x xs
  set lo := (Cont.range val x xs).1
  set hi := (Cont.range val x xs).2
  have pa := (numeral_length (hp a ha)).2
  have pb := (numeral_length (hp b hb)).2
  rw [← h2] at pa
  rw [← h3] at pb
  have la := hl a ha
  have lb := hl b hb
  have hact : ∀ n : Nat, (n ≤ Cont.places lo ∨ n ≤ Cont.places hi) →
      ((max n 1 : Nat) : Int) ≤ (if Cont.places lo < Cont.places hi then (Cont.places hi : Int)
        else if Cont.places lo = 0 ∧ Cont.places hi = 0 then 1 else Cont.places lo) := by
    intro n hn
    split
    · omega
    · split <;> omega
  refine ⟨?_, ?_, ?_⟩
  · intro v hv
    obtain ⟨g1, g2⟩ := h1 v hv
    have hn := (numeral_length (hp v hv)).1
    have hm : Cont.places (val v) ≤ Cont.places lo ∨ Cont.places (val v) ≤ Cont.places hi := by
      by_cases h0 : 0 ≤ val v
      · right
        exact places_mono (by rw [abs_of_nonneg h0, abs_of_nonneg (h0.trans g2)]; exact g2)
      · left
        have h0' : val v < 0 := not_le.1 h0
        exact places_mono (by rw [abs_of_neg h0', abs_of_neg (lt_of_le_of_lt g1 h0')]; linarith)
    have := hact _ hm
    simp only [Cont.digits]
    by_cases hneg : val v < 0
    · have : lo < 0 := lt_of_le_of_lt g1 hneg
      simp only [hneg, this, if_true] at hn ⊢
      omega
    · simp only [hneg, if_false] at hn
      split <;> omega
  · simp only [Cont.digits]
    split <;> split <;> (try split) <;> omega
  · simp only [Cont.digits]
    split <;> split <;> (try split) <;> omega

/-! ## Printing -/

/-- Printing one number with a formatter at rest. -/
theorem print_one (m : Mode) (printf : Nat → V → Text) (f : Float.State V) (w : Int) (p : Nat) (a : Align) (v : V)
    (hf : f.prm = ⟨w, p, a, .fixed⟩) (hu : f.useTmp = false) (hw : -2147483600 ≤ w ∧ w ≤ 2147483647) (hp : p ≤ 20)
    (hl : (printf p v).length ≤ 29) :
    ∃ t, Float.step m printf f (.item v) = .ok { f with item := some v } [] ∧
      Float.step m printf { f with item := some v } .stream = .ok { f with item := none } t ∧ Laid w a (printf p v) t := by
  have hd : Float.decimals p = .ok p := by
    unfold Float.decimals
    rw [if_neg (by omega)]
    by_cases h1 : p < 10
    · rw [if_pos (by omega)]; simp
    · rw [if_neg (by omega)]
      by_cases h2 : p < 20
      · rw [if_pos (by omega)]; congr 1; omega
      · rw [if_neg (by omega)]; congr 1; omega
  have ht : (printf p v).take 29 = printf p v := List.take_of_length_le hl
  obtain ⟨t, h1, h2⟩ := Props.layout_laid w a (printf p v) (by unfold InInt intMin intMax; omega)
    (by unfold InInt intMin intMax; omega)
  refine ⟨t, rfl, ?_, h2⟩
  have : Float.formatFloat printf w a p .fixed v = .ok t := by
    simp only [Float.formatFloat, hd, Outcome.bind_ok, ht, h1]
  simp [Float.step, Float.State.cur, hu, hf, this]

/-- Printing a row. -/
theorem printAll_ok (m : Mode) (printf : Nat → V → Text) (w : Int) (p : Nat) (hw : -2147483600 ≤ w ∧ w ≤ 2147483647)
    (hp : p ≤ 20) : ∀ (c : List V) (f : Float.State V), f.prm = ⟨w, p, .right, .fixed⟩ → f.useTmp = false → f.item = none →
    (∀ v ∈ c, (printf p v).length ≤ 29) →
    ∃ cells, Cont.printAll m printf f c = .ok f (cells.map fun t => t ++ " ".toList).flatten ∧ Cells printf p w c cells
  | [], f, _, _, _, _ => ⟨[], rfl, List.Forall₂.nil⟩
  | v :: vs, f, hf, hu, hi, hl => by
    obtain ⟨t, h1, h2, h3⟩ := print_one m printf f w p .right v hf hu hw hp (hl v (by simp))
    have hfi : ({ f with item := none } : Float.State V) = f := by cases f; simp at hi; simp [hi]
    obtain ⟨cells, h4, h5⟩ := printAll_ok m printf w p hw hp vs f hf hu hi (fun v h => hl v (by simp [h]))
    refine ⟨t :: cells, ?_, List.Forall₂.cons h3 h5⟩
    rw [hfi] at h2
    simp only [Cont.printAll, h1, h2, h4, List.map_cons, List.flatten_cons]

end Ecl.Form
