import Verif.Model.Converters
import Verif.Spec.Text
import Mathlib.Data.Nat.Bitwise
import Mathlib.Tactic.IntervalCases
import Mathlib.Tactic.Ring
import Mathlib.Tactic.Linarith

/-! Helper lemmas for C10–C15. -/
set_option autoImplicit false
set_option linter.unusedSimpArgs false

namespace Ecl.Conv
open Ecl.Spec

theorem s32_emod (n w : Nat) (hw : w ≤ 32) : s32 n % 2 ^ w = ((n % 2 ^ w : Nat) : Int) := by
  have hdvd : (2 ^ w : Nat) ∣ 4294967296 := by
    have : (4294967296 : Nat) = 2 ^ 32 := by norm_num
    rw [this]; exact pow_dvd_pow 2 hw
  have hm : n % 4294967296 % 2 ^ w = n % 2 ^ w := Nat.mod_mod_of_dvd n hdvd
  obtain ⟨k, hk⟩ := hdvd
  have hk' : (4294967296 : Int) = 2 ^ w * k := by exact_mod_cast hk
  have h1 : (((n % 4294967296 : Nat) : Int)) % 2 ^ w = ((n % 2 ^ w : Nat) : Int) := by
    rw [← hm]; push_cast; rfl
  unfold s32
  split
  · exact h1
  · rw [hk', Int.sub_mul_emod_self_left]; exact h1

theorem or_shift (acc b i : Nat) (h : acc < 2 ^ (8 * i)) :
    acc ||| b * 2 ^ (8 * i) = acc + b * 2 ^ (8 * i) := by
  rw [Nat.or_comm, ← Nat.shiftLeft_eq, ← Nat.shiftLeft_add_eq_or_of_lt h, Nat.add_comm]

theorem leValue_lt (bs : List Nat) (h : ∀ b ∈ bs, b < 256) : leValue bs < 2 ^ (8 * bs.length) := by
  induction bs with
  | nil => simp [leValue]
  | cons b bs ih =>
    have h1 := h b (by simp)
    have h2 := ih fun c hc => h c (by simp [hc])
    have e : 2 ^ (8 * (b :: bs).length) = 256 * 2 ^ (8 * bs.length) := by
      simp only [List.length_cons, Nat.mul_add, Nat.pow_add]; ring
    rw [e, leValue]
    omega

theorem fromLoop_eq (w : Nat) : ∀ (bs : List Nat) (i acc : Nat), (∀ b ∈ bs, b < 256) →
    acc < 2 ^ (8 * i) → 8 * (i + bs.length) ≤ w → i + bs.length ≤ 4 →
    (w ≤ 32 ∨ acc + 2 ^ (8 * i) * leValue bs < 2147483648) →
    fromLoop w bs i acc = .ok (acc + 2 ^ (8 * i) * leValue bs) := by
  intro bs
  induction bs with
  | nil => intro i acc _ _ _ _ _; simp [fromLoop, leValue]
  | cons b bs ih =>
    intro i acc hb hacc hlen h4 hw
    have hb0 : b < 256 := hb b (by simp)
    simp only [List.length_cons] at hlen h4
    have hpow : 2 ^ (8 * (i + 1)) = 256 * 2 ^ (8 * i) := by
      rw [Nat.mul_add, Nat.pow_add]; ring
    have hpos : 0 < 2 ^ (8 * i) := Nat.pow_pos (by decide)
    have hle : b * 2 ^ (8 * i) < 2 ^ (8 * (i + 1)) := by
      rw [hpow]; exact Nat.mul_lt_mul_of_pos_right hb0 hpos
    have hlw : b * 2 ^ (8 * i) < 2 ^ w :=
      lt_of_lt_of_le hle (Nat.pow_le_pow_right (by decide) (by omega))
    have hx : (s32 (b * 2 ^ (8 * i)) % 2 ^ w).toNat = b * 2 ^ (8 * i) := by
      rcases hw with hw | hw
      · rw [s32_emod _ _ hw, Nat.mod_eq_of_lt hlw, Int.toNat_natCast]
      · have : b * 2 ^ (8 * i) < 2147483648 := by
          have : 2 ^ (8 * i) * leValue (b :: bs) = b * 2 ^ (8 * i) + 2 ^ (8 * i) * (256 * leValue bs) := by
            simp only [leValue]; ring
          omega
        rw [s32_small this, Int.emod_eq_of_lt (by positivity) (by exact_mod_cast hlw), Int.toNat_natCast]
    have hsum : acc + b * 2 ^ (8 * i) < 2 ^ (8 * (i + 1)) := by
      rw [hpow]
      have : b * 2 ^ (8 * i) ≤ 255 * 2 ^ (8 * i) := Nat.mul_le_mul_right _ (by omega)
      omega
    have hval : acc + b * 2 ^ (8 * i) + 2 ^ (8 * (i + 1)) * leValue bs
        = acc + 2 ^ (8 * i) * leValue (b :: bs) := by
      rw [hpow, leValue]; ring
    have hs : ¬ 32 ≤ 8 * i := by omega
    simp only [fromLoop, shiftByte, if_neg hs, Outcome.bind_ok, hx]
    rw [or_shift _ _ _ hacc, ih (i + 1) _ (fun c hc => hb c (by simp [hc])) hsum (by omega) (by omega)
      (by rw [hval]; exact hw), hval]

/-- Beyond four bytes the loop always reaches an undefined shift. -/
theorem fromLoop_ub (w : Nat) : ∀ (bs : List Nat) (i acc : Nat), i ≤ 4 → 4 < i + bs.length →
    fromLoop w bs i acc = .ub := by
  intro bs
  induction bs with
  | nil => intro i acc h h'; simp at h'; omega
  | cons b bs ih =>
    intro i acc h h'
    rcases Nat.lt_or_ge i 4 with hi | hi
    · have hs : ¬ 32 ≤ 8 * i := by omega
      simp only [fromLoop, shiftByte, if_neg hs, Outcome.bind_ok]
      exact ih _ _ (by omega) (by simp at h'; omega)
    · have hs : 32 ≤ 8 * i := by omega
      simp only [fromLoop, shiftByte, if_pos hs, Outcome.bind_ub]

theorem emod_split (v : Int) (k : Nat) (hk : 0 < k) :
    v % (256 * k) = v % 256 + 256 * ((v / 256) % k) := by
  have h1 := Int.emod_add_mul_ediv v 256
  have h2 := Int.emod_add_mul_ediv (v / 256) k
  have hk' : (0 : Int) < k := by exact_mod_cast hk
  have h3 := Int.emod_nonneg v (show (256 : Int) ≠ 0 by decide)
  have h4 := Int.emod_lt_of_pos v (show (0 : Int) < 256 by decide)
  have h5 := Int.emod_nonneg (v / 256) (ne_of_gt hk')
  have h6 := Int.emod_lt_of_pos (v / 256) hk'
  have e : v = (v % 256 + 256 * ((v / 256) % k)) + (256 * k) * (v / 256 / k) := by
    have : 256 * (v / 256 % k + k * (v / 256 / k)) = 256 * (v / 256) := by rw [h2]
    linarith
  conv_lhs => rw [e]
  rw [Int.add_mul_emod_self_left, Int.emod_eq_of_lt (by omega) (by nlinarith)]

theorem byteOf_succ (v : Int) (i : Nat) : byteOf v (i + 1) = byteOf (v / 256) i := by
  unfold byteOf
  have : (2 : Int) ^ (8 * (i + 1)) = 256 * 2 ^ (8 * i) := by rw [Nat.mul_add, pow_add]; ring
  rw [this, Int.ediv_ediv_of_nonneg (by decide)]

theorem leValue_toBytes (n : Nat) : ∀ v : Int,
    (leValue ((List.range n).map (byteOf v)) : Int) = v % 2 ^ (8 * n) := by
  induction n with
  | zero => intro v; simp [leValue, Int.emod_one]
  | succ n ih =>
    intro v
    have e1 : (List.range (n + 1)).map (byteOf v)
        = byteOf v 0 :: (List.range n).map (byteOf (v / 256)) := by
      rw [List.range_succ_eq_map, List.map_cons, List.map_map]
      congr 1
      apply List.map_congr_left
      intro i _; exact byteOf_succ v i
    have e2 : (2 : Int) ^ (8 * (n + 1)) = 256 * ((2 ^ (8 * n) : Nat) : Int) := by
      rw [Nat.mul_add, pow_add]; push_cast; ring
    rw [e1, leValue, e2, emod_split _ _ (by positivity)]
    push_cast
    rw [ih (v / 256)]
    have : ((byteOf v 0 : Nat) : Int) = v % 256 := by unfold byteOf; simp; omega
    rw [this]

theorem byteOf_lt (v : Int) (i : Nat) : byteOf v i < 256 := by unfold byteOf; omega

/-! ### Hex -/

theorem char_eq_ofNat (c : Char) (n : Nat) (h : c.toNat = n) : c = Char.ofNat n := by
  rw [← h, Char.ofNat_toNat]

theorem hexDigit_iff (c : Char) (d : Nat) : hexDigit c = some d ↔ Hex c d := by
  constructor
  · intro h
    unfold hexDigit at h
    simp only [show '0'.toNat = 48 from rfl, show '9'.toNat = 57 from rfl,
      show 'a'.toNat = 97 from rfl, show 'f'.toNat = 102 from rfl,
      show 'A'.toNat = 65 from rfl, show 'F'.toNat = 70 from rfl] at h
    split at h
    · rename_i h1
      obtain ⟨h1, h2⟩ := h1
      generalize hn : c.toNat = n at *
      have hc := char_eq_ofNat c n hn
      cases h
      interval_cases n <;> subst hc <;> decide
    · split at h
      · rename_i h1
        obtain ⟨h1, h2⟩ := h1
        generalize hn : c.toNat = n at *
        have hc := char_eq_ofNat c n hn
        cases h
        interval_cases n <;> subst hc <;> decide
      · split at h
        · rename_i h1
          obtain ⟨h1, h2⟩ := h1
          generalize hn : c.toNat = n at *
          have hc := char_eq_ofNat c n hn
          cases h
          interval_cases n <;> subst hc <;> decide
        · simp at h
  · intro h
    have key : ∀ p ∈ ("0123456789abcdef".toList.zip (List.range 16)) ++
        ("0123456789ABCDEF".toList.zip (List.range 16)), hexDigit p.1 = some p.2 := by decide
    exact key (c, d) (by rw [List.mem_append]; exact h)

theorem hex_lt {c : Char} {d : Nat} (h : Hex c d) : d < 16 := by
  have key : ∀ p ∈ ("0123456789abcdef".toList.zip (List.range 16)) ++
      ("0123456789ABCDEF".toList.zip (List.range 16)), p.2 < 16 := by decide
  exact key (c, d) (by rw [List.mem_append]; exact h)

/-- The unfinished tokens with which an accepted text may end. -/
def Cut (t : List Char) : Prop :=
  t = [] ∨ t = ['0'] ∨ t = ['0', 'x'] ∨ ∃ h a, Hex h a ∧ t = ['0', 'x', h]

theorem hexLoop_complete {s : List Char} {bs : List Nat} (h : HexText s bs) (t : List Char)
    (ht : Cut t) : ∀ byte out, hexLoop (s ++ t) .waitingZero byte out = some (out ++ bs) := by
  induction h with
  | nil =>
    intro byte out
    rcases ht with rfl | rfl | rfl | ⟨h, a, ha, rfl⟩
    · simp [hexLoop]
    · simp [hexLoop]
    · simp [hexLoop]
    · simp [hexLoop, (hexDigit_iff h a).2 ha]
  | blank _ ih => intro byte out; simp [hexLoop, ih]
  | tok ha hb _ ih =>
    intro byte out
    have h1 := hex_lt ha
    have h2 := hex_lt hb
    simp only [List.cons_append, hexLoop, (hexDigit_iff _ _).2 ha, (hexDigit_iff _ _).2 hb, ih,
      if_true]
    rw [List.append_assoc]
    congr 2
    simp; omega

theorem hexLoop_sound (n : Nat) : ∀ (s : List Char), s.length ≤ n → ∀ byte out r,
    hexLoop s .waitingZero byte out = some r →
    ∃ pre t bs, s = pre ++ t ∧ HexText pre bs ∧ Cut t ∧ r = out ++ bs := by
  induction n with
  | zero =>
    intro s hs byte out r h
    have : s = [] := List.length_eq_zero_iff.1 (by omega)
    subst this
    simp [hexLoop] at h
    exact ⟨[], [], [], rfl, .nil, .inl rfl, by simp [h]⟩
  | succ n ih =>
    intro s hs byte out r h
    match s with
    | [] =>
      simp [hexLoop] at h
      exact ⟨[], [], [], rfl, .nil, .inl rfl, by simp [h]⟩
    | c :: cs =>
      simp only [hexLoop] at h
      simp only [List.length_cons] at hs
      by_cases hc0 : c = '0'
      · subst hc0
        simp only [if_true] at h
        match cs with
        | [] =>
          simp [hexLoop] at h
          exact ⟨[], ['0'], [], rfl, .nil, .inr (.inl rfl), by simp [h]⟩
        | c2 :: cs2 =>
          simp only [hexLoop] at h
          by_cases hx : c2 = 'x'
          · subst hx
            simp only [if_true] at h
            match cs2 with
            | [] =>
              simp [hexLoop] at h
              exact ⟨[], ['0', 'x'], [], rfl, .nil, .inr (.inr (.inl rfl)), by simp [h]⟩
            | c3 :: cs3 =>
              simp only [hexLoop] at h
              cases hd : hexDigit c3 with
              | none => simp [hd] at h
              | some d =>
                simp only [hd] at h
                have hd' := (hexDigit_iff _ _).1 hd
                match cs3 with
                | [] =>
                  simp [hexLoop] at h
                  exact ⟨[], ['0', 'x', c3], [], rfl, .nil, .inr (.inr (.inr ⟨c3, d, hd', rfl⟩)),
                    by simp [h]⟩
                | c4 :: cs4 =>
                  simp only [hexLoop] at h
                  cases hd2 : hexDigit c4 with
                  | none => simp [hd2] at h
                  | some d2 =>
                    simp only [hd2] at h
                    have hd2' := (hexDigit_iff _ _).1 hd2
                    simp only [List.length_cons] at hs
                    obtain ⟨pre, t, bs, e, hp, ht, hr⟩ := ih cs4 (by omega) _ _ _ h
                    refine ⟨'0' :: 'x' :: c3 :: c4 :: pre, t, (16 * d + d2) :: bs, by simp [e],
                      .tok hd' hd2' hp, ht, ?_⟩
                    rw [hr, List.append_assoc]
                    have := hex_lt hd'; have := hex_lt hd2'
                    congr 1
                    simp; omega
          · simp [hx] at h
      · by_cases hb : c = ' '
        · subst hb
          simp only [hc0, if_false, if_true] at h
          obtain ⟨pre, t, bs, e, hp, ht, hr⟩ := ih cs (by omega) _ _ _ h
          exact ⟨' ' :: pre, t, bs, by simp [e], .blank hp, ht, hr⟩
        · simp [hc0, hb] at h

/-! ### Numerals -/

theorem digitChar_eq {d : Nat} (h : d < 10) : Nat.digitChar d = Char.ofNat (48 + d) := by
  interval_cases d <;> rfl

theorem toDigits_step (n : Nat) :
    Nat.toDigits 10 n = if n / 10 = 0 then [Char.ofNat (48 + n % 10)]
      else Nat.toDigits 10 (n / 10) ++ [Char.ofNat (48 + n % 10)] := by
  rw [Nat.toDigits_eq_if (by decide)]
  by_cases h : n < 10
  · have h1 : n / 10 = 0 := by omega
    have h2 : n % 10 = n := by omega
    rw [if_pos h, if_pos h1, h2, digitChar_eq h]
  · have h1 : ¬ n / 10 = 0 := by omega
    rw [if_neg h, if_neg h1, digitChar_eq (by omega)]

theorem charOfUnsigned_digit (m : Mode) (n : Nat) :
    charOfUnsigned m (n % 10) = .ok (Char.ofNat (48 + n % 10), .noError) := by
  unfold charOfUnsigned
  rw [if_neg (by omega), Nat.mod_mod]

theorem strLoop_eq (m : Mode) (n : Nat) : ∀ (p : Nat) (s : List Char),
    (Nat.toDigits 10 n).length ≤ p →
    strLoop m p s n = .ok (p - (Nat.toDigits 10 n).length, Nat.toDigits 10 n ++ s) := by
  induction n using Nat.strong_induction_on with
  | _ n ih =>
    intro p s hp
    have hpos : 0 < (Nat.toDigits 10 n).length := Nat.length_toDigits_pos
    unfold strLoop
    rw [if_neg (by omega), charOfUnsigned_digit, Outcome.bind_ok]
    rw [toDigits_step n] at hp ⊢
    by_cases h : n / 10 = 0
    · simp [h]
    · rw [dif_neg h]
      simp only [if_neg h, List.length_append, List.length_singleton] at hp ⊢
      rw [ih (n / 10) (by omega) _ _ (by omega)]
      simp; omega

theorem length_toDigits_int {n : Nat} (h : n < 10 ^ 10) : (Nat.toDigits 10 n).length ≤ 10 :=
  (Nat.length_toDigits_le_iff (by decide) (by decide)).2 h

theorem toDigits_isDigit {n : Nat} {c : Char} (h : c ∈ Nat.toDigits 10 n) : c.isDigit = true :=
  Nat.isDigit_of_mem_toDigits (by decide) (by decide) h

theorem takeWhile_all {α : Type _} (q : α → Bool) (l : List α) (h : ∀ a ∈ l, q a = true) :
    l.takeWhile q = l := by
  induction l with
  | nil => rfl
  | cons a l ih =>
    rw [List.takeWhile_cons, h a (by simp)]
    simp [ih fun b hb => h b (by simp [hb])]

theorem takeWhile_digits (n : Nat) :
    (Nat.toDigits 10 n).takeWhile Char.isDigit = Nat.toDigits 10 n := by
  apply takeWhile_all
  intro c hc; exact toDigits_isDigit hc

theorem toDigits_cons (n : Nat) : ∃ c cs, Nat.toDigits 10 n = c :: cs ∧ c.isDigit = true := by
  cases h : Nat.toDigits 10 n with
  | nil => exact absurd h Nat.toDigits_ne_nil
  | cons c cs => exact ⟨c, cs, rfl, toDigits_isDigit (n := n) (by rw [h]; simp)⟩

/-! ### Character buffers -/

theorem set_last {α : Type _} (pre suf : List α) (c : α) (h : pre ≠ []) :
    (pre ++ suf).set (pre.length - 1) c = pre.dropLast ++ (c :: suf) := by
  have hp : 0 < pre.length := List.length_pos_iff.2 h
  obtain ⟨q, x, rfl⟩ : ∃ q x, pre = q ++ [x] := ⟨_, _, (List.dropLast_concat_getLast h).symm⟩
  simp

theorem bufLoop_fits (n : Nat) : ∀ (lo : Nat) (pre suf : List Char),
    lo + (Nat.toDigits 10 n).length ≤ pre.length →
    bufLoop lo (pre ++ suf) pre.length n =
      .ok (pre.take (pre.length - (Nat.toDigits 10 n).length) ++ Nat.toDigits 10 n ++ suf,
        some (pre.length - (Nat.toDigits 10 n).length)) := by
  induction n using Nat.strong_induction_on with
  | _ n ih =>
    intro lo pre suf hp
    have hpos : 0 < (Nat.toDigits 10 n).length := Nat.length_toDigits_pos
    have hne : pre ≠ [] := by rintro rfl; simp at hp
    unfold bufLoop
    rw [if_neg (by omega)]
    unfold put
    rw [if_pos (by simp; omega), Outcome.bind_ok, set_last _ _ _ hne]
    rw [toDigits_step n] at hp ⊢
    by_cases h : n / 10 = 0
    · rw [dif_pos h, if_pos h]
      simp [List.dropLast_eq_take]
    · rw [dif_neg h]
      simp only [if_neg h, List.length_append, List.length_singleton] at hp ⊢
      have hl : pre.dropLast.length = pre.length - 1 := List.length_dropLast
      have := ih (n / 10) (by omega) lo pre.dropLast (Char.ofNat (48 + n % 10) :: suf) (by omega)
      rw [hl] at this
      rw [this, List.dropLast_eq_take, List.take_take]
      have e : pre.length - 1 - (Nat.toDigits 10 (n / 10)).length
          = pre.length - ((Nat.toDigits 10 (n / 10)).length + 1) := by omega
      rw [e, Nat.min_eq_left (by omega)]
      simp

theorem bufLoop_overflow (n : Nat) : ∀ (lo : Nat) (pre suf : List Char),
    pre.length < lo + (Nat.toDigits 10 n).length →
    ∃ pre', bufLoop lo (pre ++ suf) pre.length n = .ok (pre.take lo ++ pre' ++ suf, none) ∧
      (pre.take lo).length + pre'.length = pre.length := by
  induction n using Nat.strong_induction_on with
  | _ n ih =>
    intro lo pre suf hp
    unfold bufLoop
    by_cases hlo : pre.length ≤ lo
    · rw [if_pos hlo]
      exact ⟨[], by simp [List.take_of_length_le hlo], by simp [List.take_of_length_le hlo]⟩
    · have hne : pre ≠ [] := by rintro rfl; simp at hlo
      rw [if_neg hlo]
      unfold put
      rw [if_pos (by simp; omega), Outcome.bind_ok, set_last _ _ _ hne]
      rw [toDigits_step n] at hp
      by_cases h : n / 10 = 0
      · simp [h] at hp; omega
      · rw [dif_neg h]
        simp only [if_neg h, List.length_append, List.length_singleton] at hp
        have hl : pre.dropLast.length = pre.length - 1 := List.length_dropLast
        obtain ⟨pre', h1, h2⟩ := ih (n / 10) (by omega) lo pre.dropLast
          (Char.ofNat (48 + n % 10) :: suf) (by omega)
        rw [hl] at h1
        have e : pre.dropLast.take lo = pre.take lo := by
          rw [List.dropLast_eq_take, List.take_take, Nat.min_eq_left (by omega)]
        rw [e] at h1 h2
        exact ⟨pre' ++ [Char.ofNat (48 + n % 10)], by rw [h1]; simp, by rw [List.length_append, List.length_singleton]; omega⟩

theorem digits_no_nul (n : Nat) : ∀ c ∈ Nat.toDigits 10 n, (decide (c ≠ '\x00')) = true := by
  intro c hc
  have := toDigits_isDigit hc
  rw [decide_eq_true_eq]
  rintro rfl
  exact absurd this (by decide)

theorem cstr_append (pre ds : List Char) (h : ∀ c ∈ ds, decide (c ≠ '\x00') = true) (p : Nat)
    (hp : p = pre.length) : cstr (pre ++ ds ++ ['\x00']) p = ds := by
  subst hp
  unfold cstr
  rw [List.append_assoc, List.drop_left]
  rw [List.takeWhile_append_of_pos h]
  simp

end Ecl.Conv
