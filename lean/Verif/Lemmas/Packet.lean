import Verif.Spec.Packet
import Verif.Lemmas.Converters
import Mathlib.Tactic.Ring

/-! # Lemmas on packed integers -/
set_option autoImplicit false

namespace Ecl.Packet
open Ecl Ecl.Conv Ecl.Spec

theorem byteOf_succ (v : Int) (i : Nat) : byteOf v (i + 1) = byteOf (v / 256) i := by
  unfold byteOf
  rw [show (2 : Int) ^ (8 * (i + 1)) = 256 * 2 ^ (8 * i) by rw [Nat.mul_add, pow_add]; ring,
    Int.ediv_ediv_of_nonneg (by norm_num)]

theorem lowDigits_length (n : Nat) : ∀ v, (lowDigits n v).length = n := by
  induction n with
  | zero => intro v; rfl
  | succ n ih => intro v; simp [lowDigits, ih]

theorem lowDigits_get (n : Nat) : ∀ (v : Int) (i : Nat), i < n → (lowDigits n v)[i]? = some (byteOf v i) := by
  induction n with
  | zero => intro v i h; omega
  | succ n ih =>
    intro v i h
    cases i with
    | zero => simp [lowDigits, byteOf]
    | succ i => simp only [lowDigits, List.getElem?_cons_succ]; rw [ih _ _ (by omega), byteOf_succ]

theorem lowDigits_small (n : Nat) : ∀ v, ∀ b ∈ lowDigits n v, b < 256 := by
  induction n with
  | zero => intro v b hb; simp [lowDigits] at hb
  | succ n ih =>
    intro v b hb
    simp only [lowDigits, List.mem_cons] at hb
    rcases hb with rfl | hb
    · omega
    · exact ih _ _ hb

theorem lowDigits_value (n : Nat) : ∀ v : Int, (leValue (lowDigits n v) : Int) = v % 2 ^ (8 * n) := by
  induction n with
  | zero => intro v; simp [lowDigits, leValue, Int.emod_one]
  | succ n ih =>
    intro v
    have h := ih (v / 256)
    have e := emod_split v (2 ^ (8 * n)) (by positivity)
    have e2 : (2 : Int) ^ (8 * (n + 1)) = 256 * ((2 ^ (8 * n) : Nat) : Int) := by
      push_cast
      rw [Nat.mul_add, pow_add]; ring
    rw [e2, e]
    simp only [lowDigits, leValue]
    push_cast
    rw [h]
    have : ((v % 256).toNat : Int) = v % 256 := Int.toNat_of_nonneg (Int.emod_nonneg _ (by norm_num))
    rw [this]

theorem withField_length {buf : List Nat} {start n : Nat} (h : start + n ≤ buf.length) (v : Int) :
    (withField buf start n v).length = buf.length := by
  simp [withField, lowDigits_length]; omega

theorem withField_get {buf : List Nat} {start n : Nat} (h : start + n ≤ buf.length) (v : Int) (j : Nat) :
    (withField buf start n v)[j]? = if start ≤ j ∧ j < start + n then some (byteOf v (j - start)) else buf[j]? := by
  unfold withField
  by_cases h1 : j < start
  · rw [List.append_assoc, List.getElem?_append_left (by simp; omega), List.getElem?_take_of_lt h1, if_neg (by omega)]
  · by_cases h2 : j < start + n
    · rw [List.append_assoc, List.getElem?_append_right (by simp; omega),
        List.getElem?_append_left (by simp [lowDigits_length]; omega), if_pos (by omega)]
      rw [List.length_take, min_eq_left (by omega)]
      exact lowDigits_get _ _ _ (by omega)
    · rw [List.getElem?_append_right (by simp [lowDigits_length]; omega), if_neg (by omega), List.getElem?_drop]
      congr 1
      simp [lowDigits_length]
      omega

theorem set_in (m : Mode) {buf : List Nat} {start n i : Nat} (h : start + i < buf.length) (x : Nat) :
    Stencil.set m buf ⟨start, start + n⟩ i x = .ok (buf.set (start + i) x) := by
  unfold Stencil.set
  have h1 : (0 : Int) ≤ start + i := by omega
  have h2 : ((start : Int) + i) ≤ buf.length := by omega
  have h3 : ((start : Int) + i).toNat = start + i := by omega
  cases m <;> simp [assertThrow, h1, h2, Stencil.store, Arr.rawSet, h3, h]

theorem get_in (m : Mode) {buf : List Nat} {start n i : Nat} (h : start + i < buf.length) :
    Stencil.get m buf ⟨start, start + n⟩ i = .ok buf[start + i] := by
  unfold Stencil.get
  have h1 : (0 : Int) ≤ start + i := by omega
  have h2 : ((start : Int) + i) ≤ buf.length := by omega
  have h3 : ((start : Int) + i).toNat = start + i := by omega
  cases m <;> simp [assertThrow, h1, h2, Stencil.deref, Arr.rawGet, h3, h]

theorem writeLoop_get (m : Mode) (start n : Nat) (v : Int) : ∀ (k i : Nat) (buf : List Nat), start + i + k ≤ buf.length →
    ∃ buf', writeLoop m ⟨start, start + n⟩ v i k buf = .ok buf' () ∧
      ∀ j, buf'[j]? = if start + i ≤ j ∧ j < start + i + k then some (byteOf v (j - start)) else buf[j]? := by
  intro k
  induction k with
  | zero => intro i buf _; exact ⟨buf, rfl, fun j => by rw [if_neg (by omega)]⟩
  | succ k ih =>
    intro i buf h
    obtain ⟨buf', e, hg⟩ := ih (i + 1) (buf.set (start + i) (byteOf v i)) (by simp; omega)
    refine ⟨buf', ?_, fun j => ?_⟩
    · rw [writeLoop, set_in m (by omega)]
      exact e
    · rw [hg j, List.getElem?_set]
      by_cases h1 : start + i = j
      · subst h1
        rw [if_neg (by omega), if_pos rfl, if_pos (by omega), if_pos (by omega)]
        congr 2
        omega
      · rw [if_neg h1]
        by_cases h2 : start + (i + 1) ≤ j ∧ j < start + (i + 1) + k
        · rw [if_pos h2, if_pos (by omega)]
        · rw [if_neg h2, if_neg (by omega)]

theorem writeLoop_field (m : Mode) {start n : Nat} (v : Int) {buf : List Nat} (h : start + n ≤ buf.length) :
    writeLoop m ⟨start, start + n⟩ v 0 n buf = .ok (withField buf start n v) () := by
  obtain ⟨buf', e, hg⟩ := writeLoop_get m start n v n 0 buf (by omega)
  rw [e]
  congr 1
  apply List.ext_getElem?
  intro j
  rw [hg j, withField_get h]
  simp

theorem readLoop_eq (m : Mode) (w : Nat) (buf : List Nat) (start n : Nat) : ∀ (k i acc : Nat), start + i + k ≤ buf.length →
    readLoop m w buf ⟨start, start + n⟩ i k acc = fromLoop w ((buf.drop (start + i)).take k) i acc := by
  intro k
  induction k with
  | zero => intro i acc _; simp [readLoop, fromLoop]
  | succ k ih =>
    intro i acc h
    rw [readLoop, get_in m (by omega), List.drop_eq_getElem_cons (by omega), List.take_succ_cons, fromLoop]
    simp only [Outcome.bind_ok]
    congr 1
    funext x
    rw [ih (i + 1) _ (by omega), Nat.add_assoc]

theorem fromLoop_excess (w : Nat) (hw : w ≤ 32) : ∀ (l : List Nat) (i acc : Nat), w ≤ 8 * i → i + l.length ≤ 4 →
    fromLoop w l i acc = .ok acc := by
  intro l
  induction l with
  | nil => intro i acc _ _; rfl
  | cons b l ih =>
    intro i acc h1 h2
    simp only [List.length_cons] at h2
    have hs : ¬ 32 ≤ 8 * i := by omega
    simp only [fromLoop, shiftByte, if_neg hs, Outcome.bind_ok]
    have e : (s32 (b * 2 ^ (8 * i)) % 2 ^ w).toNat = 0 := by
      rw [s32_emod _ _ hw]
      have : b * 2 ^ (8 * i) % 2 ^ w = 0 := Nat.mod_eq_zero_of_dvd (Dvd.dvd.mul_left (pow_dvd_pow 2 h1) b)
      rw [this]; rfl
    rw [e, Nat.or_zero]
    exact ih _ _ (by omega) (by omega)

theorem fromLoop_append (w : Nat) : ∀ (l l' : List Nat) (i acc a : Nat), fromLoop w l i acc = .ok a →
    fromLoop w (l ++ l') i acc = fromLoop w l' (i + l.length) a := by
  intro l
  induction l with
  | nil => intro l' i acc a h; simp only [fromLoop] at h; cases h; simp
  | cons b l ih =>
    intro l' i acc a h
    simp only [List.cons_append, fromLoop] at h ⊢
    cases hx : shiftByte b i with
    | ok x =>
      rw [hx] at h
      simp only [Outcome.bind_ok] at h ⊢
      rw [ih _ _ _ _ h, List.length_cons]
      congr 1
      omega
    | throw e => rw [hx] at h; cases h
    | ub => rw [hx] at h; cases h

theorem mem_window {buf : List Nat} {start n b : Nat} (h : b ∈ (buf.drop start).take n) : b ∈ buf :=
  List.mem_of_mem_drop (List.mem_of_mem_take h)

/-- The loop reads the number that the bytes that fit stand for. -/
theorem readLoop_field (m : Mode) (t : Ty) (ht : t.Exists) {buf : List Nat} (hb : ∀ b ∈ buf, b < 256) {start n : Nat}
    (h : start + n ≤ buf.length) (h4 : n ≤ 4) (hs : 32 < t.bits → leValue ((buf.drop start).take n) < 2 ^ 31) :
    readLoop m t.bits buf ⟨start, start + n⟩ 0 n 0 = .ok (leValue ((buf.drop start).take (min n (t.bits / 8)))) := by
  rw [readLoop_eq m _ _ _ _ _ _ _ (by omega), Nat.add_zero]
  have hlen : ∀ k, k ≤ n → ((buf.drop start).take k).length = k := by intro k hk; simp; omega
  have h1 : fromLoop t.bits ((buf.drop start).take (min n (t.bits / 8))) 0 0 =
      .ok (leValue ((buf.drop start).take (min n (t.bits / 8)))) := by
    have := fromLoop_eq t.bits ((buf.drop start).take (min n (t.bits / 8))) 0 0 (fun b hx => hb b (mem_window hx)) (by simp)
      (by rw [hlen _ (by omega)]; rcases ht with e | e | e | e <;> omega) (by rw [hlen _ (by omega)]; omega)
      (by
        rcases ht with e | e | e | e
        · left; omega
        · left; omega
        · left; omega
        · right
          have := hs (by omega)
          rw [min_eq_left (by omega)]
          simpa using this)
    simpa using this
  rcases Nat.lt_or_ge (t.bits / 8) n with hn | hn
  · rw [min_eq_right (by omega)] at h1 ⊢
    have e : (buf.drop start).take n = (buf.drop start).take (t.bits / 8) ++ ((buf.drop start).take n).drop (t.bits / 8) := by
      conv_lhs => rw [← List.take_append_drop (t.bits / 8) ((buf.drop start).take n)]
      rw [List.take_take, min_eq_left (by omega)]
    rw [e, fromLoop_append _ _ _ _ _ _ h1]
    refine fromLoop_excess _ ?_ _ _ _ ?_ ?_
    · rcases ht with e | e | e | e <;> omega
    · rw [hlen _ (by omega)]; rcases ht with e | e | e | e <;> omega
    · rw [List.length_drop, hlen _ (by omega), hlen _ (le_refl n)]; omega
  · rw [min_eq_left (by omega)] at h1 ⊢
    exact h1

theorem readAll_field (m : Mode) (t : Ty) (ht : t.Exists) {buf : List Nat} (hb : ∀ b ∈ buf, b < 256) {start n : Nat}
    (h : start + n ≤ buf.length) (h4 : n ≤ 4) (hs : 32 < t.bits → leValue ((buf.drop start).take n) < 2 ^ 31) :
    readAll m t buf ⟨start, start + n⟩ = .ok (fieldValue t buf start (min n (t.bits / 8))) := by
  have hz : (⟨start, start + n⟩ : Stencil).size = n := by
    simp only [Stencil.size, u64]; omega
  unfold readAll
  rw [hz, readLoop_field m t ht hb h h4 hs]
  simp [fieldValue, twos]

theorem size_eq (start n : Nat) (h : n < 2 ^ 64) : (⟨start, start + n⟩ : Stencil).size = n := by
  simp only [Stencil.size, u64]; omega

theorem mkIdx_in (m : Mode) {len start n : Nat} (h : start + n ≤ len) : Stencil.mkIdx m len start n = .ok ⟨start, start + n⟩ := by
  have h1 : (start : Int) ≤ len := by omega
  have h2 : (start : Int) + n ≤ len := by omega
  have h3 : (0 : Int) ≤ start + n := by omega
  cases m <;> simp [Stencil.mkIdx, Stencil.mkIter, Stencil.inRange, assertThrow, h1, h2, h3]

theorem mkIdx_out {len start n : Nat} (h : len < start + n) : Stencil.mkIdx .debug len start n = .throw .outOfRange := by
  have h2 : ¬ ((start : Int) + n ≤ len) := by omega
  by_cases h1 : (start : Int) ≤ len <;> simp [Stencil.mkIdx, Stencil.mkIter, Stencil.inRange, assertThrow, h1, h2]

/-- The buffer is the one that is seen, and the converters that report an error are those that have failed. -/
structure Rel (d : Desk) (v : PacketView) : Prop where
  buf : d.buf = v.buf
  writer : ∀ c, d.writer c = if c ∈ v.badWriters then .conversionError else .noError
  reader : ∀ c, d.reader c = if c ∈ v.badReaders then .conversionError else .noError
  small : ∀ b ∈ v.buf, b < 256
  short : v.buf.length < 2 ^ 64

theorem update_flag {f : Nat → Flag} {l : List Nat} (h : ∀ c, f c = if c ∈ l then .conversionError else .noError) (c : Nat) :
    ∀ x, Function.update f c .conversionError x = if x ∈ c :: l then .conversionError else .noError := by
  intro x
  by_cases hx : x = c
  · subst hx; simp
  · rw [Function.update_of_ne hx, h x]; simp [hx]

theorem step_rel (m : Mode) (writes reads : Nat → Ty) (hr : ∀ c, (reads c).Exists) (d : Desk) (v : PacketView)
    (op : Op) (R : Rel d v) (hc : v.Covered m reads op) :
    ∃ d', (step m writes reads d op).obs = some (d', (v.step m writes reads op).2) ∧ Rel d' (v.step m writes reads op).1 := by
  obtain ⟨hbuf, hwr, hrd, hsm, hsh⟩ := R
  cases op with
  | write c start n x =>
    simp only [step, PacketView.step, hbuf]
    rcases Nat.lt_or_ge v.buf.length (start + n) with h | h
    · rw [if_pos h]
      have hm : m = .debug := by
        cases m with
        | debug => rfl
        | release => exact absurd (hc rfl) (by omega)
      subst hm
      rw [mkIdx_out h]
      exact ⟨d, rfl, hbuf, hwr, hrd, hsm, hsh⟩
    · rw [if_neg (by omega), mkIdx_in m h]
      simp only [write]
      rw [size_eq start n (by omega)]
      by_cases hn : n = (writes c).bits / 8
      · rw [if_neg (by omega), if_pos hn, ← hn, hbuf, writeLoop_field m x h]
        refine ⟨_, rfl, rfl, hwr, hrd, ?_, ?_⟩
        · intro b hb
          simp only [withField, List.mem_append] at hb
          rcases hb with (hb | hb) | hb
          · exact hsm b (List.mem_of_mem_take hb)
          · exact lowDigits_small _ _ _ hb
          · exact hsm b (List.mem_of_mem_drop hb)
        · rw [withField_length h]; exact hsh
      · rw [if_pos hn, if_neg hn]
        cases m
        · exact ⟨_, rfl, hbuf, update_flag hwr c, hrd, hsm, hsh⟩
        · exact ⟨_, rfl, hbuf, update_flag hwr c, hrd, hsm, hsh⟩
  | read c start n =>
    obtain ⟨hc1, hc2⟩ := hc
    simp only [step, PacketView.step, hbuf]
    rcases Nat.lt_or_ge v.buf.length (start + n) with h | h
    · rw [if_pos h]
      have hm : m = .debug := by
        cases m with
        | debug => rfl
        | release => exact absurd (hc1 rfl) (by omega)
      subst hm
      rw [mkIdx_out h]
      exact ⟨d, rfl, hbuf, hwr, hrd, hsm, hsh⟩
    · rw [if_neg (by omega), mkIdx_in m h]
      simp only [read]
      rw [size_eq start n (by omega)]
      by_cases hn : n ≤ (reads c).bits / 8
      · obtain ⟨h4, hv⟩ := hc2 (.inl hn)
        rw [if_neg (by omega), if_pos hn, if_neg (by omega), hbuf, readAll_field m _ (hr c) hsm h h4 hv, min_eq_left hn]
        exact ⟨d, rfl, hbuf, hwr, hrd, hsm, hsh⟩
      · rw [if_neg hn]
        cases m with
        | debug =>
          rw [if_pos ⟨by omega, rfl⟩]
          exact ⟨d, rfl, hbuf, hwr, hrd, hsm, hsh⟩
        | release =>
          obtain ⟨h4, hv⟩ := hc2 (.inr rfl)
          rw [if_neg (by simp), if_pos (by omega), hbuf, readAll_field _ _ (hr c) hsm h h4 hv, min_eq_right (by omega)]
          exact ⟨_, rfl, rfl, hwr, update_flag hrd c, hsm, hsh⟩
  | writerError c =>
    refine ⟨d, ?_, hbuf, hwr, hrd, hsm, hsh⟩
    simp [step, Res.obs, PacketView.step, hwr]
  | readerError c =>
    refine ⟨d, ?_, hbuf, hwr, hrd, hsm, hsh⟩
    simp [step, Res.obs, PacketView.step, hrd]

/-! ## Bytes that a call does not touch -/

theorem set_ok {m : Mode} {buf buf' : List Nat} {start i : Nat} {e : Int} {x : Nat}
    (h : Stencil.set m buf ⟨start, e⟩ i x = .ok buf') : buf' = buf.set (start + i) x := by
  have h3 : ((start : Int) + i).toNat = start + i := by omega
  unfold Stencil.set at h
  by_cases h1 : start + i < buf.length
  · rw [show Stencil.store buf (start + i) x = .ok (buf.set (start + i) x) by
      simp [Stencil.store, Arr.rawSet, h3, h1]; omega] at h
    cases m
    · simp only [assertThrow] at h
      split at h
      · simp only [Outcome.bind_ok] at h
        split at h
        · simp only [Outcome.bind_ok] at h; cases h; rfl
        · cases h
      · cases h
    · simp only [assertThrow, Outcome.bind_ok] at h; cases h; rfl
  · rw [show Stencil.store buf (start + i) x = .ub by
      simp [Stencil.store, Arr.rawSet, h3, h1]] at h
    cases m
    · simp only [assertThrow] at h
      split at h
      · simp only [Outcome.bind_ok] at h
        split at h
        · simp only [Outcome.bind_ok] at h; cases h
        · cases h
      · cases h
    · simp only [assertThrow, Outcome.bind_ok] at h; cases h

/-- The same length, bytes where there were bytes, and nothing changed outside of the places from `lo` to `hi`. -/
structure Keeps (lo hi : Nat) (buf buf' : List Nat) : Prop where
  length : buf'.length = buf.length
  small : (∀ b ∈ buf, b < 256) → ∀ b ∈ buf', b < 256
  outside : ∀ j, j < lo ∨ hi ≤ j → buf'[j]? = buf[j]?

theorem keeps_refl (lo hi : Nat) (buf : List Nat) : Keeps lo hi buf buf := ⟨rfl, id, fun _ _ => rfl⟩

theorem keeps_trans {lo hi : Nat} {a b c : List Nat} (h : Keeps lo hi a b) (h' : Keeps lo hi b c) : Keeps lo hi a c :=
  ⟨h'.length.trans h.length, fun x => h'.small (h.small x), fun j hj => (h'.outside j hj).trans (h.outside j hj)⟩

theorem byte_lt (v : Int) (i : Nat) : byteOf v i < 256 := by unfold byteOf; omega

theorem writeLoop_keeps (m : Mode) (start : Nat) (e : Int) (v : Int) (hi : Nat) : ∀ (k i : Nat) (buf : List Nat), start + i + k ≤ hi →
    (∀ buf', writeLoop m ⟨start, e⟩ v i k buf = .ok buf' () → Keeps start hi buf buf') ∧
    (∀ buf' x, writeLoop m ⟨start, e⟩ v i k buf = .throw buf' x → Keeps start hi buf buf') := by
  intro k
  induction k with
  | zero =>
    intro i buf _
    refine ⟨fun b h => ?_, fun b x h => ?_⟩
    · cases h; exact keeps_refl _ _ _
    · cases h
  | succ k ih =>
    intro i buf h
    cases hs : Stencil.set m buf ⟨start, e⟩ i (byteOf v i) with
    | ok b1 =>
      have h1 : Keeps start hi buf b1 := by
        rw [set_ok hs]
        refine ⟨by simp, fun hb b hm => ?_, fun j hj => ?_⟩
        · rcases List.mem_or_eq_of_mem_set hm with hm | rfl
          · exact hb b hm
          · exact byte_lt v i
        · rw [List.getElem?_set_ne (by omega)]
      obtain ⟨i1, i2⟩ := ih (i + 1) b1 (by omega)
      simp only [writeLoop, hs]
      exact ⟨fun b hb => keeps_trans h1 (i1 b hb), fun b x hb => keeps_trans h1 (i2 b x hb)⟩
    | throw x =>
      simp only [writeLoop, hs]
      refine ⟨fun b h => (by cases h), fun b x h => ?_⟩
      cases h; exact keeps_refl _ _ _
    | ub =>
      simp only [writeLoop, hs]
      exact ⟨fun b h => (by cases h), fun b x h => (by cases h)⟩

theorem mkIdx_ok {m : Mode} {len start n : Nat} {s : Stencil} (h : Stencil.mkIdx m len start n = .ok s) : s = ⟨start, start + n⟩ := by
  unfold Stencil.mkIdx Stencil.mkIter at h
  cases m <;> simp only [assertThrow] at h
  · split at h
    · simp only [Outcome.bind_ok] at h
      split at h
      · simp only [Outcome.bind_ok] at h; cases h; rfl
      · cases h
    · cases h
  · cases h; rfl

theorem read_buf {m : Mode} {t : Ty} {d : Desk} {c : Nat} {s : Stencil} {d' : Desk} {o : Obs Out}
    (h : (read m t d c s).obs = some (d', o)) : d'.buf = d.buf := by
  unfold read at h
  split at h
  · cases h; rfl
  · dsimp only at h
    have e : (if t.bits / 8 < s.size then { d with reader := Function.update d.reader c .conversionError } else d).buf = d.buf := by
      split <;> rfl
    split at h
    · cases h; exact e
    · cases h; exact e
    · cases h

theorem step_keeps {m : Mode} {writes reads : Nat → Ty} {d d' : Desk} {op : Op} {o : Obs Out}
    (h : (step m writes reads d op).obs = some (d', o)) :
    d'.buf.length = d.buf.length ∧ ((∀ b ∈ d.buf, b < 256) → ∀ b ∈ d'.buf, b < 256) ∧
    ∀ start n, op.Avoids start n → ∀ j, start ≤ j → j < start + n → d'.buf[j]? = d.buf[j]? := by
  have same : d'.buf = d.buf → d'.buf.length = d.buf.length ∧ ((∀ b ∈ d.buf, b < 256) → ∀ b ∈ d'.buf, b < 256) ∧
      ∀ start n, op.Avoids start n → ∀ j, start ≤ j → j < start + n → d'.buf[j]? = d.buf[j]? := by
    intro e; rw [e]; exact ⟨rfl, id, fun _ _ _ _ _ _ => rfl⟩
  cases op with
  | write c s k v =>
    simp only [step] at h
    cases hm : Stencil.mkIdx m d.buf.length s k with
    | throw e => rw [hm] at h; cases h; exact same rfl
    | ub => rw [hm] at h; cases h
    | ok st =>
      rw [hm] at h
      have := mkIdx_ok hm
      subst this
      simp only [write] at h
      split at h
      · cases m <;> (cases h; exact same rfl)
      · next hz =>
        have hk : (writes c).bits / 8 ≤ k := by
          have : (⟨(s : Int), (s : Int) + k⟩ : Stencil).size ≤ k := by simp only [Stencil.size, u64]; omega
          omega
        obtain ⟨k1, k2⟩ := writeLoop_keeps m s ((s : Int) + k) v (s + k) ((writes c).bits / 8) 0 d.buf (by omega)
        have fin : ∀ b, Keeps s (s + k) d.buf b → d'.buf = b → d'.buf.length = d.buf.length ∧
            ((∀ b ∈ d.buf, b < 256) → ∀ b ∈ d'.buf, b < 256) ∧
            ∀ start n, (Op.write c s k v).Avoids start n → ∀ j, start ≤ j → j < start + n → d'.buf[j]? = d.buf[j]? := by
          intro b K e
          rw [e]
          refine ⟨K.length, K.small, fun start n ha j j1 j2 => K.outside j ?_⟩
          simp only [Op.Avoids] at ha
          omega
        cases hw : writeLoop m ⟨s, (s : Int) + k⟩ v 0 ((writes c).bits / 8) d.buf with
        | ok b u => rw [hw] at h; cases h; exact fin b (k1 b hw) rfl
        | throw b e => rw [hw] at h; cases h; exact fin b (k2 b e hw) rfl
        | ub => rw [hw] at h; cases h
  | read c s k =>
    simp only [step] at h
    cases hm : Stencil.mkIdx m d.buf.length s k with
    | throw e => rw [hm] at h; cases h; exact same rfl
    | ub => rw [hm] at h; cases h
    | ok st => rw [hm] at h; exact same (read_buf h)
  | writerError c => cases h; exact same rfl
  | readerError c => cases h; exact same rfl

theorem run_keeps {m : Mode} {writes reads : Nat → Ty} {start n : Nat} : ∀ (ops : List Op) (d d' : Desk) (obs : List (Obs Out)),
    (∀ op ∈ ops, op.Avoids start n) → runOps (step m writes reads) d ops = some (d', obs) →
    d'.buf.length = d.buf.length ∧ ((∀ b ∈ d.buf, b < 256) → ∀ b ∈ d'.buf, b < 256) ∧
    ∀ j, start ≤ j → j < start + n → d'.buf[j]? = d.buf[j]? := by
  intro ops
  induction ops with
  | nil => intro d d' obs _ h; cases h; exact ⟨rfl, id, fun _ _ _ => rfl⟩
  | cons op ops ih =>
    intro d d' obs ha h
    rw [runOps_cons] at h
    cases hs : (step m writes reads d op).obs with
    | none => rw [hs] at h; cases h
    | some r =>
      obtain ⟨d1, o⟩ := r
      rw [hs] at h
      simp only [Option.bind_some] at h
      cases hr : runOps (step m writes reads) d1 ops with
      | none => rw [hr] at h; cases h
      | some q =>
        obtain ⟨d2, os⟩ := q
        rw [hr] at h
        cases h
        obtain ⟨a1, a2, a3⟩ := step_keeps hs
        obtain ⟨b1, b2, b3⟩ := ih d1 d2 os (fun op hop => ha op (List.mem_cons_of_mem _ hop)) hr
        exact ⟨b1.trans a1, fun x => b2 (a2 x), fun j j1 j2 => (b3 j j1 j2).trans (a3 start n (ha op List.mem_cons_self) j j1 j2)⟩

end Ecl.Packet
