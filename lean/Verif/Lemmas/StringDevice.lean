import Verif.Spec.Bytes

/-! # Helper lemmas for the `String` device -/
set_option autoImplicit false
set_option linter.unusedSimpArgs false

namespace Ecl.StrDev
open Ecl.Spec

/-- Simulation relation between the device and the byte queue. -/
structure Rel (s : StrDev) (t : Tape) : Prop where
  w : s.w = t.all.length
  r : s.r = t.pos
  pos : t.pos ≤ t.all.length
  cell : ∀ i, i < t.all.length → s.mem[i]? = some t.all[i]?
  len : s.len ≤ s.w + 1
  cap : s.w < s.mem.length
  big : t.all.length ≤ 4611686018427387904
  run : ∀ k, t.run = some k →
    (k = 0 ∧ s.len = s.w + 1 ∧ s.mem.length = s.w + 1) ∨ s.w + 257 ≤ s.mem.length + k

theorem storeAll_ok (cs : List Char) : ∀ (mem : List (Option Char)) (i : Nat),
    i + cs.length ≤ mem.length →
    ∃ mem', storeAll mem i cs = .ok mem' ∧ mem'.length = mem.length ∧
      ∀ j, mem'[j]? = if i ≤ j ∧ j < i + cs.length then some (cs[j - i]?) else mem[j]? := by
  induction cs with
  | nil => intro mem i h; exact ⟨mem, by simp [storeAll]; simpa using h, rfl, by intro j; simp; omega⟩
  | cons c cs ih =>
    intro mem i h
    simp only [List.length_cons] at h
    have hi : i < mem.length := by omega
    obtain ⟨mem', h1, h2, h3⟩ := ih (mem.set i (some c)) (i + 1) (by simp; omega)
    refine ⟨mem', by simp [storeAll, store, hi, h1], by simpa using h2, ?_⟩
    intro j
    rw [h3 j]
    by_cases hj : j = i
    · subst hj
      rw [if_neg (by omega), if_pos (by simp)]
      simp [hi]
    · by_cases hc : i + 1 ≤ j ∧ j < i + 1 + cs.length
      · rw [if_pos hc, if_pos (by simp; omega)]
        have : j - i = (j - (i + 1)) + 1 := by omega
        rw [this]; simp
      · rw [if_neg hc, if_neg (by simp; omega)]
        simp [List.getElem?_set, Ne.symm hj]

theorem load_ok (all : List Char) (mem : List (Option Char))
    (h : ∀ i, i < all.length → mem[i]? = some all[i]?) :
    ∀ (n i : Nat), i + n ≤ all.length → load mem i n = .ok ((all.drop i).take n) := by
  intro n
  induction n with
  | zero => intro i _; simp [load]
  | succ n ih =>
    intro i hi
    have h1 : i < all.length := by omega
    have h2 := h i h1
    rw [List.getElem?_eq_getElem h1] at h2
    simp only [load, h2, ih (i + 1) (by omega), Outcome.bind_ok]
    rw [List.drop_eq_getElem_cons h1, List.take_succ_cons]

theorem Rel.make (s : List Char) (h : s.length ≤ 4611686018427387904) : Rel (make s) ⟨s, 0, some 0⟩ := by
  refine ⟨rfl, rfl, by simp, ?_, by simp [StrDev.make], by simp [StrDev.make], h, ?_⟩
  · intro i hi
    simp at hi
    simp [StrDev.make, List.getElem?_append, hi]
  · intro k hk
    simp at hk; subst hk
    exact .inl ⟨rfl, by simp [StrDev.make], by simp [StrDev.make]⟩

/-- Growing gives a block with `k+1` bytes above the contents and keeps the contents. -/
theorem grow_ok {s : StrDev} {t : Tape} (hR : Rel s t) (k : Nat) (hk : k < 4294967296) :
    ∃ s', grow s k = .ok s' ∧ s'.mem.length = s.w + k + 1 ∧ s'.len = s.len ∧ s'.w = s.w ∧
      s'.r = s.r ∧ ∀ i, i < t.all.length → s'.mem[i]? = some t.all[i]? := by
  have hb := hR.big
  have hw := hR.w
  have hu : u64 ((s.w : Int) + (k : Int) + 1) = s.w + k + 1 := by
    have : ((s.w : Int) + (k : Int) + 1) = ((s.w + k + 1 : Nat) : Int) := by omega
    rw [this]; exact u64_natCast (by omega)
  have hc : s.w ≤ s.mem.length := Nat.le_of_lt hR.cap
  refine ⟨{ s with mem := s.mem.take s.w ++ List.replicate (s.w + k + 1 - s.w) none },
    by simp only [grow, hu]; rw [if_pos ⟨by omega, hc⟩], ?_, rfl, rfl, rfl, ?_⟩
  · simp; omega
  · intro i hi
    have := hR.cell i hi
    rw [List.getElem?_append_left (by simp; omega), List.getElem?_take, if_pos (by omega)]
    exact this

/-- A single-character write with fewer than 256 of them since the last bulk write. -/
theorem Rel.put {s : StrDev} {t : Tape} (hR : Rel s t) (c : Char) (k : Nat) (hk : t.run = some k)
    (hk' : k < 256) (hb : t.all.length < 4611686018427387904) :
    ∃ s', put s c = .ok s' ∧ Rel s' ⟨t.all ++ [c], t.pos, some (k + 1)⟩ := by
  have fin : ∀ s1 : StrDev, s1.w = s.w → s1.r = s.r → s1.len = s.len → s1.w + 257 ≤ s1.mem.length + k →
      (∀ i, i < t.all.length → s1.mem[i]? = some t.all[i]?) →
      ∃ s', (do
        let mem ← store s1.mem s1.w c
        Outcome.ok { s1 with mem := mem, w := s1.w + 1 }) = .ok s' ∧
        Rel s' ⟨t.all ++ [c], t.pos, some (k + 1)⟩ := by
    intro s1 e1 e2 e3 hroom hcell
    have hlt : s1.w < s1.mem.length := by omega
    refine ⟨_, by simp only [store, if_pos hlt, Outcome.bind_ok]; rfl, ?_⟩
    have hw := hR.w
    refine ⟨by simp; omega, by simp [e2]; exact hR.r, by have := hR.pos; simp; omega, ?_, ?_, ?_, ?_, ?_⟩
    · intro i hi
      simp only [List.length_append, List.length_cons, List.length_nil] at hi
      by_cases hi' : i = t.all.length
      · subst hi'
        simp only [List.getElem?_set, e1, hw]
        rw [if_pos trivial, if_pos (by omega)]
        simp
      · simp only [List.getElem?_set]
        rw [if_neg (by omega), hcell i (by omega)]
        rw [List.getElem?_append_left (by omega)]
    · have := hR.len; simp; omega
    · simp; omega
    · simp; omega
    · intro k' hk'; simp at hk'; subst hk'; right; simp; omega
  unfold StrDev.put
  by_cases hg : (s.w : Int) = s.len - 1
  · obtain ⟨s1, g1, g2, g3, g4, g5, g6⟩ := grow_ok hR 256 (by omega)
    rw [if_pos hg, show (256 : Int) = ((256 : Nat) : Int) from rfl, g1]
    simp only [Outcome.bind_ok]
    exact fin s1 g4 g5 g3 (by omega) g6
  · rw [if_neg hg]
    simp only [Outcome.bind_ok]
    refine fin s rfl rfl rfl ?_ hR.cell
    rcases hR.run k hk with h | h
    · omega
    · exact h

/-- A bulk write. -/
theorem Rel.puts {s : StrDev} {t : Tape} (hR : Rel s t) (cs : List Char)
    (h1 : cs.length + 256 < 2147483648) (hb : t.all.length + cs.length ≤ 4611686018427387904) :
    ∃ s', puts s cs = .ok (s', cs.length) ∧
      Rel s' ⟨t.all ++ cs, t.pos, if cs = [] then t.run else some 0⟩ := by
  have hw := hR.w
  have hlen := hR.len
  by_cases hcs : cs = []
  · subst hcs
    unfold StrDev.puts
    simp only [List.length_nil, storeAll, List.append_nil, if_true, Nat.add_zero]
    by_cases hg : (s.w : Int) > s.len - 1 - (0 : Nat)
    · obtain ⟨s1, g1, g2, g3, g4, g5, g6⟩ := grow_ok hR 256 (by omega)
      rw [if_pos hg, show s32 (0 + 256) = ((256 : Nat) : Int) from rfl, g1]
      simp only [Outcome.bind_ok]
      rw [if_pos (by omega)]
      refine ⟨s1, rfl, by simp only; omega, by rw [g5]; exact hR.r, hR.pos, g6, by omega, by omega, hR.big, ?_⟩
      intro k hk; right; omega
    · rw [if_neg hg]
      simp only [Outcome.bind_ok]
      rw [if_pos (Nat.le_of_lt hR.cap)]
      exact ⟨s, rfl, hR⟩
  · have hpos : 0 < cs.length := List.length_pos_iff.2 hcs
    unfold StrDev.puts
    have hg : (s.w : Int) > s.len - 1 - (cs.length : Nat) := by omega
    obtain ⟨s1, g1, g2, g3, g4, g5, g6⟩ := grow_ok hR (cs.length + 256) (by omega)
    rw [if_pos hg, s32_small h1, g1]
    simp only [Outcome.bind_ok]
    obtain ⟨mem', m1, m2, m3⟩ := storeAll_ok cs s1.mem s1.w (by omega)
    rw [m1]
    simp only [Outcome.bind_ok, if_neg hcs]
    refine ⟨_, rfl, by simp; omega, by simp [g5]; exact hR.r, by have := hR.pos; simp; omega, ?_, by simp; omega,
      by simp; omega, by simpa using hb, ?_⟩
    · intro i hi
      simp only [List.length_append] at hi
      simp only [m3 i]
      by_cases hi' : i < t.all.length
      · rw [if_neg (by omega), g6 i hi', List.getElem?_append_left hi']
      · rw [if_pos (by omega), List.getElem?_append_right (by omega)]
        congr 2; omega
    · intro k hk; simp at hk; subst hk; right; simp; omega

theorem Rel.remaining {s : StrDev} {t : Tape} (hR : Rel s t) :
    remaining s = t.all.length - t.pos := by
  have h1 := hR.w
  have h2 := hR.r
  have h3 := hR.pos
  have h4 := hR.big
  unfold StrDev.remaining
  have : ((s.w : Int) - s.r) = ((t.all.length - t.pos : Nat) : Int) := by omega
  rw [this]; exact u64_natCast (by omega)

theorem Rel.get {s : StrDev} {t : Tape} (hR : Rel s t) :
    ∃ s', step s .get = .ok s' (match t.all[t.pos]? with | some c => .char (some c) | none => .char none) ∧
      Rel s' (tapeStep t .get).1 := by
  have hr := hR.remaining
  by_cases h : t.pos < t.all.length
  · have hc := hR.cell t.pos h
    rw [List.getElem?_eq_getElem h] at hc
    have h0 : StrDev.remaining s ≠ 0 := by omega
    refine ⟨{ s with r := s.r + 1 }, ?_, ?_⟩
    · simp only [step, StrDev.get]
      rw [if_pos h0, hR.r, hc, List.getElem?_eq_getElem h]
    · simp only [tapeStep, List.getElem?_eq_getElem h]
      exact ⟨hR.w, by simp [hR.r], by simp; omega, hR.cell, hR.len, hR.cap, hR.big, hR.run⟩
  · have h0 : ¬ StrDev.remaining s ≠ 0 := by omega
    have hn : t.all[t.pos]? = none := List.getElem?_eq_none (by omega)
    refine ⟨s, ?_, ?_⟩
    · simp only [step, StrDev.get]
      rw [if_neg h0, hn]
    · simp only [tapeStep, hn]; exact hR

theorem Rel.gets {s : StrDev} {t : Tape} (hR : Rel s t) (n : Nat) :
    ∃ s', gets s n = .ok (s', (t.all.drop t.pos).take n) ∧
      Rel s' ⟨t.all, min (t.pos + n) t.all.length, t.run⟩ := by
  have hr := hR.remaining
  have hp := hR.pos
  have mk : ∀ d, t.pos + d = min (t.pos + n) t.all.length →
      Rel { s with r := s.r + d } ⟨t.all, min (t.pos + n) t.all.length, t.run⟩ := fun d hd =>
    ⟨hR.w, by simp [hR.r]; omega, by simp; omega, hR.cell, hR.len, hR.cap, hR.big, hR.run⟩
  unfold StrDev.gets
  by_cases h1 : StrDev.remaining s > n
  · rw [if_pos h1, hR.r, load_ok t.all s.mem hR.cell n t.pos (by omega)]
    have := mk n (by omega)
    rw [hR.r] at this
    exact ⟨_, rfl, this⟩
  · by_cases h2 : StrDev.remaining s ≠ 0
    · rw [if_neg h1, if_pos h2, hR.r, hr, load_ok t.all s.mem hR.cell _ t.pos (by omega)]
      have := mk (t.all.length - t.pos) (by omega)
      rw [hR.r] at this
      refine ⟨_, ?_, this⟩
      simp only [Outcome.bind_ok]
      rw [List.take_of_length_le (by simp), List.take_of_length_le (by simp; omega)]
    · rw [if_neg h1, if_neg h2]
      refine ⟨s, ?_, ?_⟩
      · rw [List.drop_eq_nil_of_le (by omega)]; simp
      · have := mk 0 (by omega)
        simpa using this

theorem Rel.cstr {s : StrDev} {t : Tape} (hR : Rel s t) :
    ∃ s', cstr s = .ok (s', t.all.takeWhile (· ≠ '\x00')) ∧ Rel s' t := by
  have hw := hR.w
  have hlt := hR.cap
  have hcell : ∀ i, i < t.all.length → (s.mem.set s.w (some '\x00'))[i]? = some t.all[i]? := by
    intro i hi
    rw [List.getElem?_set, if_neg (by omega)]
    exact hR.cell i hi
  have hl := load_ok t.all _ hcell t.all.length 0 (by omega)
  unfold StrDev.cstr
  simp only [store, if_pos hlt, Outcome.bind_ok]
  rw [hw] at hl ⊢
  rw [hl]
  refine ⟨_, by simp only [Outcome.bind_ok, List.drop_zero, List.take_length]; rfl, ?_⟩
  rw [hw] at hcell
  exact ⟨by simp, hR.r, hR.pos, hcell, by simpa [hw] using hR.len, by simpa [hw] using hR.cap, hR.big,
    by simpa [hw] using hR.run⟩

theorem Rel.clear (s : StrDev) : Rel (StrDev.clear s) ⟨[], 0, none⟩ :=
  ⟨rfl, rfl, by simp, by simp, by simp [StrDev.clear], by simp [StrDev.clear], by simp,
    by simp⟩

end Ecl.StrDev
