import Verif.Model.TimeData
import Verif.Spec.Time
import Verif.Lemmas.Double
import Verif.Lemmas.CReal

/-! # Timestamps and double precision numbers -/
set_option autoImplicit false

namespace Ecl.Time
open Ecl.Spec

/-- What is left to know about the nanoseconds. -/
theorem fromDouble_core {fl : ℝ → ℝ} {v : ℝ} (hv : |v| < 2 ^ 63)
    (h1 : fl (truncate v) = truncate v) (h2 : fl (v - truncate v) = v - truncate v)
    (h3 : fl 1000000000 = 1000000000)
    (h4 : |fl ((v - truncate v) * 1000000000)| < 1000000000)
    (h5 : 0 ≤ v → 0 ≤ fl ((v - truncate v) * 1000000000))
    (h6 : v ≤ 0 → fl ((v - truncate v) * 1000000000) ≤ 0)
    (h7 : |(truncate (fl ((v - truncate v) * 1000000000)) : ℝ) - (v - truncate v) * 1000000000| < 1) :
    ∃ r, fromDouble fl v = .ok r ∧ r.Norm ∧ r.sec = truncate v ∧
      |(r.total : ℝ) - v * 1000000000| < 1 := by
  generalize hx : fl ((v - truncate v) * 1000000000) = x at *
  refine ⟨⟨truncate v, truncate x⟩, ?_, ?_, rfl, ?_⟩
  · unfold fromDouble
    rw [castLong_ok hv, Outcome.bind_ok, h1, h2, h3, hx, castLong_ok (h4.trans (by norm_num)),
      Outcome.bind_ok]
  · have h8 := lt_of_le_of_lt (truncate_le x) h4
    rw [abs_lt] at h8
    refine ⟨by exact_mod_cast h8.1, by exact_mod_cast h8.2, fun hs => ?_, fun hs => ?_⟩
    · have hv0 : 0 ≤ v := by
        by_contra hn
        have : truncate v = ⌈v⌉ := if_neg hn
        have h9 : ⌈v⌉ ≤ 0 := Int.ceil_le.2 (by push_cast; linarith)
        simp only at hs
        omega
      show 0 ≤ truncate x
      rw [truncate_of_nonneg (h5 hv0)]
      exact Int.floor_nonneg.2 (h5 hv0)
    · have hv0 : v ≤ 0 := by
        by_contra hn
        have : truncate v = ⌊v⌋ := if_pos (by linarith)
        have h9 : 0 ≤ ⌊v⌋ := Int.floor_nonneg.2 (by linarith)
        simp only at hs
        omega
      have h10 := h6 hv0
      show truncate x ≤ 0
      unfold truncate
      split
      · rw [show x = 0 by linarith]; simp
      · exact Int.ceil_le.2 (by push_cast; linarith)
  · have : (((⟨truncate v, truncate x⟩ : Ts).total : Int) : ℝ) - v * 1000000000 =
        truncate x - (v - truncate v) * 1000000000 := by
      unfold Ts.total; push_cast; ring
    rw [this]
    exact h7

theorem RoundsToNearest.flip {fl : ℝ → ℝ} (h : RoundsToNearest fl) :
    RoundsToNearest fun x => -fl (-x) := by
  refine fun x => ⟨(h (-x)).1.neg, fun y hy => ?_⟩
  have := (h (-x)).2 (-y) hy.neg
  rw [show -fl (-x) - x = -(fl (-x) - -x) by ring, abs_neg]
  rwa [show -y - -x = -(y - x) by ring, abs_neg] at this

theorem isDouble_billion : IsDouble 1000000000 := by
  simpa using isDouble_int (n := 1000000000) (by norm_num)

theorem frac_pos {fl : ℝ → ℝ} (hfl : RoundsToNearest fl) {f : ℝ} (h0 : 0 ≤ f)
    (h1 : f ≤ 1 - 1 / 2 ^ 53) : 0 ≤ fl (f * 1000000000) ∧ fl (f * 1000000000) < 1000000000 ∧
      |(truncate (fl (f * 1000000000)) : ℝ) - f * 1000000000| < 1 := by
  have hx0 : 0 ≤ f * 1000000000 := by positivity
  have hx1 : f * 1000000000 < 1000000000 := by nlinarith
  have a : 0 ≤ fl (f * 1000000000) := hfl.ge ⟨0, 0, by norm_num, by simp⟩ hx0
  refine ⟨a, ?_, ?_⟩
  · refine hfl.lt (y := 1000000000 - 1 / 2 ^ 23) ⟨8388608000000000 - 1, -23, by norm_num, ?_⟩ ?_ (by norm_num)
    · norm_num
    · norm_num at h1 ⊢; linarith
  · rw [truncate_of_nonneg a]
    generalize hx : f * 1000000000 = x at *
    have hf0 := Int.floor_nonneg.2 hx0
    have hf1 : ⌊x⌋ < 1000000000 := Int.floor_lt.2 (by exact_mod_cast hx1)
    have b1 := hfl.ge (x := x) (isDouble_int (n := ⌊x⌋) (by rw [abs_of_nonneg hf0]; omega)) (Int.floor_le x)
    have hc0 : 0 ≤ ⌈x⌉ := Int.ceil_nonneg hx0
    have hc1 : ⌈x⌉ ≤ 1000000000 := Int.ceil_le.2 (by exact_mod_cast hx1.le)
    have b2 := hfl.le (x := x) (isDouble_int (n := ⌈x⌉) (by rw [abs_of_nonneg hc0]; omega)) (Int.le_ceil x)
    have c1 : (⌊x⌋ : ℝ) ≤ ⌊fl x⌋ := by exact_mod_cast Int.le_floor.2 b1
    have c2 := Int.floor_le (fl x)
    rw [abs_lt]
    constructor <;> linarith [Int.lt_floor_add_one x, Int.ceil_lt_add_one x]

theorem fromDouble_pos {fl : ℝ → ℝ} (hfl : RoundsToNearest fl) {v : ℝ} (hd : IsDouble v)
    (h0 : 0 ≤ v) (hv : v < 2 ^ 63) :
    fl (truncate v) = truncate v ∧ fl (v - truncate v) = v - truncate v ∧
      0 ≤ v - truncate v ∧ v - truncate v ≤ 1 - 1 / 2 ^ 53 := by
  obtain ⟨p1, p2, p3⟩ := hd.parts h0
  rw [truncate_of_nonneg h0]
  exact ⟨hfl.self p1, hfl.self p2, by linarith [Int.floor_le v], p3⟩

/-- A timestamp from a double. -/
theorem fromDouble_ok {fl : ℝ → ℝ} (hfl : RoundsToNearest fl) {v : ℝ} (hd : IsDouble v)
    (hv : |v| < 2 ^ 63) : ∃ r, fromDouble fl v = .ok r ∧ r.Norm ∧ r.sec = truncate v ∧
      |(r.total : ℝ) - v * 1000000000| < 1 := by
  rcases le_total 0 v with h0 | h0
  · obtain ⟨p1, p2, p3, p4⟩ := fromDouble_pos hfl hd h0 (lt_of_le_of_lt (le_abs_self _) hv)
    obtain ⟨q1, q2, q3⟩ := frac_pos hfl p3 p4
    refine fromDouble_core hv p1 p2 (hfl.self isDouble_billion) (by rwa [abs_of_nonneg q1])
      (fun _ => q1) (fun h => ?_) q3
    have : v = 0 := le_antisymm h h0
    subst this
    have ht : truncate 0 = 0 := by simpa using truncate_int 0
    rw [ht]
    simp [hfl.self (x := 0) ⟨0, 0, by norm_num, by simp⟩]
  · obtain ⟨p1, p2, p3, p4⟩ := fromDouble_pos (RoundsToNearest.flip hfl) hd.neg (by linarith)
      (lt_of_le_of_lt (neg_le_abs _) hv)
    obtain ⟨q1, q2, q3⟩ := frac_pos (RoundsToNearest.flip hfl) p3 p4
    simp only [truncate_neg] at p1 p2 p3 p4 q1 q2 q3
    push_cast at p1 p2 p3 p4 q1 q2 q3
    have e : -(( -v - -(truncate v : ℝ)) * 1000000000) = (v - truncate v) * 1000000000 := by ring
    have e2 : -(-v - -(truncate v : ℝ)) = v - truncate v := by ring
    rw [neg_neg] at p1
    rw [e2] at p2
    rw [e] at q1 q2 q3
    refine fromDouble_core hv (by linarith) (by linarith) (hfl.self isDouble_billion)
      (by rw [abs_of_nonpos (by linarith)]; linarith) (fun h => ?_) (fun _ => by linarith) ?_
    · have : v = 0 := le_antisymm h0 h
      subst this
      have ht : truncate 0 = 0 := by simpa using truncate_int 0
      rw [ht]
      simp [hfl.self (x := 0) ⟨0, 0, by norm_num, by simp⟩]
    · rw [← abs_neg]
      rwa [show -((truncate (fl ((v - truncate v) * 1000000000)) : ℝ) - (v - truncate v) * 1000000000) =
        -(truncate (fl ((v - truncate v) * 1000000000)) : ℝ) - (-v - -truncate v) * 1000000000 by ring]

/-- The same in exact arithmetic; the result is cut off. -/
theorem fromDouble_exact {v : ℝ} (hv : |v| < 2 ^ 63) :
    ∃ r, fromDouble (fun x => x) v = .ok r ∧ r.Norm ∧ |(r.total : ℝ) - v * 1000000000| < 1 ∧
      (0 ≤ v → r.total ≤ v * 1000000000) := by
  have hn := truncate_near v
  rw [abs_sub_comm, abs_lt] at hn
  have s0 : 0 ≤ v → 0 ≤ v - truncate v := fun h => by
    rw [truncate_of_nonneg h]; linarith [Int.floor_le v]
  have s1 : v ≤ 0 → v - truncate v ≤ 0 := fun h => by
    have := truncate_of_nonneg (x := -v) (by linarith)
    rw [truncate_neg] at this
    have h2 : (truncate v : ℝ) = -(⌊-v⌋ : ℝ) := by exact_mod_cast (by omega : truncate v = -⌊-v⌋)
    rw [h2]; linarith [Int.floor_le (-v)]
  obtain ⟨r, h1, h2, -, h3⟩ := fromDouble_core (fl := fun x => x) hv rfl rfl rfl
    (by rw [abs_lt]; constructor <;> linarith) (fun h => by have := s0 h; positivity)
    (fun h => by nlinarith [s1 h]) (truncate_near _)
  refine ⟨r, h1, h2, h3, fun h0 => ?_⟩
  have hx : 0 ≤ (v - truncate v) * 1000000000 := by have := s0 h0; positivity
  have h4 : fromDouble (fun x => x) v = .ok ⟨truncate v, truncate ((v - truncate v) * 1000000000)⟩ := by
    unfold fromDouble
    rw [castLong_ok hv, Outcome.bind_ok, castLong_ok, Outcome.bind_ok]
    rw [abs_of_nonneg hx]
    exact lt_trans (b := 1000000000) (by linarith) (by norm_num)
  rw [h1] at h4
  cases h4
  have := Int.floor_le ((v - truncate v) * 1000000000)
  rw [truncate_of_nonneg hx]
  unfold Ts.total
  push_cast
  linarith

/-- The value of a timestamp as a double. -/
theorem toDouble_near {fl : ℝ → ℝ} (hfl : RoundsToNearest fl) {t : Ts} (hn : t.Norm)
    (hs : |t.sec| < 2 ^ 53) :
    ∃ x, toDouble fl t = fl x ∧ |x - t.total / 1000000000| ≤ 1 / 2 ^ 51 := by
  have hsec : fl (t.sec : ℝ) = t.sec := hfl.self (isDouble_int hs)
  have hns : |t.nsec| < 1000000000 := abs_lt.2 ⟨by linarith [hn.1], hn.2.1⟩
  have hnsec : fl (t.nsec : ℝ) = t.nsec := hfl.self (isDouble_int (by linarith))
  refine ⟨_, rfl, ?_⟩
  rw [hsec, hnsec]
  have hN : |(t.nsec : ℝ)| ≤ 1000000000 := by exact_mod_cast hns.le
  have hc := hfl.relative (1 / 10 ^ 9)
  rw [abs_of_pos (by norm_num : (0 : ℝ) < 1 / 10 ^ 9)] at hc
  generalize fl (1 / 10 ^ 9) = c at *
  have h1 : |(t.nsec : ℝ) * c - t.nsec / 1000000000| ≤ 1 / 2 ^ 53 := by
    rw [show (t.nsec : ℝ) * c - t.nsec / 1000000000 = t.nsec * (c - 1 / 10 ^ 9) by ring, abs_mul]
    calc |(t.nsec : ℝ)| * |c - 1 / 10 ^ 9| ≤ 1000000000 * (1 / 10 ^ 9 / 2 ^ 53) :=
          mul_le_mul hN hc (abs_nonneg _) (by norm_num)
      _ = 1 / 2 ^ 53 := by norm_num
  have h2 := hfl.relative ((t.nsec : ℝ) * c)
  have h3 : |(t.nsec : ℝ) * c| ≤ 2 := by
    have h4 : |(t.nsec : ℝ) / 1000000000| ≤ 1 := by
      rw [abs_div, abs_of_pos (by norm_num : (0 : ℝ) < 1000000000)]
      exact (div_le_one (by norm_num)).2 hN
    have := abs_add_le ((t.nsec : ℝ) * c - t.nsec / 1000000000) (t.nsec / 1000000000)
    rw [sub_add_cancel] at this
    refine this.trans (by linarith [show (1 : ℝ) / 2 ^ 53 ≤ 1 by norm_num])
  have h4 : |(t.sec : ℝ) + fl (t.nsec * c) - t.total / 1000000000| ≤
      |fl (t.nsec * c) - t.nsec * c| + |(t.nsec : ℝ) * c - t.nsec / 1000000000| := by
    have : (t.sec : ℝ) + fl (t.nsec * c) - t.total / 1000000000 =
        (fl (t.nsec * c) - t.nsec * c) + ((t.nsec : ℝ) * c - t.nsec / 1000000000) := by
      unfold Ts.total; push_cast; ring
    rw [this]
    exact abs_add_le _ _
  refine h4.trans ?_
  have : |(t.nsec : ℝ) * c| / 2 ^ 53 ≤ 2 / 2 ^ 53 := by gcongr
  norm_num at *
  linarith

end Ecl.Time
