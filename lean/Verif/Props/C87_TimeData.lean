import Verif.Lemmas.TimeData
import Verif.Spec.Statistics

/-!
# C87: timestamps from and to `double`, statistics of durations

`fl` is the rounding of the floating point unit.
-/
set_option autoImplicit false

namespace Ecl.Props
open Ecl.Time Ecl.Spec

/-- There is such a rounding. -/
example : RoundsToNearest round53 := round53_nearest

/-! ## From and to `double` -/

/-- A timestamp made from a number of seconds is normalised and less than a nanosecond away. -/
theorem C87_from_double (fl : ℝ → ℝ) (hfl : RoundsToNearest fl) (v : ℝ) (hd : IsDouble v)
    (hv : |v| < 2 ^ 63) :
    ∃ r, fromDouble fl v = .ok r ∧ r.Norm ∧ |(r.total : ℝ) - v * 1000000000| < 1 := by
  obtain ⟨r, h1, h2, -, h3⟩ := fromDouble_ok hfl hd hv
  exact ⟨r, h1, h2, h3⟩

example : IsDouble (-3 / 2) ∧ |(-3 / 2 : ℝ)| < 2 ^ 63 :=
  ⟨⟨-3, -1, by norm_num, by norm_num⟩, by rw [abs_of_neg] <;> norm_num⟩

/-- Numbers of seconds that do not fit are undefined. -/
theorem C87_fails_range (fl : ℝ → ℝ) (v : ℝ) (hv : 2 ^ 63 ≤ v) : fromDouble fl v = .ub := by
  have h0 : 0 ≤ v := le_trans (by norm_num) hv
  have h1 : (2 ^ 63 : Int) ≤ truncate v := by
    rw [truncate_of_nonneg h0]
    refine Int.le_floor.2 (le_trans ?_ hv)
    norm_num
  unfold fromDouble castLong
  rw [if_neg]
  · rfl
  · unfold InLong longMax
    omega

/-- Doubles below -2^63 are smaller by at least one. -/
private theorem below {v : ℝ} (hd : IsDouble v) (h : v < -2 ^ 63) : v ≤ -2 ^ 63 - 1 := by
  obtain ⟨m, e, hm, rfl⟩ := hd
  have h0 : (0 : ℝ) < 2 ^ e := by positivity
  have hm' : -(2 : ℝ) ^ 53 < m := by exact_mod_cast (abs_lt.1 hm).1
  have he : 0 ≤ e := by
    by_contra hn
    have h1 : (2 : ℝ) ^ e ≤ 1 := zpow_le_one_of_nonpos₀ (by norm_num) (by omega)
    have h2 : -(2 : ℝ) ^ 53 * 2 ^ e ≤ m * 2 ^ e := mul_le_mul_of_nonneg_right hm'.le h0.le
    have h3 : (2 : ℝ) ^ 53 * 2 ^ e ≤ 2 ^ 53 * 1 := mul_le_mul_of_nonneg_left h1 (by norm_num)
    norm_num at h h2 h3
    linarith
  obtain ⟨k, rfl⟩ := Int.eq_ofNat_of_zero_le he
  rw [zpow_natCast] at h ⊢
  have h4 : m * 2 ^ k < -2 ^ 63 := by exact_mod_cast h
  have h5 : m * 2 ^ k ≤ -2 ^ 63 - 1 := by omega
  exact_mod_cast h5

/-- Numbers of seconds below the smallest integer are undefined, too. -/
private theorem range_low (fl : ℝ → ℝ) (v : ℝ) (hv : v ≤ -2 ^ 63 - 1) : fromDouble fl v = .ub := by
  have h0 : 0 ≤ -v := by norm_num at hv ⊢; linarith
  have h1 : truncate v ≤ -2 ^ 63 - 1 := by
    have := truncate_of_nonneg h0
    rw [truncate_neg] at this
    have h2 : (2 ^ 63 + 1 : ℤ) ≤ ⌊-v⌋ := by
      refine Int.le_floor.2 ?_
      push_cast
      linarith
    omega
  unfold fromDouble castLong
  rw [if_neg]
  · rfl
  · unfold InLong longMin
    omega

/-- The numbers of seconds a timestamp can be made from are exactly those whose whole part fits. -/
theorem C87_range (fl : ℝ → ℝ) (hfl : RoundsToNearest fl) (v : ℝ) (hd : IsDouble v) :
    fromDouble fl v ≠ .ub ↔ -2 ^ 63 ≤ v ∧ v < 2 ^ 63 := by
  constructor
  · intro h
    constructor
    · by_contra hn
      exact h (range_low fl v (below hd (not_le.1 hn)))
    · by_contra hn
      exact h (C87_fails_range fl v (not_lt.1 hn))
  · rintro ⟨h1, h2⟩
    rcases eq_or_lt_of_le h1 with rfl | h1
    · have ht : truncate (-2 ^ 63 : ℝ) = -2 ^ 63 := by
        rw [truncate_neg, truncate_of_nonneg (by positivity)]
        congr 1
        rw [Int.floor_eq_iff]
        norm_num
      have hz : fl 0 = 0 := hfl.self ⟨0, 0, by norm_num, by norm_num⟩
      have tz : truncate (0 : ℝ) = 0 := by
        rw [truncate_of_nonneg le_rfl, Int.floor_zero]
      have hc : ((-2 ^ 63 : ℤ) : ℝ) = -2 ^ 63 := by norm_num
      unfold fromDouble castLong
      rw [ht, if_pos (by unfold InLong longMin longMax; omega), Outcome.bind_ok, hc, hfl.self hd,
        sub_self, hz, zero_mul, hz, tz, if_pos (by unfold InLong longMin longMax; omega)]
      exact nofun
    · obtain ⟨r, h3, -⟩ := C87_from_double fl hfl v hd (abs_lt.2 ⟨h1, h2⟩)
      rw [h3]
      exact nofun

example : IsDouble (-2 ^ 63) ∧ IsDouble (-2 ^ 64) :=
  ⟨⟨-1, 63, by norm_num, by norm_num⟩, ⟨-1, 64, by norm_num, by norm_num⟩⟩

private theorem d321 {fl : ℝ → ℝ} (hfl : RoundsToNearest fl) {x : ℝ}
    (hx : |x - 321 / 100| ≤ 1 / 2 ^ 53) : fl x = (7228277401929646 : ℤ) * 2 ^ (-51 : ℤ) := by
  refine hfl.eq (by norm_num) (by norm_num) ?_
  rw [abs_le] at hx
  rw [abs_lt]
  norm_num at hx ⊢
  constructor <;> linarith

private theorem from321 {fl : ℝ → ℝ} (hfl : RoundsToNearest fl) :
    fromDouble fl ((7228277401929646 : ℤ) * 2 ^ (-51 : ℤ)) = .ok ⟨3, 209999999⟩ := by
  have hd : IsDouble ((7228277401929646 : ℤ) * 2 ^ (-51 : ℤ)) := ⟨_, _, by norm_num, rfl⟩
  have h0 : (0 : ℝ) ≤ (7228277401929646 : ℤ) * 2 ^ (-51 : ℤ) := by norm_num
  have hs : truncate ((7228277401929646 : ℤ) * 2 ^ (-51 : ℤ)) = 3 := by
    rw [truncate_of_nonneg h0, Int.floor_eq_iff]
    norm_num
  obtain ⟨p1, p2, -, -⟩ := fromDouble_pos hfl hd h0 (by norm_num)
  rw [hs] at p1 p2
  have hn : truncate (fl (((7228277401929646 : ℤ) * 2 ^ (-51 : ℤ) - (3 : Int)) * 1000000000)) =
      209999999 := by
    have a : (209999999 : ℝ) ≤ fl (((7228277401929646 : ℤ) * 2 ^ (-51 : ℤ) - (3 : Int)) * 1000000000) :=
      hfl.ge (by simpa using isDouble_int (n := 209999999) (by norm_num)) (by norm_num)
    have b : fl (((7228277401929646 : ℤ) * 2 ^ (-51 : ℤ) - (3 : Int)) * 1000000000) < 210000000 := by
      refine hfl.lt (y := 210000000 - 1 / 2 ^ 25) ⟨7046430720000000 - 1, -25, by norm_num, ?_⟩ ?_ ?_
        <;> norm_num
    rw [truncate_of_nonneg (by linarith), Int.floor_eq_iff]
    exact ⟨by push_cast at a ⊢; linarith, by push_cast at b ⊢; linarith⟩
  unfold fromDouble
  rw [castLong_ok (by rw [abs_of_nonneg h0]; norm_num), hs, Outcome.bind_ok, p1, p2,
    hfl.self isDouble_billion]
  unfold castLong
  rw [hn]
  rfl

/-- The timestamp of the number 3.21, the example of the documentation, is not 3.21 seconds. -/
theorem C87_fails_decimal (fl : ℝ → ℝ) (hfl : RoundsToNearest fl) :
    fromDouble fl (fl 3.21) = .ok ⟨3, 209999999⟩ := by
  rw [d321 hfl (by norm_num), from321 hfl]

/-- Negative numbers do not throw, in any build. -/
theorem C87_fails_negative (fl : ℝ → ℝ) (hfl : RoundsToNearest fl) (v : ℝ) (hd : IsDouble v)
    (h0 : v ≤ -1) (hv : -2 ^ 63 < v) : ∃ r, fromDouble fl v = .ok r ∧ r.total < 0 := by
  obtain ⟨r, h1, -, h3⟩ := C87_from_double fl hfl v hd (by rw [abs_lt]; constructor <;> linarith)
  refine ⟨r, h1, ?_⟩
  have : (r.total : ℝ) < 0 := by linarith [(abs_lt.1 h3).2]
  exact_mod_cast this

/-- The number of seconds of a timestamp is right up to the precision of the type. -/
theorem C87_to_double (fl : ℝ → ℝ) (hfl : RoundsToNearest fl) (t : Ts) (hn : t.Norm)
    (hs : |t.sec| < 2 ^ 53) :
    |toDouble fl t - t.total / 1000000000| ≤ (|(t.total : ℝ) / 1000000000| + 5) / 2 ^ 53 := by
  obtain ⟨x, hx, h1⟩ := toDouble_near hfl hn hs
  rw [hx]
  have h2 := hfl.relative x
  have h3 : |x| ≤ |(t.total : ℝ) / 1000000000| + 1 / 2 ^ 51 := by
    have := abs_add_le (x - t.total / 1000000000) (t.total / 1000000000)
    rw [sub_add_cancel] at this
    linarith
  have h4 : |fl x - t.total / 1000000000| ≤ |fl x - x| + |x - t.total / 1000000000| := by
    have := abs_add_le (fl x - x) (x - t.total / 1000000000)
    rwa [sub_add_sub_cancel] at this
  have h5 : |x| / 2 ^ 53 ≤ (|(t.total : ℝ) / 1000000000| + 1 / 2 ^ 51) / 2 ^ 53 := by gcongr
  refine h4.trans ((add_le_add (h2.trans h5) h1).trans ?_)
  norm_num
  linarith

example : (⟨-1, -500000000⟩ : Ts).Norm ∧ |(⟨-1, -500000000⟩ : Ts).sec| < 2 ^ 53 := by decide

/-- A duration of up to three months survives the way through a number to within a nanosecond. -/
theorem C87_round_trip_partial (fl : ℝ → ℝ) (hfl : RoundsToNearest fl) (t : Ts) (hn : t.Norm)
    (ht : |t.total| ≤ 8000000 * 1000000000) :
    ∃ r, fromDouble fl (toDouble fl t) = .ok r ∧ r.Norm ∧ |r.total - t.total| ≤ 1 := by
  have hs : |t.sec| < 2 ^ 53 := by
    rw [abs_le] at ht
    obtain ⟨h1, h2, -, -⟩ := hn
    unfold Ts.total at ht
    rw [abs_lt]
    constructor <;> omega
  obtain ⟨x, hx, h1⟩ := toDouble_near hfl hn hs
  have ht' : |(t.total : ℝ) / 1000000000| ≤ 8000000 := by
    rw [abs_div, abs_of_pos (by norm_num : (0 : ℝ) < 1000000000), div_le_iff₀ (by norm_num)]
    exact_mod_cast ht
  have h3 : |x| ≤ 8000001 := by
    have := abs_add_le (x - t.total / 1000000000) (t.total / 1000000000)
    rw [sub_add_cancel] at this
    have : (1 : ℝ) / 2 ^ 51 ≤ 1 := by norm_num
    linarith
  have h4 := hfl.error (x := x) (E := 23) (h3.trans (by norm_num))
  have h5 : |fl x - t.total / 1000000000| ≤ 2 ^ (23 - 54 : ℤ) + 1 / 2 ^ 51 := by
    have := abs_add_le (fl x - x) (x - t.total / 1000000000)
    rw [sub_add_sub_cancel] at this
    exact this.trans (add_le_add h4 h1)
  rw [abs_le] at h5 ht'
  obtain ⟨r, r1, r2, r3⟩ := C87_from_double fl hfl (toDouble fl t) (hx ▸ (hfl x).1) (by
    rw [hx, abs_lt]
    norm_num at h5 ⊢
    constructor <;> linarith)
  refine ⟨r, r1, r2, ?_⟩
  rw [hx, abs_lt] at r3
  have h6 : ((r.total - t.total : Int) : ℝ) < ((2 : Int) : ℝ) := by
    norm_num at h5 ⊢
    linarith
  have h7 : ((-2 : Int) : ℝ) < ((r.total - t.total : Int) : ℝ) := by
    norm_num at h5 ⊢
    linarith
  rw [Int.cast_lt] at h6 h7
  rw [abs_le]
  constructor <;> omega

example : (⟨3, 210000000⟩ : Ts).Norm ∧ |(⟨3, 210000000⟩ : Ts).total| ≤ 8000000 * 1000000000 := by decide

private theorem to321 {fl : ℝ → ℝ} (hfl : RoundsToNearest fl) :
    toDouble fl ⟨3, 210000000⟩ = (7228277401929646 : ℤ) * 2 ^ (-51 : ℤ) := by
  have hc := hfl.relative (1 / 10 ^ 9)
  rw [abs_of_pos (by norm_num : (0 : ℝ) < 1 / 10 ^ 9)] at hc
  unfold toDouble
  rw [hfl.self (isDouble_int (n := 3) (by norm_num)), hfl.self (isDouble_int (n := 210000000) (by norm_num))]
  generalize fl (1 / 10 ^ 9) = c at *
  have h1 := hfl.error (x := ((210000000 : Int) : ℝ) * c) (E := -2) (by
    rw [abs_le] at hc ⊢
    norm_num at hc ⊢
    constructor <;> linarith)
  refine d321 hfl ?_
  rw [abs_le] at hc h1 ⊢
  norm_num at hc h1 ⊢
  constructor <;> linarith

/-- The nanosecond can be lost. -/
theorem C87_fails_round_trip (fl : ℝ → ℝ) (hfl : RoundsToNearest fl) :
    fromDouble fl (toDouble fl ⟨3, 210000000⟩) = .ok ⟨3, 209999999⟩ := by
  rw [to321 hfl, from321 hfl]

/-- Times of day, in seconds since 1970, are the same number when they differ by a hundred
nanoseconds. -/
theorem C87_fails_resolution (fl : ℝ → ℝ) (hfl : RoundsToNearest fl) :
    ∃ a b : Ts, a.Valid ∧ b.Valid ∧ b.total = a.total + 100 ∧ toDouble fl a = toDouble fl b := by
  refine ⟨⟨1794826801, 0⟩, ⟨1794826801, 100⟩, by decide, by decide, by decide, ?_⟩
  have key : ∀ n : Int, 0 ≤ n → n ≤ 100 → toDouble fl ⟨1794826801, n⟩ =
      (1794826801 * 4194304 : ℤ) * 2 ^ (-22 : ℤ) := by
    intro n h0 h1
    have hn : (⟨1794826801, n⟩ : Ts).Norm := by
      refine ⟨?_, ?_, ?_, ?_⟩ <;> simp only <;> omega
    obtain ⟨x, hx, h2⟩ := toDouble_near hfl hn (by simp only; norm_num)
    rw [hx]
    refine hfl.eq (by norm_num) (by norm_num) ?_
    have a0 : (0 : ℝ) ≤ n := by exact_mod_cast h0
    have a1 : (n : ℝ) ≤ 100 := by exact_mod_cast h1
    unfold Ts.total at h2
    rw [abs_le] at h2
    rw [abs_lt]
    norm_num at h2 ⊢
    constructor <;> linarith
  rw [key 0 le_rfl (by norm_num), key 100 (by norm_num) le_rfl]

/-! ## Statistics -/

/-- The durations an object holds are those added since it was last cleared. -/
theorem C87_data (ops ops' : List DataOp) (ds : List Ts) (l : List Ts)
    (h : ops' = l.map DataOp.push) : data (ops ++ .clear :: ops') ds = l := by
  subst h
  have h1 : ∀ (l ds : List Ts), data (l.map DataOp.push) ds = ds ++ l := by
    intro l
    induction l with
    | nil => intro ds; simp [data]
    | cons d l ih => intro ds; simp [data, ih]
  induction ops generalizing ds with
  | nil => simp [data, h1]
  | cons o ops ih => cases o <;> exact ih _

/-- The durations in seconds. -/
noncomputable def seconds (ds : List Ts) : List ℝ := ds.map fun d => (d.total : ℝ) / 1000000000

private theorem toDouble_exact (t : Ts) : toDouble (fun x => x) t = t.total / 1000000000 := by
  unfold toDouble Ts.total; push_cast; ring

private theorem foldl_sum {α : Type} (f : α → ℝ) (l : List α) (a : ℝ) :
    l.foldl (fun s d => s + f d) a = a + (l.map f).sum := by
  induction l generalizing a with
  | nil => simp
  | cons d l ih => simp [ih]; ring

private theorem sum_exact (ds : List Ts) : sumOf (fun x => x) ds = (seconds ds).sum := by
  unfold sumOf seconds
  simp only [toDouble_exact]
  rw [foldl_sum, zero_add]

private theorem squares_exact (a : Ts) (ds : List Ts) : squares (fun x => x) a ds =
    ((seconds ds).map fun x : ℝ => (x - (a.total : ℝ) / 1000000000) ^ 2).sum := by
  unfold squares seconds
  simp only [toDouble_exact]
  rw [foldl_sum, zero_add, List.map_map]
  simp only [Function.comp_def, pow_two]

/-- In exact arithmetic the average is right to within a nanosecond. -/
theorem C87_average_partial (ds : List Ts) (h : ds ≠ [])
    (hr : |Spec.average (seconds ds)| < 2 ^ 63) :
    ∃ r, Time.average (fun x => x) ds = .ok r ∧ r.Norm ∧
      |(r.total : ℝ) - Spec.average (seconds ds) * 1000000000| < 1 := by
  obtain ⟨r, h1, h2, h3, -⟩ := fromDouble_exact hr
  refine ⟨r, ?_, h2, h3⟩
  unfold Time.average
  rw [if_neg (by simpa using h), sum_exact]
  unfold Spec.average at h1
  simpa [seconds] using h1

private theorem squares_around (l : List ℝ) (hl : l ≠ []) (a : ℝ) :
    (l.map fun x => (x - a) ^ 2).sum = deviation l + l.length * (Spec.average l - a) ^ 2 := by
  have h1 : ∀ (l : List ℝ) (m : ℝ), (l.map fun x => (x - a) ^ 2).sum =
      (l.map fun x => (x - m) ^ 2).sum + 2 * (m - a) * (l.sum - l.length * m) + l.length * (m - a) ^ 2 := by
    intro l m
    induction l with
    | nil => simp
    | cons x l ih => simp [ih]; ring
  rw [h1 l (Spec.average l), deviation]
  have : (l.length : ℝ) ≠ 0 := by simpa using hl
  have : l.sum - l.length * Spec.average l = 0 := by unfold Spec.average; field_simp; ring
  rw [this]
  ring

private theorem mean_square (ds : List Ts) (h : ds ≠ []) (a : Ts) :
    squares (fun x => x) a ds / ds.length = deviation (seconds ds) / ds.length +
      (Spec.average (seconds ds) - a.total / 1000000000) ^ 2 := by
  have hs : seconds ds ≠ [] := by simpa [seconds] using h
  have hl : (seconds ds).length = ds.length := by simp [seconds]
  have : (ds.length : ℝ) ≠ 0 := by simpa using h
  rw [squares_exact, squares_around _ hs, hl]
  field_simp

private theorem deviation_nonneg (l : List ℝ) : 0 ≤ deviation l := by
  unfold deviation
  refine List.sum_nonneg fun x hx => ?_
  obtain ⟨y, -, rfl⟩ := List.mem_map.1 hx
  positivity

/-- In exact arithmetic the variance, in seconds squared and with the number of durations as divisor, is
right to little more than a billionth. -/
theorem C87_variance_partial (ds : List Ts) (h : ds ≠ [])
    (hr : |Spec.average (seconds ds)| < 2 ^ 63)
    (hv : deviation (seconds ds) / ds.length + 1 < 2 ^ 63) :
    ∃ r, Time.variance (fun x => x) ds = .ok r ∧ r.Norm ∧
      |(r.total : ℝ) - deviation (seconds ds) / ds.length * 1000000000| < 1 + 1 / 1000000000 := by
  obtain ⟨a, ha, -, h3⟩ := C87_average_partial ds h hr
  have hm := mean_square ds h a
  have hd : 0 ≤ deviation (seconds ds) / ds.length := div_nonneg (deviation_nonneg _) (by positivity)
  have hq : (Spec.average (seconds ds) - a.total / 1000000000) ^ 2 ≤ (1 / 1000000000) ^ 2 := by
    rw [abs_lt] at h3
    exact sq_le_sq' (by linarith) (by linarith)
  have hq0 := sq_nonneg (Spec.average (seconds ds) - a.total / 1000000000)
  obtain ⟨r, r1, r2, r3, -⟩ := fromDouble_exact (v := squares (fun x => x) a ds / ds.length) (by
    rw [hm, abs_of_nonneg (by positivity)]
    norm_num at hq ⊢
    linarith)
  refine ⟨r, by unfold Time.variance; rw [ha, Outcome.bind_ok]; exact r1, r2, ?_⟩
  rw [hm, abs_lt] at r3
  rw [abs_lt]
  norm_num at hq ⊢
  constructor <;> linarith

/-- In exact arithmetic the standard deviation is right to within a nanosecond. -/
theorem C87_deviation_partial (ds : List Ts) (h : ds ≠ [])
    (hr : |Spec.average (seconds ds)| < 2 ^ 63)
    (hv : √(deviation (seconds ds) / ds.length) + 1 < 2 ^ 63) :
    ∃ r, Time.stdDev (fun x => x) ds = .ok r ∧ r.Norm ∧
      |(r.total : ℝ) - √(deviation (seconds ds) / ds.length) * 1000000000| < 1 := by
  obtain ⟨a, ha, -, h3⟩ := C87_average_partial ds h hr
  have hm := mean_square ds h a
  have hd : 0 ≤ deviation (seconds ds) / ds.length := div_nonneg (deviation_nonneg _) (by positivity)
  generalize hδ : |Spec.average (seconds ds) - a.total / 1000000000| = δ
  have hδ0 : 0 ≤ δ := hδ ▸ abs_nonneg _
  have hδ1 : δ < 1 / 1000000000 := by
    rw [← hδ]
    rw [abs_lt] at h3 ⊢
    constructor <;> linarith
  rw [← sq_abs, hδ] at hm
  have s1 : √(deviation (seconds ds) / ds.length) ≤ √(squares (fun x => x) a ds / ds.length) :=
    Real.sqrt_le_sqrt (by rw [hm]; linarith [sq_nonneg δ])
  have s2 : √(squares (fun x => x) a ds / ds.length) ≤ √(deviation (seconds ds) / ds.length) + δ := by
    rw [hm]
    refine Real.sqrt_le_iff.2 ⟨by positivity, ?_⟩
    rw [add_sq, Real.sq_sqrt hd]
    have := Real.sqrt_nonneg (deviation (seconds ds) / ds.length)
    nlinarith [mul_nonneg this hδ0]
  have s0 := Real.sqrt_nonneg (squares (fun x => x) a ds / ds.length)
  obtain ⟨r, r1, r2, r3, r4⟩ := fromDouble_exact (v := √(squares (fun x => x) a ds / ds.length)) (by
    rw [abs_of_nonneg s0]; linarith)
  refine ⟨r, by unfold Time.stdDev; rw [ha, Outcome.bind_ok]; exact r1, r2, ?_⟩
  have r5 := r4 s0
  rw [abs_lt] at r3 ⊢
  constructor <;> linarith

/-- Two durations of one and three seconds: average 2 s, variance 1 s², deviation 1 s. -/
example : Spec.average (seconds [⟨1, 0⟩, ⟨3, 0⟩]) = 2 ∧ deviation (seconds [⟨1, 0⟩, ⟨3, 0⟩]) / 2 = 1 := by
  have h : Spec.average (seconds [⟨1, 0⟩, ⟨3, 0⟩]) = 2 := by
    simp [seconds, Spec.average, Ts.total]; norm_num
  refine ⟨h, ?_⟩
  unfold deviation
  rw [h]
  simp [seconds, Ts.total]; norm_num

/-- Without durations all three are undefined. -/
theorem C87_fails_empty (fl : ℝ → ℝ) :
    Time.average fl [] = .ub ∧ Time.variance fl [] = .ub ∧ Time.stdDev fl [] = .ub := by
  have h : Time.average fl [] = .ub := if_pos rfl
  refine ⟨h, ?_, ?_⟩
  · unfold Time.variance; rw [h]; rfl
  · unfold Time.stdDev; rw [h]; rfl

/-- With rounding, the average of one duration is not always that duration. -/
theorem C87_fails_average (fl : ℝ → ℝ) (hfl : RoundsToNearest fl) :
    Time.average fl [⟨3, 210000000⟩] = .ok ⟨3, 209999999⟩ := by
  have hd : IsDouble ((7228277401929646 : ℤ) * 2 ^ (-51 : ℤ)) := ⟨_, _, by norm_num, rfl⟩
  have h1 : fl ((1 : ℕ) : ℝ) = 1 := by simpa using hfl.self (isDouble_int (n := 1) (by norm_num))
  unfold Time.average sumOf
  rw [if_neg (by simp)]
  simp only [List.foldl_cons, List.foldl_nil, List.length_singleton, to321 hfl, zero_add, h1, div_one,
    hfl.self hd]
  exact from321 hfl

end Ecl.Props
