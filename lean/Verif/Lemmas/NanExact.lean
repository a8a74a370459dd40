import Verif.Lemmas.Nan
import Mathlib.Tactic.Linarith
import Mathlib.Tactic.NormNum

/-! # Helper lemmas: NaN and a tension of zero in exact arithmetic (C131) -/
set_option autoImplicit false

namespace Ecl.Nan
open Ecl Ecl.Nan.Spec Ecl.Poly Ecl.Poly.Ext

theorem exact_spreads : Spreads exact (· = nan) := by
  constructor
  · rintro a b (rfl | rfl)
    · cases b <;> rfl
    · cases a <;> rfl
  · rintro a b (rfl | rfl)
    · cases b <;> rfl
    · cases a <;> rfl
  · rintro a b (rfl | rfl)
    · cases b <;> rfl
    · cases a <;> rfl
  · rintro a b (rfl | rfl)
    · cases b <;> rfl
    · cases a <;> rfl
  · rintro a rfl; rfl
  · rintro a rfl; rfl
  · rintro a rfl; rfl
  · rintro a rfl; rfl
  · rintro a rfl; rfl
  · rintro a b (rfl | rfl)
    · cases b <;> simp [exact, Special.lt, gt]
    · cases a <;> simp [exact, Special.lt, gt]
  · rintro a b (rfl | rfl)
    · cases b <;> simp [exact, Special.le, ge, gt, eq]
    · cases a <;> simp [exact, Special.le, ge, gt, eq]
  · rintro a b (rfl | rfl)
    · cases b <;> simp [exact, eq]
    · cases a <;> simp [exact, eq]

theorem exact_zeros : Zeros exact (· = nan) (· = num 0) := by
  constructor
  · rintro a b rfl
    cases b <;> simp [exact, mul]
  · rintro a rfl; simp [exact]
  · rintro a b rfl rfl; simp [exact, div]

/-- The knots in real numbers. -/
def knots (t : ℝ) : List ℝ → List ℝ
  | [] => [t]
  | d :: ds => t :: knots (t + d) ds

theorem knots_length (t : ℝ) (ds : List ℝ) : (knots t ds).length = ds.length + 1 := by
  induction ds generalizing t with
  | nil => rfl
  | cons d ds ih => simp [knots, ih]

theorem knotTimes_num (t : ℝ) (ds : List ℝ) : knotTimes exact (num t) (ds.map num) = (knots t ds).map num := by
  induction ds generalizing t with
  | nil => rfl
  | cons d ds ih =>
    simp only [knotTimes, List.map_cons, knots]
    rw [← ih]; rfl

theorem knots_le (t : ℝ) (ds : List ℝ) (h : ∀ d ∈ ds, 0 < d) : ∀ x ∈ knots t ds, t ≤ x := by
  induction ds generalizing t with
  | nil => intro x hx; simp [knots] at hx; simp [hx]
  | cons d ds ih =>
    intro x hx
    rcases List.mem_cons.1 hx with rfl | hx
    · exact le_rfl
    · have := ih (t + d) (fun e he => h e (by simp [he])) x hx
      have := h d (by simp)
      linarith

theorem knots_last (t : ℝ) (ds : List ℝ) (h : ∀ d ∈ ds, 0 < d) : ∀ x ∈ knots t ds, ∀ l, (knots t ds).getLast? = some l → x ≤ l := by
  induction ds generalizing t with
  | nil => intro x hx l hl; simp [knots] at hx hl; simp [hx, hl]
  | cons d ds ih =>
    have hne : knots (t + d) ds ≠ [] := by intro e; have := knots_length (t + d) ds; rw [e] at this; simp at this
    intro x hx l hl
    rw [knots, List.getLast?_cons, List.getLast?_eq_some_getLast hne] at hl
    simp only [Option.getD_some, Option.some.injEq] at hl
    have hl' : (knots (t + d) ds).getLast? = some l := by rw [List.getLast?_eq_some_getLast hne, hl]
    have hd := fun e he => h e (List.mem_cons_of_mem d he)
    rcases List.mem_cons.1 hx with rfl | hx
    · have hmem : l ∈ knots (x + d) ds := List.mem_of_getLast? hl'
      have := knots_le (x + d) ds hd l hmem
      have := h d (by simp)
      linarith
    · exact ih (t + d) hd x hx l hl'

theorem findFrom_num (mode : Mode) (x : ℝ) : ∀ (L : List ℝ) (i : ℕ), (∃ l ∈ L, x ≤ l) →
    ∃ k < L.length, findFrom exact mode (num x) (L.map num) i = .ok (i + k) := by
  intro L
  induction L with
  | nil => rintro i ⟨l, hl, _⟩; simp at hl
  | cons l L ih =>
    rintro i ⟨m, hm, hx⟩
    simp only [List.map_cons, findFrom]
    by_cases hlx : l < x
    · rw [if_pos (by simp [exact, Special.lt, gt, hlx])]
      rcases List.mem_cons.1 hm with rfl | hm
      · linarith
      · obtain ⟨k, hk, e⟩ := ih (i + 1) ⟨m, hm, hx⟩
        exact ⟨k + 1, by simp; omega, by rw [e]; congr 1; omega⟩
    · rw [if_neg (by simp [exact, Special.lt, gt, hlx])]
      exact ⟨0, by simp, rfl⟩

theorem segment_num (mode : Mode) (t x : ℝ) (ds : List ℝ) (h : ∀ d ∈ ds, 0 < d) (hne : ds ≠ []) (h1 : t ≤ x) (h2 : ∃ l ∈ knots t ds, x ≤ l) :
    ∃ k < ds.length, segment exact mode ((knots t ds).map num) (num x) = .ok k := by
  cases ds with
  | nil => exact absurd rfl hne
  | cons d ds =>
    obtain ⟨m, hm, hx⟩ := h2
    have hd : ∃ l ∈ knots (t + d) ds, x ≤ l := by
      rcases List.mem_cons.1 hm with rfl | hm
      · refine ⟨m + d, ?_, ?_⟩
        · cases ds <;> simp [knots]
        · have := h d (by simp); linarith
      · exact ⟨m, hm, hx⟩
    obtain ⟨k, hk, e⟩ := findFrom_num mode x _ 0 hd
    rw [knots_length] at hk
    refine ⟨k, by simpa using hk, ?_⟩
    rw [Nat.zero_add] at e
    have hdrop : ((knots t (d :: ds)).map num).drop 1 = (knots (t + d) ds).map num := by simp [knots]
    cases mode with
    | release =>
      unfold segment
      rw [hdrop]; exact e
    | debug =>
      have hlast : ∃ l, ((knots t (d :: ds)).map num).getLast? = some (num l) ∧ x ≤ l := by
        have hn : knots t (d :: ds) ≠ [] := by simp [knots]
        refine ⟨(knots t (d :: ds)).getLast hn, by rw [List.getLast?_map, List.getLast?_eq_some_getLast hn]; rfl, ?_⟩
        exact hx.trans (knots_last t (d :: ds) h m hm _ (List.getLast?_eq_some_getLast hn))
      obtain ⟨l, hl, hxl⟩ := hlast
      have hh : ((knots t (d :: ds)).map num).head? = some (num t) := by simp [knots]
      unfold segment
      rw [hh, hl, hdrop]
      dsimp only
      have hle : ∀ a b : ℝ, a ≤ b → exact.le (num a) (num b) = true := by
        intro a b hab
        rcases hab.lt_or_eq with hab | hab <;> simp [exact, Special.le, ge, gt, eq, hab]
      rw [hle t x h1, hle x l hxl]
      exact e

theorem call_num (f : Func Ext → Ext → Ext → Ext) (mode : Mode) (t x : ℝ) (ds : List ℝ) (s : Tension Ext) (h : ∀ d ∈ ds, 0 < d) (hne : ds ≠ [])
    (h1 : t ≤ x) (h2 : ∃ l ∈ knots t ds, x ≤ l) (hs : s.domain = (knots t ds).map num) (hf : s.functions.length = ds.length) :
    ∃ y, Tension.call exact f mode s (num x) = .ok y := by
  obtain ⟨k, hk, e⟩ := segment_num mode t x ds h hne h1 h2
  unfold Tension.call
  rw [hs, e]
  simp only [Outcome.bind]
  rw [List.getElem?_eq_getElem (by omega)]
  exact ⟨_, rfl⟩

/-- The segments last positive numbers of seconds. -/
def Timed (ws : List (WayPoint Ext)) (ds : List ℝ) : Prop :=
  ws.length = ds.length + 1 ∧ 2 ≤ ds.length ∧ (∀ d ∈ ds, 0 < d) ∧ ws.dropLast.map WayPoint.duration = ds.map num

theorem tensionSplines_num (mode : Mode) (d : ℕ) (tau : Ext) (t : ℝ) (ws : List (WayPoint Ext)) (ds : List ℝ) (h : Timed ws ds) :
    ∃ ss, tensionSplines exact mode d tau (num t) ws = .ok ss ∧ ss.length = d ∧
      ∀ s ∈ ss, s.domain = (knots t ds).map num ∧ s.functions.length = ds.length := by
  obtain ⟨h1, h2, h3, h4⟩ := h
  have key : ∀ js : List ℕ, ∃ ss, tensionLoop exact mode ((knots t ds).map num) (fun j => ws.map fun w => get exact w.angles j) tau js = .ok ss ∧
      ss.length = js.length ∧ ∀ s ∈ ss, s.domain = (knots t ds).map num ∧ s.functions.length = ds.length := by
    intro js
    induction js with
    | nil => exact ⟨[], rfl, rfl, by simp⟩
    | cons j js ih =>
      obtain ⟨ss, e, hl, hs⟩ := ih
      unfold tensionLoop natural
      rw [if_neg (by simp [knots_length, h1]), if_neg (by simp [knots_length, h1]; omega), e]
      refine ⟨_, rfl, by simp [hl], ?_⟩
      intro s hs'
      rcases List.mem_cons.1 hs' with rfl | hs'
      · exact ⟨rfl, by simp [knots_length]⟩
      · exact hs s hs'
  obtain ⟨ss, e, hl, hs⟩ := key (List.range d)
  refine ⟨ss, ?_, by simpa using hl, hs⟩
  unfold tensionSplines
  rw [h4, knotTimes_num]; exact e

theorem nth_some {F : Type} (mode : Mode) (ss : List (Tension F)) (j : ℕ) (h : j < ss.length) : ∃ s ∈ ss, nth mode ss j = .ok s := by
  refine ⟨ss[j], List.getElem_mem h, ?_⟩
  unfold nth
  rw [List.getElem?_eq_getElem h]

theorem zero_functions (mode : Mode) (d : ℕ) (t : Ext) (ws : List (WayPoint Ext)) (ss : List (Tension Ext))
    (h : tensionSplines exact mode d (num 0) t ws = .ok ss) (j : ℕ) (hj : j < d) (s : Tension Ext) (hs : nth mode ss j = .ok s) :
    ∀ f ∈ s.functions, f.z0 = nan ∨ f.zf = nan :=
  spline_bad exact_spreads mode d (num 0) t ws ss j s hj h (nth_ok mode ss j s hs) (Or.inl (bad_zero exact_spreads exact_zeros _ rfl))

theorem violating_zero (mode : Mode) (d : ℕ) (amax : List Ext) (x : ℝ) (ws : List (WayPoint Ext)) (ds : List ℝ) (ht : Timed ws ds) (ss : List (Tension Ext))
    (h : tensionSplines exact mode d (num 0) (num 0) ws = .ok ss) (hx : x ∈ knots 0 ds) :
    ∀ js : List ℕ, (∀ j ∈ js, j < d) → violating exact mode amax ss (num x) js = .ok none := by
  intro js
  induction js with
  | nil => intro _; rfl
  | cons j js ih =>
    intro hj
    obtain ⟨ss', e, hl, hs⟩ := tensionSplines_num mode d (num 0) 0 ws ds ht
    rw [h] at e
    cases e
    obtain ⟨s, hm, hn⟩ := nth_some mode ss j (by rw [hl]; exact hj j (by simp))
    obtain ⟨y, hy⟩ := call_num (Func.curvature exact) mode 0 x ds s ht.2.2.1 (by intro e; have := ht.2.1; simp [e] at this)
      (knots_le 0 ds ht.2.2.1 x hx) ⟨x, hx, le_rfl⟩ (hs s hm).1 (hs s hm).2
    have hz := zero_functions mode d (num 0) ws ss h j (hj j (by simp)) s hn
    have hyn : y = nan := call_nan (isNan := (· = nan)) _ mode s _ y hy fun g hg => curvature_nan exact_spreads g _ _ (hz g hg)
    unfold violating
    rw [hn]
    simp only [Outcome.bind]
    unfold Tension.curvature
    rw [hy, hyn]
    simp only
    rw [if_neg (by rw [exact_spreads.lt _ _ (Or.inr (exact_spreads.abs _ rfl))]; exact Bool.false_ne_true)]
    exact ih fun j hj' => hj j (by simp [hj'])

theorem knotLoop_zero (mode : Mode) (d : ℕ) (hd : 0 < d) (amax : List Ext) (ws : List (WayPoint Ext)) (ds : List ℝ) (ht : Timed ws ds) (passes : ℕ) :
    knotLoop exact mode d amax (num 0) (passes + 1) ws = some (.ok ws) := by
  obtain ⟨ss, e, hl, hs⟩ := tensionSplines_num mode d (num 0) 0 ws ds ht
  obtain ⟨s, hm, hn⟩ := nth_some mode ss 0 (by omega)
  have pass : ∀ is : List (ℕ × Ext), (∀ p ∈ is, ∃ x ∈ knots 0 ds, p.2 = num x) → knotPass exact mode d amax ss is ws true = .ok (ws, true) := by
    intro is
    induction is with
    | nil => intro _; rfl
    | cons p is ih =>
      intro hp
      obtain ⟨i, q⟩ := p
      obtain ⟨x, hx, hq⟩ := hp (i, q) (by simp)
      dsimp only at hq
      subst hq
      unfold knotPass
      rw [violating_zero mode d amax x ws ds ht ss e hx (List.range d) fun j hj => List.mem_range.1 hj]
      exact ih fun p hp' => hp p (by simp [hp'])
  unfold knotLoop
  have hlit : exact.lit 0 = num 0 := by simp [exact]
  rw [hlit, e]
  simp only [Outcome.bind]
  rw [hn]
  simp only
  rw [pass]
  intro p hp
  unfold innerKnots at hp
  obtain ⟨i, hi, rfl⟩ := List.mem_map.1 hp
  rw [(hs s hm).1, List.length_map, knots_length] at hi
  have hi := List.mem_range.1 hi
  have hk : i + 1 < (knots 0 ds).length := by rw [knots_length]; omega
  refine ⟨(knots 0 ds)[i + 1], List.getElem_mem hk, ?_⟩
  rw [(hs s hm).1]
  simp [get, List.getD, hk]

theorem quintics_ok {F : Type} {A : Arith F} (amax : List F) (quintic : ℕ → Outcome (F × F × Coeffs F)) : ∀ js : List ℕ,
    (∀ j ∈ js, ∃ q, quintic j = .ok q) → ∃ r, quintics A amax quintic js = .ok r := by
  intro js
  induction js with
  | nil => intro _; exact ⟨_, rfl⟩
  | cons j js ih =>
    intro h
    obtain ⟨q, hq⟩ := h j (by simp)
    obtain ⟨r, hr⟩ := ih fun j hj => h j (by simp [hj])
    unfold quintics
    rw [hq]
    simp only [Outcome.bind]
    rw [hr]
    split
    · exact ⟨_, rfl⟩
    · exact ⟨_, rfl⟩

theorem wp_duration (ws : List (WayPoint Ext)) (ds : List ℝ) (ht : Timed ws ds) : ∃ e es, ds = e :: es ∧ 0 < e ∧ (wp exact ws 0).duration = num e := by
  obtain ⟨h1, h2, h3, h4⟩ := ht
  cases ds with
  | nil => simp at h2
  | cons e es =>
    refine ⟨e, es, rfl, h3 e (by simp), ?_⟩
    match ws, h1, h4 with
    | w :: v :: rest, _, h4 =>
      simp at h4
      exact h4.1
    | [w], h1, _ => simp at h1

theorem leadingAttempt_zero (mode : Mode) (d : ℕ) (hd : 0 < d) (amax : List Ext) (ws : List (WayPoint Ext)) (ds : List ℝ) (ht : Timed ws ds) (i : ℕ) (hi : i ≤ 5) :
    ∃ t, leadingAttempt exact mode d amax (num 0) ws i = .ok (t, none) := by
  obtain ⟨e, es, rfl, he, hdur⟩ := wp_duration ws ds ht
  have htime : exact.div (exact.mul (exact.lit i) (wp exact ws 0).duration) (exact.lit 10) = num (i * e / 10) := by
    rw [hdur]; simp [exact, mul, div]
  obtain ⟨ss, hss, hl, hs⟩ := tensionSplines_num mode d (num 0) (i * e / 10) ws _ ht
  have hq : ∃ r, quintics exact amax (leadingQuintic exact mode (wp exact ws 0) ss (num (i * e / 10))) (List.range d) = .ok r := by
    apply quintics_ok
    intro j hj
    obtain ⟨s, hm, hn⟩ := nth_some mode ss j (by rw [hl]; exact List.mem_range.1 hj)
    have htt : exact.mul (exact.lit 2) (num (i * e / 10)) = num (2 * (i * e / 10)) := by simp [exact, mul]
    have hi' : (i : ℝ) ≤ 5 := by exact_mod_cast hi
    have hi0 : (0 : ℝ) ≤ i := Nat.cast_nonneg i
    have hie : (i : ℝ) * e ≤ 5 * e := mul_le_mul_of_nonneg_right hi' he.le
    have hie0 : 0 ≤ (i : ℝ) * e := mul_nonneg hi0 he.le
    have hc := fun f => call_num f mode (i * e / 10) (2 * (i * e / 10)) (e :: es) s ht.2.2.1 (by simp) (by linarith)
      ⟨i * e / 10 + e, by cases es <;> simp [knots], by linarith⟩ (hs s hm).1 (hs s hm).2
    obtain ⟨yd, hyd⟩ := hc (Func.slope exact)
    obtain ⟨y, hy⟩ := hc (Func.value exact)
    unfold leadingQuintic
    dsimp only
    rw [htt, hn]
    simp only [Outcome.bind]
    unfold Tension.slope Tension.value
    rw [hyd]
    simp only
    rw [hy]
    exact ⟨_, rfl⟩
  obtain ⟨r, hr⟩ := hq
  have hok : ∃ t, leadingAttempt exact mode d amax (num 0) ws i = .ok (t, r) := by
    unfold leadingAttempt
    dsimp only
    rw [htime, hss]
    simp only [Outcome.bind]
    rw [hr]
    exact ⟨_, rfl⟩
  obtain ⟨t, hok⟩ := hok
  have := leadingAttempt_nan exact_spreads mode d amax (num 0) ws
    ⟨0, hd, Or.inl (Or.inl (bad_zero exact_spreads exact_zeros _ rfl))⟩ i _ hok
  dsimp only at this
  rw [this] at hok
  exact ⟨t, hok⟩

theorem stretch_timed (ws : List (WayPoint Ext)) (ds : List ℝ) (ht : Timed ws ds) :
    ∃ ds', Timed (ws.modify 0 (stretchOne exact (11 / 10))) ds' := by
  obtain ⟨e, es, rfl, he, hdur⟩ := wp_duration ws ds ht
  obtain ⟨h1, h2, h3, h4⟩ := ht
  match ws, h1, h4, hdur with
  | w :: v :: rest, h1, h4, hdur =>
    have hw : w.duration = num e := hdur
    refine ⟨e * (11 / 10) :: es, by simpa using h1, h2, ?_, ?_⟩
    · intro d hd
      rcases List.mem_cons.1 hd with rfl | hd
      · linarith
      · exact h3 d (by simp [hd])
    · simp at h4 ⊢
      refine ⟨?_, h4.2⟩
      simp [stretchOne, exact, mul, hw]
  | [w], h1, _, _ => simp at h1

theorem leadingLoop_zero (mode : Mode) (d : ℕ) (hd : 0 < d) (amax : List Ext) : ∀ (passes : ℕ) (ws : List (WayPoint Ext)) (ds : List ℝ), Timed ws ds →
    leadingLoop exact mode d amax (num 0) passes ws = none := by
  intro passes
  induction passes with
  | zero => intro ws ds _; rfl
  | succ n ih =>
    intro ws ds ht
    have hf : firstAttempt (leadingAttempt exact mode d amax (num 0) ws) 5 1 = .ok none := by
      have key : ∀ left i, left + i ≤ 6 → firstAttempt (leadingAttempt exact mode d amax (num 0) ws) left i = .ok none := by
        intro left
        induction left with
        | zero => intro i _; rfl
        | succ left ihl =>
          intro i hi
          obtain ⟨t, e⟩ := leadingAttempt_zero mode d hd amax ws ds ht i (by omega)
          unfold firstAttempt
          rw [e]
          exact ihl (i + 1) (by omega)
      exact key 5 1 le_rfl
    unfold leadingLoop
    rw [hf]
    obtain ⟨ds', ht'⟩ := stretch_timed ws ds ht
    exact ih _ ds' ht'

theorem configure_duration (w : WayPoint Ext) : (configure exact w).duration = w.duration := by
  unfold configure
  split <;> rfl

theorem modify_durations (f : WayPoint Ext → WayPoint Ext) (hf : ∀ w, (f w).duration = w.duration) (ws : List (WayPoint Ext)) (i : ℕ) :
    (ws.modify i f).dropLast.map WayPoint.duration = ws.dropLast.map WayPoint.duration := by
  rw [List.map_dropLast, List.map_dropLast]
  congr 1
  apply List.ext_getElem?
  intro k
  rw [List.getElem?_map, List.getElem?_map, List.getElem?_modify]
  cases ws[k]? with
  | none => rfl
  | some w =>
    by_cases e : i = k
    · simp [e, hf]
    · simp [e]

theorem configureEnds_timed (ws : List (WayPoint Ext)) (ds : List ℝ) (ht : Timed ws ds) : Timed (configureEnds exact ws) ds := by
  obtain ⟨h1, h2, h3, h4⟩ := ht
  refine ⟨by simpa [configureEnds] using h1, h2, h3, ?_⟩
  unfold configureEnds
  rw [modify_durations _ configure_duration, modify_durations _ configure_duration, h4]

theorem get_num (l : List Ext) (h : ∀ a ∈ l, ∃ x, a = num x) (j : ℕ) : ∃ x, get exact l j = num x := by
  unfold get
  rw [List.getD_eq_getElem?_getD]
  cases e : l[j]? with
  | none => exact ⟨0, by simp [exact]⟩
  | some a => exact h a (List.mem_of_getElem? e)

theorem longest_num (w next : WayPoint Ext) (hw : Ordinary w) (hn : Ordinary next) : ∀ (js : List ℕ) (m : ℝ), ∃ x, longest exact w next js (num m) = num x := by
  intro js
  induction js with
  | nil => intro m; exact ⟨m, rfl⟩
  | cons j js ih =>
    intro m
    obtain ⟨a, ha⟩ := get_num w.angles hw.1 j
    obtain ⟨b, hb⟩ := get_num next.angles hn.1 j
    obtain ⟨r, hr⟩ := get_num w.nominal (fun r hr => let ⟨x, _, e⟩ := hw.2.1 r hr; ⟨x, e⟩) j
    unfold longest
    dsimp only
    rw [ha, hb, hr]
    by_cases hz : r = 0
    · rw [if_pos (by simp [exact, eq, hz])]
      exact ih m
    · rw [if_neg (by simp [exact, eq, hz])]
      have : exact.div (exact.abs (exact.sub (num b) (num a))) (num r) = num (|b + -a| / r) := by
        simp [exact, sub, add, neg, Special.abs, div, hz]
      rw [this]
      split
      · exact ih _
      · exact ih _

theorem initialise_ordinary (d : ℕ) : ∀ ws : List (WayPoint Ext), (∀ w ∈ ws, Ordinary w) →
    (initialise exact d ws).2 = true ∧ (initialise exact d ws).1.length = ws.length ∧
    ∀ w ∈ (initialise exact d ws).1, ∃ x, 0 < x ∧ w.duration = num x := by
  intro ws
  induction ws with
  | nil => intro _; exact ⟨rfl, rfl, by simp [initialise]⟩
  | cons w ws ih =>
    intro h
    cases ws with
    | nil => exact ⟨rfl, rfl, by simpa [initialise] using (h w (by simp)).2.2⟩
    | cons next rest =>
      obtain ⟨i1, i2, i3⟩ := ih fun v hv => h v (by simp [hv])
      obtain ⟨m, hm⟩ := longest_num w next (h w (by simp)) (h next (by simp)) (List.range d) 0
      obtain ⟨x, hx, hwd⟩ := (h w (by simp)).2.2
      have hlit : exact.lit 0 = num 0 := by simp [exact]
      have hdur : ∃ y, 0 < y ∧ (if exact.lt w.duration (num m) then { w with duration := num m } else w).duration = num y := by
        rw [hwd]
        by_cases hlt : x < m
        · rw [if_pos (by simp [exact, Special.lt, gt, hlt])]
          exact ⟨m, hx.trans hlt, rfl⟩
        · rw [if_neg (by simp [exact, Special.lt, gt, hlt])]
          exact ⟨x, hx, hwd⟩
      unfold initialise
      dsimp only
      rw [hlit, hm]
      generalize (if exact.lt w.duration (num m) then { w with duration := num m } else w) = w' at hdur
      obtain ⟨y, hy, hw'⟩ := hdur
      rw [if_neg (by rw [hw']; simp [exact, eq, hy.ne'])]
      refine ⟨i1, by simp [i2], ?_⟩
      intro v hv
      rcases List.mem_cons.1 hv with rfl | hv
      · exact ⟨y, hy, hw'⟩
      · exact i3 v hv

theorem timed_of (ws : List (WayPoint Ext)) (h3 : 3 ≤ ws.length) (h : ∀ w ∈ ws, ∃ x, 0 < x ∧ w.duration = num x) : ∃ ds, Timed ws ds := by
  have key : ∀ l : List (WayPoint Ext), (∀ w ∈ l, ∃ x, 0 < x ∧ w.duration = num x) →
      ∃ ds : List ℝ, (∀ d ∈ ds, 0 < d) ∧ l.map WayPoint.duration = ds.map num := by
    intro l
    induction l with
    | nil => intro _; exact ⟨[], by simp, rfl⟩
    | cons w l ih =>
      intro h
      obtain ⟨x, hx, e⟩ := h w (by simp)
      obtain ⟨ds, h1, h2⟩ := ih fun v hv => h v (by simp [hv])
      refine ⟨x :: ds, ?_, by simp [e, h2]⟩
      intro d hd
      rcases List.mem_cons.1 hd with rfl | hd
      · exact hx
      · exact h1 d hd
  obtain ⟨ds, h1, h2⟩ := key ws.dropLast fun w hw => h w (List.mem_of_mem_dropLast hw)
  have hl := congrArg List.length h2
  simp at hl
  exact ⟨ds, by omega, by omega, h1, h2⟩

theorem validate_ordinary (ws : List (WayPoint Ext)) (minimum : ℕ) (h0 : 0 < ws.length) (hl : minimum ≤ ws.length) (h : ∀ w ∈ ws, Ordinary w) :
    validate exact ws minimum = .ok true := by
  unfold validate
  rw [if_neg (by omega), if_neg (by omega)]
  congr 1
  rw [List.all_eq_true]
  intro w hw
  rw [List.all_eq_true]
  intro r hr
  obtain ⟨x, hx, rfl⟩ := (h w (List.mem_of_mem_dropLast hw)).2.1 r hr
  simp [exact, Special.le, ge, gt, eq, hx.ne, not_lt.2 hx.le, hx.ne']

theorem zero_hang (mode : Mode) (d : ℕ) (hd : 0 < d) (amax : List Ext) (passes : ℕ) (ws : List (WayPoint Ext)) (h5 : 5 ≤ ws.length)
    (h : ∀ w ∈ ws, Ordinary w) : tensionSplineInterpolation exact mode d amax (num 0) passes ws = none := by
  obtain ⟨i1, i2, i3⟩ := initialise_ordinary d ws h
  obtain ⟨ds, ht⟩ := timed_of (initialise exact d ws).1 (by omega) i3
  have hb : build exact mode d amax (num 0) passes (initialise exact d ws).1 = none := by
    unfold build
    cases passes with
    | zero => rfl
    | succ n =>
      rw [knotLoop_zero mode d hd amax _ ds ht]
      dsimp only
      rw [leadingLoop_zero mode d hd amax _ _ ds (configureEnds_timed _ ds ht)]
  unfold tensionSplineInterpolation
  rw [validate_ordinary ws 5 (by omega) h5 h, i1, hb, decide_eq_true h5, if_neg (by omega)]
  cases mode <;> rfl

end Ecl.Nan
