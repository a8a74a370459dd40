import Verif.Spec.Layout
import Verif.Spec.Text
import Verif.Props.C10_C15_Converters
import Mathlib.Tactic.LinearCombination

/-!
# C40, C41, C75, C76: formatters
-/
set_option autoImplicit false
set_option linter.unusedSimpArgs false

namespace Ecl.Props
open Ecl Ecl.Form Ecl.Spec

/-! ## Padding -/

theorem layout_laid (w : Int) (a : Align) (core : Text) (hw : InInt w) (hd : InInt (w - core.length)) :
    ∃ t, layout w (some a) core.length core = .ok t ∧ Laid w a core t := by
  unfold layout
  rw [if_neg (not_not.2 hd)]
  by_cases hle : w - core.length ≤ 0
  · rw [if_pos hle]
    refine ⟨core, rfl, 0, 0, by simp, ?_⟩
    cases a <;> simp <;> omega
  · rw [if_neg hle]
    have hn : 0 < w - (core.length : Int) := by omega
    refine ⟨_, rfl, ?_⟩
    generalize hx : w - (core.length : Int) = n at *
    cases a with
    | no => exact ⟨0, 0, by simp [prePad, postPad], rfl, rfl⟩
    | left =>
      refine ⟨0, n.toNat, by simp [prePad, postPad, hle, pad], rfl, ?_⟩
      simp [prePad, postPad, hle, pad]; omega
    | right =>
      refine ⟨n.toNat, 0, by simp [prePad, postPad, hle, pad], rfl, ?_⟩
      simp [prePad, postPad, hle, pad]; omega
    | centre =>
      have e1 : n.tdiv 2 = n / 2 := Int.tdiv_eq_ediv_of_nonneg (by omega)
      have e2 : n.tmod 2 = n % 2 := Int.tmod_eq_emod_of_nonneg (by omega)
      refine ⟨(n / 2 + n % 2).toNat, (n / 2).toNat, by simp [prePad, postPad, hle, pad, e1, e2], ?_, ?_⟩
      · omega
      · simp [prePad, postPad, hle, pad, e1, e2]; omega

/-- **C40**: from padded text the text can be read back by stripping the spaces, if it contains none. -/
theorem C40_strip (w : Int) (a : Align) (core t : Text) (h : Laid w a core t) (hs : ' ' ∉ core) :
    t.filter (· ≠ ' ') = core := by
  obtain ⟨l, r, rfl, _⟩ := h
  have h1 : ∀ n, (List.replicate n ' ').filter (· ≠ ' ') = [] := by
    intro n; rw [List.filter_eq_nil_iff]; intro c hc; rw [List.eq_of_mem_replicate hc]; decide
  rw [List.filter_append, List.filter_append, h1, h1, List.nil_append, List.append_nil,
    List.filter_eq_self]
  intro c hc
  rw [decide_eq_true_eq]
  rintro rfl; exact hs hc

/-! ## Numerals -/

private theorem digits_value (b : Nat) (hb : 0 < b) (v : Int) (n : Nat) :
    (digitsValue b ((List.range n).reverse.map fun i => (v / (b : Int) ^ i % b).toNat) : Int)
      = v % (b : Int) ^ n := by
  have hfold : ∀ (ds : List Nat) (a : Nat), ds.foldl (fun v d => v * b + d) a
      = a * b ^ ds.length + digitsValue b ds := by
    intro ds
    induction ds with
    | nil => intro a; simp [digitsValue]
    | cons d ds ih =>
      intro a
      simp only [List.foldl_cons, digitsValue, List.length_cons]
      rw [ih, ih]
      ring
  have hb' : (0 : Int) < b := by exact_mod_cast hb
  induction n with
  | zero => simp [digitsValue]
  | succ n ih =>
    rw [List.range_succ, List.reverse_append]
    simp only [List.reverse_cons, List.reverse_nil, List.nil_append, List.map_append, List.map_cons,
      List.map_nil, List.cons_append]
    rw [digitsValue, List.foldl_cons, hfold]
    push_cast
    rw [ih]
    simp only [List.length_map, List.length_reverse, List.length_range]
    have hnn : 0 ≤ v / (b : Int) ^ n % b := Int.emod_nonneg _ hb'.ne'
    rw [Int.toNat_of_nonneg hnn]
    have hp : (0 : Int) < (b : Int) ^ n := by positivity
    have e1 := Int.emod_add_mul_ediv v ((b : Int) ^ n)
    have e2 := Int.emod_add_mul_ediv (v / (b : Int) ^ n) b
    have e3 : v / (b : Int) ^ n / b = v / ((b : Int) ^ n * b) := Int.ediv_ediv_of_nonneg hp.le
    have e4 := Int.emod_add_mul_ediv v ((b : Int) ^ (n + 1))
    rw [pow_succ] at e4 ⊢
    rw [e3] at e2
    linear_combination e1 + (b : Int) ^ n * e2 - e4

private theorem binText_spec (bytes : Nat) (v : Int) :
    ∃ t, binText bytes v = '0' :: 'b' :: t ∧ FullNumeral 2 (8 * bytes) (8 * bytes) v t := by
  refine ⟨_, rfl, (List.range (8 * bytes)).reverse.map fun i => (v / (2 : Int) ^ i % 2).toNat, ?_, by simp,
    ?_, digits_value 2 (by decide) v (8 * bytes)⟩
  · rw [List.map_map]
    apply List.map_congr_left
    intro i _
    simp only [Function.comp_apply]
    have h : v / 2 ^ i % 2 = 0 ∨ v / 2 ^ i % 2 = 1 := by omega
    rcases h with h | h <;> simp [h] <;> rfl
  · intro d hd
    obtain ⟨i, _, rfl⟩ := List.mem_map.1 hd
    omega

theorem hexText_spec (bytes : Nat) (v : Int) :
    ∃ t, hexText bytes v = '0' :: 'x' :: t ∧ FullNumeral 16 (8 * bytes) (2 * bytes) v t := by
  have hv := digits_value 16 (by decide) v (2 * bytes)
  refine ⟨_, rfl, (List.range (2 * bytes)).reverse.map fun i => (v / (16 : Int) ^ i % 16).toNat, ?_, by simp,
    ?_, ?_⟩
  · rw [List.map_map]
    apply List.map_congr_left
    intro i _
    simp only [Function.comp_apply]
    have hp : (2 : Int) ^ (i * 4) = 16 ^ i := by rw [mul_comm, pow_mul]; norm_num
    rw [hp]
    have h : (v / (16 : Int) ^ i % 16).toNat < 16 := by omega
    generalize (v / (16 : Int) ^ i % 16).toNat = d at h
    revert d; decide
  · intro d hd
    obtain ⟨i, _, rfl⟩ := List.mem_map.1 hd
    omega
  · push_cast at hv ⊢
    rw [hv]
    congr 1
    rw [show 8 * bytes = 4 * (2 * bytes) by ring, pow_mul (2 : Int) 4]
    norm_num

/-- The number types of the library: all values of the type have a decimal text by `Converter<char*>`
except negative `char`s and the smallest `int`, `long` and `long long`. -/
def DecimalOk (ty : NumType) (v : Int) : Prop :=
  match ty.kind with
  | .plainChar => 0 ≤ v ∧ v ≤ 127
  | .signed pm => -pm ≤ v ∧ v ≤ pm ∧ pm ≤ longMax
  | .unsigned => 0 ≤ v ∧ v ≤ 18446744073709551615

private theorem digits_length (v : Int) (h1 : -18446744073709551615 ≤ v) (h2 : v ≤ 18446744073709551615) :
    (numeral v).length ≤ 249 := by
  have : (Nat.toDigits 10 v.natAbs).length ≤ 20 := by
    have hlt : v.natAbs < 10 ^ 20 := by omega
    by_cases h : v.natAbs = 0
    · rw [h]; decide
    · exact Nat.length_toDigits_le_iff (by decide) (by decide) |>.2 hlt
  unfold numeral
  split <;> simp <;> omega

private theorem charLoop_eq (mem : List Char) (p : Nat) (n : Nat) :
    Conv.bufCharLoop mem p (n : Int) = Conv.bufLoop 0 mem p n := by
  induction n using Nat.strongRecOn generalizing mem p with
  | _ n ih =>
    rw [Conv.bufCharLoop, Conv.bufLoop]
    have e1 : (n : Int).tmod 10 = ((n % 10 : Nat) : Int) := by
      rw [Int.tmod_eq_emod_of_nonneg (by omega)]; omega
    have e2 : (n : Int).tdiv 10 = ((n / 10 : Nat) : Int) := by
      rw [Int.tdiv_eq_ediv_of_nonneg (by omega)]; omega
    rw [e1, e2]
    have e3 : (48 + ((n % 10 : Nat) : Int)).toNat = 48 + n % 10 := by omega
    rw [e3]
    by_cases hp : p = 0
    · simp [hp]
    · have hp' : ¬ p ≤ 0 := by omega
      rw [if_neg hp, if_neg hp']
      congr 1; funext mem'
      by_cases h : n / 10 = 0
      · rw [dif_pos (by exact_mod_cast h), dif_pos h]
      · rw [dif_neg (by exact_mod_cast h), dif_neg h]
        exact ih (n / 10) (Nat.div_lt_self (by omega) (by decide)) mem' (p - 1)

private theorem decText_spec (ty : NumType) (v : Int) (h : DecimalOk ty v) : decText ty v = .ok (numeral v) := by
  have hnew : ∃ mem : List Char, Conv.bufNew 250 = .ok (mem, 249) ∧ mem.length = 249 + 1 :=
    ⟨List.replicate 249 '?' ++ ['\x00'], rfl, by rw [List.length_append, List.length_replicate]; rfl⟩
  obtain ⟨mem, hb, hl⟩ := hnew
  have huns : ∀ n : Nat, (n : Int) ≤ 18446744073709551615 →
      ∃ mem' p, Conv.bufUnsigned mem 249 n = .ok (mem', some p) ∧ Conv.cstr mem' p = numeral n := by
    intro n hn
    obtain ⟨mem', r, h1, _, h3⟩ := C14_unsigned mem 249 n hl
    have := digits_length (n : Int) (by omega) hn
    rw [if_pos this] at h3
    obtain ⟨rfl, h4, _⟩ := h3
    exact ⟨mem', _, h1, h4⟩
  unfold DecimalOk at h
  unfold decText
  rw [hb, Outcome.bind_ok]
  cases hk : ty.kind with
  | unsigned =>
    rw [hk] at h
    obtain ⟨n, rfl⟩ := Int.eq_ofNat_of_zero_le h.1
    obtain ⟨mem', p, h1, h2⟩ := huns n h.2
    simp only [hk, Int.ofNat_eq_natCast, Int.toNat_natCast, h1, Outcome.bind_ok, h2]
  | plainChar =>
    rw [hk] at h
    obtain ⟨n, rfl⟩ := Int.eq_ofNat_of_zero_le h.1
    obtain ⟨mem', p, h1, h2⟩ := huns n (by omega)
    have e : Conv.bufChar mem 249 (n : Int) = Conv.bufUnsigned mem 249 n := by
      unfold Conv.bufChar Conv.bufUnsigned
      congr 1; funext m; exact charLoop_eq m 249 n
    simp only [hk, e, h1, Outcome.bind_ok, h2]
  | signed pm =>
    rw [hk] at h
    obtain ⟨mem', r, h1, _, h3⟩ := C14_signed_partial pm mem 249 v hl (by omega)
    have := digits_length v (by unfold longMax at h; omega) (by unfold longMax at h; omega)
    rw [if_pos this] at h3
    obtain ⟨rfl, h4, _⟩ := h3
    simp only [hk, h1, Outcome.bind_ok, h4]

/-- What the digits of a number are, by base. -/
def NumeralIn (ty : NumType) (b : Base) (v : Int) (core : Text) : Prop :=
  match b with
  | .dec => core = numeral v
  | .bin => ∃ t, core = '0' :: 'b' :: t ∧ FullNumeral 2 (8 * ty.bytes) (8 * ty.bytes) v t
  | .hex => ∃ t, core = '0' :: 'x' :: t ∧ FullNumeral 16 (8 * ty.bytes) (2 * ty.bytes) v t

/-- **C40**: streaming an item writes its numeral in the chosen base - the decimal numeral, or all
digits of the type in base 2 or 16 - padded with spaces to the chosen width on the side chosen by the
alignment.  Excluded: negative `char`s and smallest values in decimal, and widths within 1000 of
`INT_MIN`. -/
theorem C40_format_partial (m : Mode) (ty : NumType) (w : Int) (a : Align) (b : Base) (v : Int)
    (hty : ty.bytes ≤ 8) (hw : -2147482648 ≤ w ∧ w ≤ 2147483647) (hv : b = .dec → DecimalOk ty v) :
    ∃ s t core, runOps (Form.step m ty) (State.new w a b) [.item v, .stream] = some (s, [.ok [], .ok t]) ∧
      NumeralIn ty b v core ∧ Laid w a core t := by
  have hInt : InInt w := by unfold InInt intMin intMax; omega
  have main : ∃ core t, formatNumber ty w (some a) b v = .ok t ∧ NumeralIn ty b v core ∧ Laid w a core t := by
    cases b with
    | dec =>
      obtain ⟨t, h1, h2⟩ := layout_laid w a (numeral v) hInt (by
        have : (numeral v).length ≤ 249 := by
          have h := hv rfl
          unfold DecimalOk at h
          apply digits_length <;> cases hk : ty.kind <;> rw [hk] at h <;> (try unfold longMax at h) <;>
            simp only at h <;> omega
        unfold InInt intMin intMax; omega)
      refine ⟨_, t, ?_, rfl, h2⟩
      simp only [formatNumber, decText_spec ty v (hv rfl), Outcome.bind_ok, h1]
    | bin =>
      obtain ⟨x, h1, h2⟩ := binText_spec ty.bytes v
      have hlen : (binText ty.bytes v).length = 8 * ty.bytes + 2 := by simp [binText]
      obtain ⟨t, h3, h4⟩ := layout_laid w a (binText ty.bytes v) hInt (by
        rw [hlen]; unfold InInt intMin intMax; push_cast; omega)
      refine ⟨_, t, ?_, ⟨x, h1, h2⟩, h4⟩
      rw [hlen] at h3
      simpa [formatNumber] using h3
    | hex =>
      obtain ⟨x, h1, h2⟩ := hexText_spec ty.bytes v
      have hlen : (hexText ty.bytes v).length = 2 * ty.bytes + 2 := by simp [hexText]
      obtain ⟨t, h3, h4⟩ := layout_laid w a (hexText ty.bytes v) hInt (by
        rw [hlen]; unfold InInt intMin intMax; push_cast; omega)
      refine ⟨_, t, ?_, ⟨x, h1, h2⟩, h4⟩
      rw [hlen] at h3
      simpa [formatNumber] using h3
  obtain ⟨core, t, h1, h2, h3⟩ := main
  exact ⟨_, t, core, by simp [runOps, Form.step, State.new, h1]; rfl, h2, h3⟩

/-- `Format<int>`, `Format<char>`. -/
def intType : NumType := ⟨4, .signed intMax⟩
def charType : NumType := ⟨1, .plainChar⟩

example : (runOps (Form.step .debug intType) (State.new 14 .right .hex) [.item (-2), .stream]).map
    (fun r => r.2) = some [.ok [], .ok "    0xfffffffe".toList] := by decide
example : DecimalOk intType (-2147483647) ∧ DecimalOk charType 65 := by
  unfold DecimalOk intType charType; decide
example : Laid 6 .centre "abc".toList "  abc ".toList := ⟨2, 1, rfl, .inr rfl, rfl⟩

/-- **C40 fails** for the smallest value of a type (`-1*number` overflows) and for negative `char`s. -/
theorem C40_fails_decimal (m : Mode) (w : Int) (a : Align) :
    runOps (Form.step m intType) (State.new w a .dec) [.item intMin, .stream] = none ∧
    runOps (Form.step m charType) (State.new 0 a .dec) [.item (-5), .stream]
      = some (⟨⟨0, a, .dec⟩, none, none, none, false, false, -5⟩, [.ok [], .ok ['+']]) := by
  have hmin : decText intType intMin = .ub := rfl
  have hchar : decText charType (-5) = .ok ['+'] := by
    have key : ∀ cap : Nat, Conv.bufChar (List.replicate (cap + 1) '?' ++ ['\x00']) (cap + 1) (-5)
        = .ok (((List.replicate (cap + 1) '?' ++ ['\x00']).set (cap + 1) '\x00').set cap '+', some cap) := by
      intro cap
      unfold Conv.bufChar Conv.put
      rw [if_pos (by simp), Outcome.bind_ok, Conv.bufCharLoop, if_neg (by omega), Conv.put,
        if_pos (by simp; omega), Outcome.bind_ok, dif_pos (by decide)]
      rfl
    have := key 248
    have hb : Conv.bufNew 250 = .ok (List.replicate 249 '?' ++ ['\x00'], 249) := rfl
    unfold decText
    rw [hb, Outcome.bind_ok]
    simp only [charType, this, Outcome.bind_ok]
    rfl
  constructor
  · simp [runOps, Form.step, State.new, formatNumber, hmin]
  · have : layout 0 (some a) 1 ['+'] = .ok ['+'] := by
      unfold layout
      rw [if_neg (by decide), if_pos (by decide)]
    simp [runOps, Form.step, State.new, formatNumber, hchar, this]

/-- **C40 fails**: a width given to the constructor alone has no effect, a width set by `width()`
has. -/
theorem C40_fails_constructor_width (m : Mode) :
    (runOps (Form.step m intType) (State.new 8 .no .hex) [.item 5, .stream]).map (fun r => r.2)
      = some [.ok [], .ok "0x00000005".toList] ∧
    (runOps (Form.step m intType) (State.new 12 .no .hex) [.item 5, .stream]).map (fun r => r.2)
      = some [.ok [], .ok "0x00000005".toList] ∧
    (runOps (Form.step m intType) (State.new (-1) .no .hex) [.width 12, .item 5, .stream]).map (fun r => r.2)
      = some [.ok [], .ok [], .ok "  0x00000005".toList] := by
  cases m <;> decide

/-! ## C41 -/

/-- A formatter constructed with given settings and given an item. -/
def freshWith (f : Fmt) (v : Int) : Form.State :=
  { State.new f.width f.align f.base with
    value := v
    ready := true }

private def Rel (s : Form.State) (v : View) : Prop :=
  s.prm = v.perm ∧ s.ready = v.pending.isSome ∧ (∀ x, v.pending = some x → s.value = x) ∧
  match v.temp with
  | none => s.useTmp = false
  | some f => s.useTmp = true ∧ s.tmpWidth = some f.width ∧ s.tmpAlign = some f.align ∧
      s.tmpBase = some f.base

private theorem rel_setBase {s : Form.State} {v : View} (b : Base) (h : Rel s v) :
    Rel (setBase s b) (v.set fun f => { f with base := b }) := by
  obtain ⟨h1, h2, h3, h4⟩ := h
  obtain ⟨p, t, pe⟩ := v
  cases t with
  | none => simp only at h4; simp_all [Rel, setBase, View.set]
  | some f => simp only at h4; simp_all [Rel, setBase, View.set]

private theorem rel_setWidth {s : Form.State} {v : View} (w : Int) (h : Rel s v) :
    ∃ s', setWidth s w = .ok s' ∧ Rel s' (v.set fun f => setW f w) := by
  obtain ⟨h1, h2, h3, h4⟩ := h
  obtain ⟨p, t, pe⟩ := v
  cases t with
  | none =>
    simp only at h4
    unfold setWidth
    by_cases hw : w > 0 ∧ s.prm.align = .no
    · simp_all [Rel, View.set, setW]
    · refine ⟨{ s with prm := { s.prm with width := w } }, by simp [h4, hw], ?_⟩
      simp only at h1
      subst h1
      have hw' : ¬ (0 < w ∧ s.prm.align = .no) := hw
      refine ⟨?_, h2, h3, h4⟩
      simp only [View.set, setW]
      rw [if_neg hw]
  | some f =>
    obtain ⟨h4, h5, h6, h7⟩ := h4
    unfold setWidth
    by_cases hw : w > 0
    · cases ha : f.align <;> simp_all [Rel, View.set, setW]
    · refine ⟨{ s with tmpWidth := some w }, by simp [h4, hw], h1, h2, h3, h4, rfl, ?_, h7⟩
      have hw' : ¬ (w > 0 ∧ f.align = .no) := fun h => hw h.1
      simp only [setW]
      rw [if_neg hw', h6]

private theorem rel_setAlign {s : Form.State} {v : View} (a : Align) (h : Rel s v) :
    Rel (setAlign s a) (v.set fun f => setA f a) := by
  obtain ⟨h1, h2, h3, h4⟩ := h
  obtain ⟨p, t, pe⟩ := v
  cases t with
  | none => simp only at h4; cases a <;> simp_all [Rel, setAlign, View.set, setA]
  | some f => simp only at h4; cases a <;> simp_all [Rel, setAlign, View.set, setA]

private theorem set_set (v : View) (f g : Fmt → Fmt) : (v.set f).set g = v.set (fun x => g (f x)) := by
  obtain ⟨p, t, pe⟩ := v
  cases t <;> rfl

/-- **C41**, integers: after any history of calls other than `(n, w, b)`, streaming is rejected (debug)
or writes nothing (release) when no item is ready; otherwise it writes exactly what a formatter
constructed with the effective settings writes: the temporary ones for the one item after a temporary
call, the permanent ones for all others. -/
theorem C41_one_use_partial (m : Mode) (ty : NumType) (f0 : Fmt) (ops : List Form.Op)
    (hops : ∀ n w b, Form.Op.itemWB n w b ∉ ops)
    (s : Form.State) (outs : List (Obs Text))
    (h : runOps (Form.step m ty) (State.new f0.width f0.align f0.base) ops = some (s, outs)) :
    let v := ops.foldl View.next ⟨f0, none, none⟩
    (v.pending = none → (m = .debug → Form.step m ty s .stream = .throw s .usageError) ∧
      (m = .release → Form.step m ty s .stream = .ok s [])) ∧
    (∀ x, v.pending = some x →
      ((Form.step m ty s .stream).obs).map (fun r => r.2)
        = ((Form.step m ty (freshWith v.eff x) .stream).obs).map (fun r => r.2)) := by
  have key : ∀ (ops : List Form.Op) (s : Form.State) (v : View), Rel s v →
      (∀ n w b, Form.Op.itemWB n w b ∉ ops) → ∀ s' outs, runOps (Form.step m ty) s ops = some (s', outs) →
      Rel s' (ops.foldl View.next v) := by
    intro ops
    induction ops with
    | nil =>
      intro s v hR _ s' outs h
      simp only [runOps, Option.some.injEq, Prod.mk.injEq] at h
      rw [← h.1]; exact hR
    | cons op ops ih =>
      intro s v hR hops s' outs h
      have hops' : ∀ n w b, Form.Op.itemWB n w b ∉ ops := fun n w b hm => hops n w b (by simp [hm])
      rw [runOps_cons] at h
      suffices hs : ∀ r, (Form.step m ty s op).obs = some r → Rel r.1 (v.next op) by
        cases hx : (Form.step m ty s op).obs with
        | none => simp [hx] at h
        | some r =>
          simp only [hx, Option.bind_some, Option.map_eq_some_iff] at h
          obtain ⟨q, hq, he⟩ := h
          have : s' = q.1 := by simpa using (congrArg Prod.fst he).symm
          rw [this]
          exact ih r.1 (v.next op) (hs r hx) hops' q.1 q.2 hq
      intro r hr
      cases op with
      | base b =>
        simp only [Form.step, Res.obs, Option.some.injEq] at hr
        rw [← hr]; exact rel_setBase b hR
      | width w =>
        obtain ⟨s1, h1, h2⟩ := rel_setWidth w hR
        simp only [Form.step, h1, quiet, Res.obs, Option.some.injEq] at hr
        rw [← hr]; exact h2
      | align a =>
        simp only [Form.step, Res.obs, Option.some.injEq] at hr
        rw [← hr]; exact rel_setAlign a hR
      | all w a b =>
        obtain ⟨s1, h1, h2⟩ := rel_setWidth w (rel_setBase b hR)
        have h3 := rel_setAlign a h2
        rw [set_set, set_set] at h3
        simp only [Form.step, h1, Outcome.bind, quiet, Res.obs, Option.some.injEq] at hr
        rw [← hr]; exact h3
      | item n =>
        simp only [Form.step, Res.obs, Option.some.injEq] at hr
        rw [← hr]
        obtain ⟨h1, h2, h3, h4⟩ := hR
        obtain ⟨p, t, pe⟩ := v
        refine ⟨h1, rfl, by simp [View.next], ?_⟩
        cases t <;> exact h4
      | itemWB n w b => exact absurd (by simp) (hops n w b)
      | itemWAB n w a b =>
        simp only [Form.step, Res.obs, Option.some.injEq] at hr
        rw [← hr]
        obtain ⟨h1, h2, h3, h4⟩ := hR
        obtain ⟨p, t, pe⟩ := v
        cases a <;> simp_all [Rel, View.next, setBase, setAlign, setA]
      | stream =>
        obtain ⟨h1, h2, h3, h4⟩ := hR
        obtain ⟨p, t, pe⟩ := v
        cases pe with
        | none =>
          have hr' : s.ready = false := h2
          simp only [Form.step, hr'] at hr
          cases m <;> simp [Res.obs] at hr <;> rw [← hr] <;> exact ⟨h1, h2, h3, h4⟩
        | some x =>
          have hr' : s.ready = true := h2
          simp only [Form.step, hr', if_true] at hr
          have : ∀ o : Outcome Text, ((match o with
              | .ok t => (.ok { s with useTmp := false, ready := false } t : Res Form.State Text)
              | _ => .ub).obs = some r) → r.1 = { s with useTmp := false, ready := false } := by
            intro o ho; cases o <;> simp [Res.obs] at ho; rw [← ho]
          have hr1 := this _ hr
          rw [hr1]
          exact ⟨h1, rfl, by simp [View.next], rfl⟩
  have hR := key ops _ ⟨f0, none, none⟩ ⟨rfl, rfl, by simp, rfl⟩ hops s outs h
  obtain ⟨h1, h2, h3, h4⟩ := hR
  generalize ops.foldl View.next ⟨f0, none, none⟩ = v at *
  obtain ⟨p, t, pe⟩ := v
  refine ⟨?_, ?_⟩
  · intro hpe
    simp only at hpe; subst hpe
    have hr' : s.ready = false := h2
    constructor <;> rintro rfl <;> simp [Form.step, hr']
  · intro x hpe
    simp only at hpe; subst hpe
    have hr' : s.ready = true := h2
    have hv : s.value = x := h3 x rfl
    have gen : ∀ (o : Outcome Text) (s1 s2 : Form.State),
        (Res.obs (match o with | .ok t => (.ok s1 t : Res Form.State Text) | _ => .ub)).map (fun r => r.2)
        = (Res.obs (match o with | .ok t => (.ok s2 t : Res Form.State Text) | _ => .ub)).map (fun r => r.2) := by
      intro o s1 s2; cases o <;> rfl
    cases t with
    | none =>
      simp only at h4
      simp only [Form.step, hr', h4, freshWith, State.new, View.eff, if_true, Option.getD, hv, h1,
        Bool.false_eq_true, if_false]
      exact gen _ _ _
    | some f =>
      obtain ⟨h5, h6, h7, h8⟩ := h4
      simp only [Form.step, hr', h5, h6, h7, h8, freshWith, State.new, View.eff, if_true, Option.getD, hv,
        Bool.false_eq_true, if_false]
      exact gen _ _ _

example : (runOps (Form.step .debug intType) (State.new 12 .right .hex)
    [.itemWAB 5 14 .left .hex, .stream, .item 5, .stream, .stream]).map (fun r => r.2)
    = some [.ok [], .ok "0x00000005    ".toList, .ok [], .ok "  0x00000005".toList, .error .usageError] := by
  decide

/-- **C41 fails** for the form `(n, w, b)`: with a positive width it reads an alignment that nobody has
set, or the alignment of the last temporary call. -/
theorem C41_fails_width_base (m : Mode) :
    runOps (Form.step m intType) (State.new (-1) .right .hex) [.itemWB 5 12 .hex] = none ∧
    (runOps (Form.step m intType) (State.new (-1) .right .hex)
      [.itemWAB 5 12 .left .hex, .stream, .itemWB 5 12 .hex, .stream]).map (fun r => r.2)
      = some [.ok [], .ok "0x00000005  ".toList, .ok [], .ok "0x00000005  ".toList] := by
  cases m <;> decide

/-- **C41 fails** for strings: temporary settings stay; and the very first use of an unused formatter is
not rejected but undefined. -/
theorem C41_fails_strings (m : Mode) :
    (runOps (Str.step m) (Str.State.new (-1) .no)
      [.itemWA "ab".toList 4 .right, .stream, .item "cd".toList, .stream]).map (fun r => r.2)
      = some [.ok [], .ok "  ab".toList, .ok [], .ok "  cd".toList] ∧
    runOps (Str.step m) (Str.State.new (-1) .no) [.stream] = none := by
  cases m <;> decide

/-- **C41 fails** for floating point numbers: a temporary positive width turns on the permanent
alignment. -/
theorem C41_fails_floats (m : Mode) (V : Type) (printf : Nat → V → Text) (v : V) (c : Char)
    (hp : printf 2 v = [c]) :
    ((runOps (Float.step m printf) (Float.State.new 3 2 .no .fixed) [.item v, .stream]).map (fun r => r.2)
      = some [.ok [], .ok [c]]) ∧
    ((runOps (Float.step m printf) (Float.State.new 3 2 .no .fixed)
      [.itemAll v 2 2 .left .fixed, .stream, .item v, .stream]).map (fun r => r.2)
      = some [.ok [], .ok [c, ' '], .ok [], .ok [' ', ' ', c]]) := by
  have hd : Float.decimals 2 = .ok 2 := rfl
  have hd2 : Float.decimals (s32 2) = .ok 2 := rfl
  have l1 : layout 3 (some .no) 1 [c] = .ok [c] := rfl
  have l2 : layout 2 (some .left) 1 [c] = .ok [c, ' '] := rfl
  have l3 : layout 3 (some .right) 1 [c] = .ok [' ', ' ', c] := rfl
  constructor
  · simp [runOps, Float.step, Float.State.new, Float.State.cur, Float.formatFloat, hd, hp, l1]
  · simp [runOps, Float.step, Float.State.new, Float.State.cur, Float.State.setCur, Float.redirect,
      Float.widthRule, Float.alignRule, Float.formatFloat, hd, hd2, hp, l2, l3]

/-- The reader's view of a floating point formatter. -/
structure FView (V : Type) where
  perm : Float.Fmt
  temp : Option Float.Fmt
  pending : Option V

def FView.set {V : Type} (v : FView V) (f : Float.Fmt → Float.Fmt) : FView V :=
  match v.temp with
  | some t => { v with temp := some (f t) }
  | none => { v with perm := f v.perm }

def fW (f : Float.Fmt) (w : Int) : Float.Fmt :=
  { f with
    width := w
    align := if w > 0 ∧ f.align = .no then .right else f.align }

def fA (f : Float.Fmt) (a : Align) : Float.Fmt :=
  { f with
    align := a
    width := if a = .no then 0 else f.width }

/-- Precisions are `unsigned int`s, stored in an `int`. -/
def fP (f : Float.Fmt) (p : Nat) : Float.Fmt := { f with precision := s32 p }

def FView.next {V : Type} (v : FView V) : Float.Op V → FView V
  | .precision p => v.set (fP · p)
  | .width w => v.set (fW · w)
  | .align a => v.set (fA · a)
  | .base b => v.set fun f => { f with base := b }
  | .setPW p w => v.set fun f => fP (fW f w) p
  | .setAll p w a b => v.set fun _ => fA ⟨w, s32 p, a, b⟩ a
  | .item n => { v with pending := some n }
  | .itemPW n p w =>
    { v with
      temp := some (fA ⟨w, s32 p, v.perm.align, v.perm.base⟩ v.perm.align)
      pending := some n }
  | .itemAll n p w a b =>
    { v with
      temp := some (fA ⟨w, s32 p, a, b⟩ a)
      pending := some n }
  | .stream =>
    match v.pending with
    | none => v
    | some _ => { v with temp := none, pending := none }

def FView.eff {V : Type} (v : FView V) : Float.Fmt := v.temp.getD v.perm

/-- Temporary calls are left out that have a positive width while there is no permanent alignment. -/
def FLegal {V : Type} (v : FView V) : List (Float.Op V) → Prop
  | [] => True
  | op :: ops =>
    (match op with
      | .itemPW _ _ w => w ≤ 0 ∨ v.perm.align ≠ .no
      | .itemAll _ _ w _ _ => w ≤ 0 ∨ v.perm.align ≠ .no
      | _ => True) ∧ FLegal (v.next op) ops

/-- A formatter constructed with given settings and given an item. -/
def freshFloat {V : Type} (f : Float.Fmt) (v : V) : Float.State V :=
  { (Float.State.new f.width f.precision f.align f.base : Float.State V) with item := some v }

private def FRel {V : Type} (s : Float.State V) (v : FView V) : Prop :=
  s.prm = v.perm ∧ s.item = v.pending ∧
  match v.temp with
  | none => s.useTmp = false
  | some f => s.useTmp = true ∧ s.tmp = f

private theorem frel_set {V : Type} {s : Float.State V} {v : FView V} (f : Float.Fmt → Float.Fmt) (h : FRel s v) :
    FRel (s.setCur (f s.cur)) (v.set f) := by
  obtain ⟨h1, h2, h3⟩ := h
  obtain ⟨p, t, pe⟩ := v
  cases t with
  | none =>
    have h3 : s.useTmp = false := h3
    simp only [Float.State.setCur, Float.State.cur, h3, Bool.false_eq_true, if_false, FView.set]
    exact ⟨by simp only [h1], h2, rfl⟩
  | some g =>
    obtain ⟨h3, h4⟩ : s.useTmp = true ∧ s.tmp = g := h3
    simp only [Float.State.setCur, Float.State.cur, h3, if_true, FView.set]
    exact ⟨h1, h2, rfl, by simp only [h4]⟩

private theorem frel_redirect {V : Type} {s : Float.State V} {v : FView V} (h : FRel s v) (n : V) (p : Nat) (w : Int)
    (a : Align) (b : Float.FBase) (hl : w ≤ 0 ∨ v.perm.align ≠ .no) :
    FRel { Float.redirect s p w a b with item := some n }
      { v with temp := some (fA ⟨w, s32 p, a, b⟩ a), pending := some n } := by
  obtain ⟨h1, h2, h3⟩ := h
  obtain ⟨pr, t, pe⟩ := v
  simp only at h1 hl
  cases t with
  | none =>
    have h3 : s.useTmp = false := h3
    have hr : Float.widthRule w s.prm.align = s.prm.align := by
      unfold Float.widthRule; rw [if_neg]; rintro ⟨hw, ha⟩; rw [h1] at ha; rcases hl with hl | hl
      · omega
      · exact hl ha
    refine ⟨?_, rfl, rfl, rfl⟩
    simp only [Float.redirect, Float.State.setCur, Float.State.cur, h3, Bool.false_eq_true, if_false, hr]
    exact h1
  | some g =>
    obtain ⟨h3, h4⟩ : s.useTmp = true ∧ s.tmp = g := h3
    refine ⟨?_, rfl, rfl, rfl⟩
    simp only [Float.redirect, Float.State.setCur, Float.State.cur, h3, if_true]
    exact h1

/-- **C41**, floating point numbers: the same for every history without temporary positive widths
while there is no permanent alignment. -/
theorem C41_one_use_floats_partial (m : Mode) (V : Type) (printf : Nat → V → Text) (f0 : Float.Fmt)
    (ops : List (Float.Op V)) (hl : FLegal ⟨f0, none, none⟩ ops) (s : Float.State V) (outs : List (Obs Text))
    (h : runOps (Float.step m printf) (Float.State.new f0.width f0.precision f0.align f0.base) ops
      = some (s, outs)) :
    let v := ops.foldl FView.next ⟨f0, none, none⟩
    (v.pending = none → (m = .debug → Float.step m printf s .stream = .throw s .usageError) ∧
      (m = .release → Float.step m printf s .stream = .ok s [])) ∧
    (∀ x, v.pending = some x →
      ((Float.step m printf s .stream).obs).map (fun r => r.2)
        = ((Float.step m printf (freshFloat v.eff x) .stream).obs).map (fun r => r.2)) := by
  have key : ∀ (ops : List (Float.Op V)) (s : Float.State V) (v : FView V), FRel s v → FLegal v ops →
      ∀ s' outs, runOps (Float.step m printf) s ops = some (s', outs) →
      FRel s' (ops.foldl FView.next v) := by
    intro ops
    induction ops with
    | nil =>
      intro s v hR _ s' outs h
      simp only [runOps, Option.some.injEq, Prod.mk.injEq] at h
      rw [← h.1]; exact hR
    | cons op ops ih =>
      intro s v hR hl s' outs h
      rw [runOps_cons] at h
      suffices hs : ∀ r, (Float.step m printf s op).obs = some r → FRel r.1 (v.next op) by
        cases hx : (Float.step m printf s op).obs with
        | none => simp [hx] at h
        | some r =>
          simp only [hx, Option.bind_some, Option.map_eq_some_iff] at h
          obtain ⟨q, hq, he⟩ := h
          have : s' = q.1 := by simpa using (congrArg Prod.fst he).symm
          rw [this]
          exact ih r.1 (v.next op) (hs r hx) hl.2 q.1 q.2 hq
      intro r hr
      have hl1 := hl.1
      cases op with
      | precision p =>
        simp only [Float.step, Res.obs, Option.some.injEq] at hr
        rw [← hr]; exact frel_set (fP · p) hR
      | width w =>
        simp only [Float.step, Res.obs, Option.some.injEq] at hr
        rw [← hr]; exact frel_set (fW · w) hR
      | align a =>
        simp only [Float.step, Res.obs, Option.some.injEq] at hr
        rw [← hr]; exact frel_set (fA · a) hR
      | base b =>
        simp only [Float.step, Res.obs, Option.some.injEq] at hr
        rw [← hr]; exact frel_set (fun f => { f with base := b }) hR
      | setPW p w =>
        simp only [Float.step, Res.obs, Option.some.injEq] at hr
        rw [← hr]; exact frel_set (fun f => fP (fW f w) p) hR
      | setAll p w a b =>
        simp only [Float.step, Res.obs, Option.some.injEq] at hr
        rw [← hr]; exact frel_set (fun _ => fA ⟨w, s32 p, a, b⟩ a) hR
      | item n =>
        simp only [Float.step, Res.obs, Option.some.injEq] at hr
        rw [← hr]
        obtain ⟨h1, h2, h3⟩ := hR
        obtain ⟨p, t, pe⟩ := v
        refine ⟨h1, rfl, ?_⟩
        cases t <;> exact h3
      | itemPW n p w =>
        have hl1 : w ≤ 0 ∨ v.perm.align ≠ .no := hl1
        have ha : (if s.useTmp then s.prm.align else Float.widthRule w s.prm.align) = v.perm.align := by
          have h1 := hR.1
          split
          · rw [h1]
          · unfold Float.widthRule
            rw [h1, if_neg]
            rintro ⟨hw, ha⟩; rcases hl1 with hl | hl
            · omega
            · exact hl ha
        simp only [Float.step, ha, Res.obs, Option.some.injEq] at hr
        rw [← hr, show s.prm.base = v.perm.base by rw [hR.1]]
        exact frel_redirect hR n p w _ _ hl1
      | itemAll n p w a b =>
        simp only [Float.step, Res.obs, Option.some.injEq] at hr
        rw [← hr]
        exact frel_redirect hR n p w a b hl1
      | stream =>
        obtain ⟨h1, h2, h3⟩ := hR
        obtain ⟨p, t, pe⟩ := v
        cases pe with
        | none =>
          have hr' : s.item = none := h2
          simp only [Float.step, hr'] at hr
          cases m <;> simp [Res.obs] at hr <;> rw [← hr] <;> exact ⟨h1, h2, h3⟩
        | some x =>
          have hr' : s.item = some x := h2
          simp only [Float.step, hr'] at hr
          have : ∀ o : Outcome Text, (Res.obs (match o with
              | .ok t => (.ok { s with useTmp := false, item := none } t : Res (Float.State V) Text)
              | _ => .ub) = some r) → r.1 = { s with useTmp := false, item := none } := by
            intro o ho; cases o <;> simp [Res.obs] at ho; rw [← ho]
          have hr1 := this _ hr
          rw [hr1]
          exact ⟨h1, rfl, rfl⟩
  have hR := key ops _ ⟨f0, none, none⟩ ⟨rfl, rfl, rfl⟩ hl s outs h
  obtain ⟨h1, h2, h3⟩ := hR
  generalize ops.foldl FView.next ⟨f0, none, none⟩ = v at *
  obtain ⟨p, t, pe⟩ := v
  refine ⟨?_, ?_⟩
  · intro hpe
    simp only at hpe; subst hpe
    have hr' : s.item = none := h2
    constructor <;> rintro rfl <;> simp [Float.step, hr']
  · intro x hpe
    simp only at hpe; subst hpe
    have hr' : s.item = some x := h2
    have gen : ∀ (o : Outcome Text) (s1 s2 : Float.State V),
        (Res.obs (match o with | .ok t => (.ok s1 t : Res (Float.State V) Text) | _ => .ub)).map (fun r => r.2)
        = (Res.obs (match o with | .ok t => (.ok s2 t : Res (Float.State V) Text) | _ => .ub)).map (fun r => r.2) := by
      intro o s1 s2; cases o <;> rfl
    have hc : s.cur = (FView.mk p t (some x)).eff := by
      cases t with
      | none =>
        have h3 : s.useTmp = false := h3
        simp only [Float.State.cur, h3, Bool.false_eq_true, if_false]; exact h1
      | some g =>
        obtain ⟨h3, h4⟩ : s.useTmp = true ∧ s.tmp = g := h3
        simp only [Float.State.cur, h3, if_true]; exact h4
    have hf : (freshFloat (FView.mk p t (some x)).eff x).cur = (FView.mk p t (some x)).eff := rfl
    have hfi : (freshFloat (FView.mk p t (some x)).eff x).item = some x := rfl
    simp only [Float.step, hr', hfi, hc, hf]
    exact gen _ _ _

example : FLegal (V := Nat) ⟨⟨8, 2, .right, .fixed⟩, none, none⟩
    [.itemPW 3 4 10, .stream, .item 3, .stream, .stream] := by
  simp [FLegal, FView.next, FView.set]

/-! ## C75, C76 -/

/-- **C75**: a formatted floating point number is the text with the chosen number of decimals, at most
20, padded like an integer - if that text has at most 29 characters. -/
theorem C75_format_partial (m : Mode) (V : Type) (printf : Nat → V → Text) (w : Int) (p : Nat) (a : Align) (v : V)
    (hw : -2147483600 ≤ w ∧ w ≤ 2147483647) (hp : p ≤ 20) (hlen : (printf p v).length ≤ 29) :
    ∃ s t, runOps (Float.step m printf) (Float.State.new w p a .fixed) [.item v, .stream]
      = some (s, [.ok [], .ok t]) ∧ Laid w a (printf p v) t := by
  have hd : Float.decimals p = .ok p := by
    unfold Float.decimals
    rw [if_neg (by omega)]
    by_cases h1 : p < 10
    · rw [if_pos (by omega)]; simp
    · rw [if_neg (by omega)]
      by_cases h2 : p < 20
      · rw [if_pos (by omega)]; congr 1; omega
      · rw [if_neg (by omega)]; congr 1; omega
  have ht : (printf p v).take 29 = printf p v := List.take_of_length_le hlen
  obtain ⟨t, h1, h2⟩ := layout_laid w a (printf p v) (by unfold InInt intMin intMax; omega)
    (by unfold InInt intMin intMax; omega)
  refine ⟨⟨⟨w, p, a, .fixed⟩, ⟨0, 0, .no, .fixed⟩, false, none⟩, t, ?_, h2⟩
  have : Float.formatFloat printf w a p .fixed v = .ok t := by
    simp only [Float.formatFloat, hd, Outcome.bind_ok, ht, h1]
  simp [runOps, Float.step, Float.State.new, Float.State.cur, this]

/-- **C75 fails**: longer texts are cut off after 29 characters - digits of the number are lost. -/
theorem C75_fails_long (m : Mode) (V : Type) (printf : Nat → V → Text) (p : Nat) (v : V) (hp : p ≤ 20)
    (hlen : 30 ≤ (printf p v).length) :
    ∃ s t, runOps (Float.step m printf) (Float.State.new 0 p .no .fixed) [.item v, .stream]
      = some (s, [.ok [], .ok t]) ∧ t = (printf p v).take 29 ∧ t ≠ printf p v := by
  have hd : Float.decimals p = .ok p := by
    unfold Float.decimals
    rw [if_neg (by omega)]
    by_cases h1 : p < 10
    · rw [if_pos (by omega)]; simp
    · rw [if_neg (by omega)]
      by_cases h2 : p < 20
      · rw [if_pos (by omega)]; congr 1; omega
      · rw [if_neg (by omega)]; congr 1; omega
  have hl : ((printf p v).take 29).length = 29 := by rw [List.length_take]; omega
  have : Float.formatFloat printf 0 .no p .fixed v = .ok ((printf p v).take 29) := by
    simp only [Float.formatFloat, hd, Outcome.bind_ok, hl]
    unfold layout
    rw [if_neg (by decide), if_pos (by decide)]
  refine ⟨⟨⟨0, p, .no, .fixed⟩, ⟨0, 0, .no, .fixed⟩, false, none⟩, (printf p v).take 29, ?_, rfl, ?_⟩
  · simp [runOps, Float.step, Float.State.new, Float.State.cur, this]
  · intro e; rw [e] at hl; omega

/-- **C75 fails**: more than 20 decimals are reduced to 20, and the scientific format writes an
apology instead of the number. -/
theorem C75_fails_precision_sci (V : Type) (printf : Nat → V → Text) (w : Int) (a : Align) (p : Int) (v v' : V)
    (hp : 20 ≤ p) :
    Float.formatFloat printf w a p .fixed v = Float.formatFloat printf w a 20 .fixed v ∧
    Float.formatFloat printf w a p .sci v = Float.formatFloat printf w a p .sci v' := by
  have hd : Float.decimals p = .ok 20 := by
    unfold Float.decimals; rw [if_neg (by omega), if_neg (by omega), if_neg (by omega)]
  have hd2 : Float.decimals 20 = .ok 20 := rfl
  exact ⟨by simp only [Float.formatFloat, hd, hd2], rfl⟩

example : (runOps (Float.step .debug (fun _ (_ : Unit) => "3.14".toList)) (Float.State.new 6 2 .right .fixed)
    [.item (), .stream]).map (fun r => r.2) = some [.ok [], .ok "  3.14".toList] := by rfl

/-- **C76**: a formatted string is the string padded to the width in effect. -/
theorem C76_format (m : Mode) (t : Text) (w : Int) (a : Align) (s0 : Str.State)
    (hw : -1000000000 ≤ w ∧ w ≤ 2147483647) (hl : t.length ≤ 1000000000) :
    ∃ s1 s2 out, Str.step m s0 (.itemWA t w a) = .ok s1 [] ∧ Str.step m s1 .stream = .ok s2 out ∧
      Laid w a t out ∧ s2.ready = some false := by
  obtain ⟨out, h1, h2⟩ := layout_laid w a t (by unfold InInt intMin intMax; omega)
    (by unfold InInt intMin intMax; omega)
  exact ⟨_, _, out, rfl, by simp [Str.step, h1]; rfl, h2, rfl⟩

/-- **C76**: the settings are those of the last call that set them: an item alone is padded as the
settings say, and the string formatter never adds an alignment of its own. -/
theorem C76_settings (m : Mode) (t : Text) (s0 : Str.State)
    (hw : -1000000000 ≤ s0.width ∧ s0.width ≤ 2147483647) (hl : t.length ≤ 1000000000) :
    ∃ s1 s2 out, Str.step m s0 (.item t) = .ok s1 [] ∧ Str.step m s1 .stream = .ok s2 out ∧
      Laid s0.width s0.align t out ∧ s2.width = s0.width ∧ s2.align = s0.align := by
  obtain ⟨out, h1, h2⟩ := layout_laid s0.width s0.align t (by unfold InInt intMin intMax; omega)
    (by unfold InInt intMin intMax; omega)
  exact ⟨{ s0 with s := t, ready := some true }, { s0 with s := t, ready := some false }, out, rfl,
    by simp [Str.step, h1], h2, rfl, rfl⟩

example : (runOps (Str.step .release) (Str.State.new 7 .centre) [.item "ab c".toList, .stream, .stream]).map
    (fun r => r.2) = some [.ok [], .ok "  ab c ".toList, .ok []] := by decide

end Ecl.Props
