import Verif.Lemmas.Packet
import Verif.Props.C10_C15_Converters

/-! # C121: integers packed into one buffer -/
set_option autoImplicit false

namespace Ecl.Props
open Ecl Ecl.Conv Ecl.Spec Ecl.Packet

/-- **C121 (partial)**: every history of calls that is covered (`PacketView.Covered`) on a buffer of bytes behaves as
the buffer of numbers does: a write changes its field and nothing else, a read returns the number in its field, wrong
fields are refused, and a converter reports an error exactly if it has failed before.  Missing: fields of more than
four bytes and large numbers in 64 bit types (`C121_fails_long`); `error()` does not tell about the last call
(`C121_fails_error`). -/
theorem C121_history_partial (m : Mode) (writes reads : Nat → Ty) (hr : ∀ c, (reads c).Exists) (buf : List Nat)
    (hb : ∀ b ∈ buf, b < 256) (hl : buf.length < 2 ^ 64) (ops : List Op)
    (hc : Legal (PacketView.step m writes reads) (PacketView.Covered m reads) ⟨buf, [], []⟩ ops) :
    ∃ d, runOps (step m writes reads) (Desk.new buf) ops = some (d, (runSpec (PacketView.step m writes reads) ⟨buf, [], []⟩ ops).2) ∧
      d.buf = (runSpec (PacketView.step m writes reads) ⟨buf, [], []⟩ ops).1.buf := by
  obtain ⟨d, h1, h2⟩ := refines (step m writes reads) (PacketView.step m writes reads) (PacketView.Covered m reads) Rel
    (fun s t op hR hL => step_rel m writes reads hr s t op hR hL) ops (Desk.new buf) ⟨buf, [], []⟩
    ⟨rfl, fun c => by simp [Desk.new], fun c => by simp [Desk.new], hb, hl⟩ hc
  exact ⟨d, h1, h2.buf⟩

/-- A 16 bit writer (number 0), a 32 bit writer (1), a signed 16 bit reader (0) and a 32 bit one (1). -/
def C121.ws : Nat → Ty := fun c => if c = 0 then ⟨16, true⟩ else ⟨32, false⟩
def C121.rs : Nat → Ty := fun c => if c = 0 then ⟨16, true⟩ else ⟨32, false⟩

example : Legal (PacketView.step .debug C121.ws C121.rs) (PacketView.Covered .debug C121.rs) ⟨[9, 9, 9, 9, 9, 9, 9], [], []⟩
    [.write 0 0 2 (-2), .write 1 2 4 4000000000, .write 0 5 4 1, .write 0 2 4 7, .read 0 0 2, .read 1 2 4, .writerError 0,
      .readerError 0] ∧
    (runSpec (PacketView.step .debug C121.ws C121.rs) ⟨[9, 9, 9, 9, 9, 9, 9], [], []⟩
      [.write 0 0 2 (-2), .write 1 2 4 4000000000, .write 0 5 4 1, .write 0 2 4 7, .read 0 0 2, .read 1 2 4, .writerError 0,
        .readerError 0]).2 =
    [.ok .done, .ok .done, .error .outOfRange, .error .conversionError, .ok (.value (-2)), .ok (.value 4000000000),
      .ok (.flag .conversionError), .ok (.flag .noError)] := by
  refine ⟨?_, by decide +kernel⟩
  simp [Legal, PacketView.Covered, PacketView.step, C121.ws, C121.rs]

/-- **C121**: a number written into its field is read back after any further calls that do not write into this
field, wherever else they write, whether they fail or not, and with other converters or the same. -/
theorem C121_read_back (m : Mode) (writes reads : Nat → Ty) (buf : List Nat) (hb : ∀ b ∈ buf, b < 256)
    (hl : buf.length < 2 ^ 64) (before after : List Op) (c c' start : Nat) (v : Int) (hsame : reads c' = writes c)
    (hw : (writes c).bits = 8 ∨ (writes c).bits = 16 ∨ (writes c).bits = 32) (hv : InRange (writes c).bits (writes c).signed v)
    (hin : start + (writes c).bits / 8 ≤ buf.length) (ha : ∀ op ∈ after, op.Avoids start ((writes c).bits / 8))
    (d : Desk) (obs : List (Obs Out))
    (h : runOps (step m writes reads) (Desk.new buf) (before ++ .write c start ((writes c).bits / 8) v :: after) = some (d, obs)) :
    step m writes reads d (.read c' start ((writes c).bits / 8)) = .ok d (.value v) := by
  obtain ⟨d0, obs0, d1, obs1, e0, e1⟩ : ∃ d0 obs0 d1 obs1, runOps (step m writes reads) (Desk.new buf) before = some (d0, obs0) ∧
      runOps (step m writes reads) d0 (.write c start ((writes c).bits / 8) v :: after) = some (d1, obs1) ∧ d1 = d := by
    clear hb hl hin ha hv
    generalize Desk.new buf = s at h
    induction before generalizing s obs with
    | nil => exact ⟨s, [], d, obs, rfl, h, rfl⟩
    | cons op before ih =>
      rw [List.cons_append, runOps_cons] at h
      rw [runOps_cons]
      cases hs : (step m writes reads s op).obs with
      | none => rw [hs] at h; cases h
      | some r =>
        obtain ⟨s', o⟩ := r
        rw [hs] at h
        simp only [Option.bind_some] at h ⊢
        cases hr : runOps (step m writes reads) s' (before ++ .write c start ((writes c).bits / 8) v :: after) with
        | none => rw [hr] at h; cases h
        | some q =>
          rw [hr] at h
          cases h
          obtain ⟨d0, obs0, d1, obs1, e0, e1, e2⟩ := ih q.2 s' hr
          exact ⟨d0, o :: obs0, d1, obs1, by rw [e0]; rfl, e1, e2⟩
  obtain ⟨e1, rfl⟩ := e1
  set n := (writes c).bits / 8 with hn
  obtain ⟨l0, s0, -⟩ := run_keeps (start := 0) (n := 0) before (Desk.new buf) d0 obs0 (fun op _ => by
    cases op <;> simp [Op.Avoids]) e0
  have s0 := s0 hb
  have l0 : d0.buf.length = buf.length := l0
  have hz := size_eq start n (by omega)
  have hst : step m writes reads d0 (.write c start n v) = .ok { d0 with buf := withField d0.buf start n v } .done := by
    simp only [step]
    rw [mkIdx_in m (by omega)]
    simp only [Packet.write]
    rw [hz, if_neg (by simp [hn]), ← hn, writeLoop_field m v (by omega)]
  rw [runOps_cons, hst] at e1
  simp only [Res.obs, Option.bind_some] at e1
  cases hr : runOps (step m writes reads) { d0 with buf := withField d0.buf start n v } after with
  | none => rw [hr] at e1; cases e1
  | some q =>
    obtain ⟨d2, os⟩ := q
    rw [hr] at e1
    cases e1
    obtain ⟨l1, s1, k1⟩ := run_keeps after _ _ _ ha hr
    have hwl := withField_length (buf := d0.buf) (start := start) (n := n) (by omega) v
    simp only at l1 s1 k1
    have s1 := s1 (fun b hb => by
      simp only [withField, List.mem_append] at hb
      rcases hb with (hb | hb) | hb
      · exact s0 b (List.mem_of_mem_take hb)
      · exact lowDigits_small _ _ _ hb
      · exact s0 b (List.mem_of_mem_drop hb))
    have hwin : (d2.buf.drop start).take n = lowDigits n v := by
      apply List.ext_getElem?
      intro j
      by_cases hj : j < n
      · rw [List.getElem?_take_of_lt hj, List.getElem?_drop, k1 _ (by omega) (by omega), withField_get (by omega),
          if_pos (by omega), lowDigits_get _ _ _ hj]
        congr 2
        omega
      · rw [List.getElem?_eq_none (by simp; omega), List.getElem?_eq_none (by rw [lowDigits_length]; omega)]
    have hlen : start + n ≤ d2.buf.length := by omega
    have hval := readAll_field m (writes c) (by rcases hw with e | e | e <;> simp [Ty.Exists, e]) s1 (start := start) (n := n) hlen
      (by omega) (by omega)
    simp only [step]
    rw [mkIdx_in m hlen]
    simp only [Packet.read]
    rw [hz, hsame, if_neg (by omega), if_neg (by omega), hval]
    simp only [Res.ok.injEq, Out.value.injEq, true_and]
    rw [min_eq_left (by omega), fieldValue, hwin]
    have hd := lowDigits_value n v
    rw [show 8 * n = (writes c).bits by omega] at hd
    generalize (writes c).bits = w at *
    generalize (writes c).signed = sg at *
    cases sg
    · simp only [InRange, Bool.false_eq_true, if_false] at hv ⊢
      rw [hd, Int.emod_eq_of_lt hv.1 hv.2]
    · simp only [InRange, if_true] at hv ⊢
      unfold twos
      have hlt : leValue (lowDigits n v) < 2 ^ (w - 1) ↔ (leValue (lowDigits n v) : Int) < 2 ^ (w - 1) := by norm_cast
      rw [hd] at hlt ⊢
      simp only [hlt]
      rcases hw with rfl | rfl | rfl <;> norm_num at hv ⊢ <;> split <;> omega

/-- **C121**: and whatever is called, the buffer keeps its length, and the bytes of a field that is not written to keep
their values. -/
theorem C121_untouched (m : Mode) (writes reads : Nat → Ty) (d d' : Desk) (ops : List Op) (obs : List (Obs Out)) (start n : Nat)
    (ha : ∀ op ∈ ops, op.Avoids start n) (h : runOps (step m writes reads) d ops = some (d', obs)) :
    d'.buf.length = d.buf.length ∧ ∀ j, start ≤ j → j < start + n → d'.buf[j]? = d.buf[j]? :=
  let ⟨a, _, b⟩ := run_keeps ops d d' obs ha h
  ⟨a, b⟩

example : (runOps (step .release C121.ws C121.rs) (Desk.new [0, 0, 0, 0, 5, 6])
    [.write 0 1 2 (-300), .read 1 1 2, .write 0 3 1 4, .read 0 1 4, .read 0 1 2, .readerError 0]).map (fun r => (r.1.buf, r.2)) =
    some ([0, 212, 254, 0, 5, 6], [.ok .done, .ok (.value 65236), .ok .done, .ok (.value (-300)), .ok (.value (-300)),
      .ok (.flag .conversionError)]) := by decide +kernel

/-- **C121 fails** for 64 bit types: every number that has been written can not be read, the call is undefined. -/
theorem C121_fails_long (m : Mode) (writes reads : Nat → Ty) (buf : List Nat) (c c' start : Nat) (v : Int) (signed : Bool)
    (h1 : writes c = ⟨64, signed⟩) (h2 : reads c' = ⟨64, signed⟩) (hin : start + 8 ≤ buf.length) :
    runOps (step m writes reads) (Desk.new buf) [.write c start 8 v] ≠ none ∧
    runOps (step m writes reads) (Desk.new buf) [.write c start 8 v, .read c' start 8] = none := by
  have hst : step m writes reads (Desk.new buf) (.write c start 8 v) =
      .ok { Desk.new buf with buf := withField buf start 8 v } .done := by
    simp only [step]
    rw [show (Desk.new buf).buf = buf from rfl, mkIdx_in m hin]
    simp only [Packet.write]
    rw [size_eq start 8 (by norm_num), h1, if_neg (by norm_num)]
    rw [show (⟨64, signed⟩ : Ty).bits / 8 = 8 by norm_num, show (Desk.new buf).buf = buf from rfl, writeLoop_field m v hin]
  have hl := withField_length hin v
  have hread : step m writes reads { Desk.new buf with buf := withField buf start 8 v } (.read c' start 8) = .ub := by
    simp only [step]
    rw [mkIdx_in m (by omega)]
    simp only [Packet.read]
    rw [size_eq start 8 (by norm_num), h2, if_neg (by norm_num)]
    simp only [readAll]
    rw [size_eq start 8 (by norm_num), readLoop_eq m _ _ _ _ _ _ _ (by omega), fromLoop_ub _ _ _ _ (by omega) (by simp; omega)]
    rfl
  refine ⟨?_, ?_⟩
  · rw [runOps_cons, hst]; simp [Res.obs, runOps]
  · rw [runOps_cons, hst]; simp [Res.obs, runOps, hread]

/-- **C121 fails**: `error()` does not tell whether the last conversion has failed.  A converter that has failed once
reports the error after every later success, too; and in a debug build a reader that has thrown reports none. -/
theorem C121_fails_error (m : Mode) (v : Int) :
    (∃ d o, runOps (step m C121.ws C121.rs) (Desk.new [0, 0]) [.write 0 0 1 v, .write 0 0 2 v, .writerError 0] =
      some (d, [o, .ok .done, .ok (.flag .conversionError)])) ∧
    (runOps (step .debug C121.ws C121.rs) (Desk.new [0, 0, 0]) [.read 0 0 3, .readerError 0]).map Prod.snd =
      some [.error .conversionError, .ok (.flag .noError)] ∧
    (runOps (step .release C121.ws C121.rs) (Desk.new [0, 0, 0]) [.read 0 0 3, .read 0 0 2, .readerError 0]).map Prod.snd =
      some [.ok (.value 0), .ok (.value 0), .ok (.flag .conversionError)] := by
  refine ⟨?_, by decide +kernel, by decide +kernel⟩
  obtain ⟨d, h1, -⟩ := C121_history_partial m C121.ws C121.rs (fun c => by unfold C121.rs; split <;> simp [Ty.Exists]) [0, 0]
    (by simp) (by norm_num) [.write 0 0 1 v, .write 0 0 2 v, .writerError 0]
    (by simp [Legal, PacketView.Covered, PacketView.step, C121.ws, C121.rs, withField, lowDigits])
  refine ⟨d, match m with | .debug => .error .conversionError | .release => .ok .done, ?_⟩
  rw [h1]
  cases m <;> simp [runSpec, PacketView.step, C121.ws, withField, lowDigits]

end Ecl.Props
