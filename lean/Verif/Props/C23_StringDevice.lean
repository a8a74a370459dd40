import Verif.Lemmas.StringDevice

/-!
# C23: the `String` device is a byte queue
-/
set_option autoImplicit false
set_option linter.unusedSimpArgs false

namespace Ecl.Props
open Ecl.Spec
open StrDev (Op Out)

/-- Calls within the guard of `C23_queue_partial`: a single-character write needs a device that was
not cleared since the last bulk write, and fewer than 256 single-character writes since then; the
sizes stay below the limits of `int` and `long`. -/
def strLegal (t : Tape) : Op → Prop
  | .put _ => (∃ k, t.run = some k ∧ k < 256) ∧ t.all.length < 2 ^ 62
  | .puts cs => cs.length + 256 < 2 ^ 31 ∧ t.all.length + cs.length ≤ 2 ^ 62
  | _ => True

/-- **C23, partial**: over every history of calls within the guard the device returns exactly what the
byte queue returns, and no call is undefined.  Missing: runs of more than 256 single-character
writes, and single-character writes after `clear()` (refuted below). -/
theorem C23_queue_partial (s : List Char) (hs : s.length ≤ 2 ^ 62) (ops : List Op)
    (hl : Legal tapeStep strLegal ⟨s, 0, some 0⟩ ops) :
    ∃ s', runOps StrDev.step (StrDev.make s) ops =
      some (s', (runSpec tapeStep ⟨s, 0, some 0⟩ ops).2) := by
  have hstep : ∀ (s : StrDev) (t : Tape) (op : Op), StrDev.Rel s t → strLegal t op →
      ∃ s', (StrDev.step s op).obs = some (s', (tapeStep t op).2) ∧ StrDev.Rel s' (tapeStep t op).1 := by
    intro s t op hR hl
    cases op with
    | put c =>
      obtain ⟨⟨k, hk, hk'⟩, hb⟩ := hl
      obtain ⟨s', h1, h2⟩ := hR.put c k hk hk' (by simpa using hb)
      refine ⟨s', by simp [StrDev.step, h1, Res.obs, tapeStep], ?_⟩
      simpa [tapeStep, hk] using h2
    | puts cs =>
      obtain ⟨s', h1, h2⟩ := hR.puts cs (by simpa using hl.1) (by simpa using hl.2)
      exact ⟨s', by simp [StrDev.step, h1, Res.obs, tapeStep], h2⟩
    | get =>
      obtain ⟨s', h1, h2⟩ := hR.get
      refine ⟨s', ?_, h2⟩
      rw [h1]
      cases h : t.all[t.pos]? <;> simp [Res.obs, tapeStep, h]
    | gets n =>
      obtain ⟨s', h1, h2⟩ := hR.gets n
      exact ⟨s', by simp [StrDev.step, h1, Res.obs, tapeStep], h2⟩
    | clear => exact ⟨_, rfl, StrDev.Rel.clear s⟩
    | cstr =>
      obtain ⟨s', h1, h2⟩ := hR.cstr
      exact ⟨s', by simp [StrDev.step, h1, Res.obs, tapeStep], h2⟩
    | str =>
      have h1 : StrDev.str s = .ok t.all := by
        unfold StrDev.str
        rw [hR.w, StrDev.load_ok t.all s.mem hR.cell _ 0 (by omega)]; simp
      exact ⟨s, by simp [StrDev.step, h1, Res.obs, tapeStep], hR⟩
    | size => exact ⟨s, by simp [StrDev.step, StrDev.size, hR.w, Res.obs, tapeStep], hR⟩
    | remaining => exact ⟨s, by simp [StrDev.step, hR.remaining, Res.obs, tapeStep], hR⟩
  obtain ⟨s', h, _⟩ := refines StrDev.step tapeStep strLegal StrDev.Rel hstep ops _ _
    (StrDev.Rel.make s (by simpa using hs)) hl
  exact ⟨s', h⟩

/-- **C23, partial** (closed form): in a history within the guard that does not call `clear`, the bytes
delivered by the reads, in order, are a prefix of the initial text followed by the bytes written. -/
theorem C23_reads_prefix_partial (s : List Char) (hs : s.length ≤ 2 ^ 62) (ops : List Op)
    (hl : Legal tapeStep strLegal ⟨s, 0, some 0⟩ ops) (hc : Op.clear ∉ ops) :
    ∃ s' outs, runOps StrDev.step (StrDev.make s) ops = some (s', outs) ∧
      ((ops.zip outs).map fun p => readBytes p.1 p.2).flatten <+: s ++ (ops.map opBytes).flatten := by
  obtain ⟨s', h⟩ := C23_queue_partial s hs ops hl
  refine ⟨s', _, h, ?_⟩
  have key : ∀ (ops : List Op) (t : Tape), Op.clear ∉ ops → t.pos ≤ t.all.length →
      ((ops.zip (runSpec tapeStep t ops).2).map fun p => readBytes p.1 p.2).flatten <+:
        t.all.drop t.pos ++ (ops.map opBytes).flatten := by
    intro ops
    induction ops with
    | nil => intro t _ _; simp [runSpec]
    | cons op ops ih =>
      intro t hc hp
      simp only [List.mem_cons, not_or] at hc
      simp only [runSpec, List.zip_cons_cons, List.map_cons, List.flatten_cons]
      cases op with
      | put c =>
        have := ih (tapeStep t (.put c)).1 hc.2 (by simp [tapeStep]; omega)
        simp only [tapeStep, List.drop_append_of_le_length hp] at this
        simpa [readBytes, opBytes, tapeStep] using this
      | puts cs =>
        have := ih (tapeStep t (.puts cs)).1 hc.2 (by simp [tapeStep]; omega)
        simp only [tapeStep, List.drop_append_of_le_length hp] at this
        simpa [readBytes, opBytes, tapeStep] using this
      | get =>
        cases h : t.all[t.pos]? with
        | none =>
          have := ih t hc.2 hp
          simpa [tapeStep, h, readBytes, opBytes] using this
        | some c =>
          obtain ⟨h1, h2⟩ := List.getElem?_eq_some_iff.1 h
          have := ih (tapeStep t .get).1 hc.2 (by simp only [tapeStep, h]; omega)
          rw [List.drop_eq_getElem_cons h1, h2]
          simp only [tapeStep, h] at this
          simpa [tapeStep, h, readBytes, opBytes] using this
      | gets n =>
        have := ih (tapeStep t (.gets n)).1 hc.2 (by simp [tapeStep]; omega)
        simp only [tapeStep, readBytes, opBytes, List.nil_append] at this ⊢
        have e : t.all.drop t.pos = (t.all.drop t.pos).take n ++ t.all.drop (min (t.pos + n) t.all.length) := by
          have h1 := (List.take_append_drop n (t.all.drop t.pos)).symm
          rw [List.drop_drop] at h1
          by_cases h2 : t.pos + n ≤ t.all.length
          · rw [Nat.min_eq_left h2]; exact h1
          · rw [Nat.min_eq_right (by omega), List.drop_length]
            rw [List.drop_eq_nil_of_le (by omega : t.all.length ≤ t.pos + n)] at h1
            exact h1
        have h3 := (List.prefix_append_right_inj ((t.all.drop t.pos).take n)).2 this
        rwa [← List.append_assoc, ← e] at h3
      | clear => exact absurd rfl hc.1
      | cstr => simpa [tapeStep, readBytes, opBytes] using ih t hc.2 hp
      | str => simpa [tapeStep, readBytes, opBytes] using ih t hc.2 hp
      | size => simpa [tapeStep, readBytes, opBytes] using ih t hc.2 hp
      | remaining => simpa [tapeStep, readBytes, opBytes] using ih t hc.2 hp
  simpa using key ops ⟨s, 0, some 0⟩ hc (by simp)

/-- **C23, refuted**: whatever the initial text, 258 single-character writes in a row write past the
end of the buffer. -/
theorem C23_fails_long_run (s : List Char) (hs : s.length ≤ 2 ^ 62) (c : Char) :
    runOps StrDev.step (StrDev.make s) (List.replicate 258 (.put c)) = none := by
  have first : ∃ s1, StrDev.put (StrDev.make s) c = .ok s1 ∧ s1.w = s.length + 1 ∧
      s1.len = s.length + 1 ∧ s1.mem.length = s.length + 257 := by
    obtain ⟨s1, g1, g2, g3, g4, _, _⟩ := StrDev.grow_ok (StrDev.Rel.make s (by simpa using hs)) 256 (by omega)
    have g1' : StrDev.grow (StrDev.make s) 256 = .ok s1 := g1
    have e1 : (StrDev.make s).w = s.length := rfl
    have e2 : (StrDev.make s).len = s.length + 1 := rfl
    rw [e1] at g2 g4
    rw [e2] at g3
    refine ⟨{ s1 with mem := s1.mem.set s1.w (some c), w := s1.w + 1 }, ?_, by simp [g4], g3, by simp [g2]⟩
    unfold StrDev.put
    rw [if_pos (by simp [StrDev.make]), g1']
    simp only [Outcome.bind_ok, StrDev.store]
    rw [if_pos (by omega)]
    rfl
  have rest : ∀ (k : Nat) (d : StrDev), d.len ≤ d.w → d.mem.length + 1 ≤ d.w + k →
      runOps StrDev.step d (List.replicate k (.put c)) = none ∨ d.mem.length < d.w := by
    intro k
    induction k with
    | zero => intro d _ h; right; omega
    | succ k ih =>
      intro d h1 h2
      left
      rw [List.replicate_succ, runOps_cons]
      have hg : ¬ ((d.w : Int) = d.len - 1) := by omega
      by_cases hw : d.w < d.mem.length
      · have hp : StrDev.put d c = .ok { d with mem := d.mem.set d.w (some c), w := d.w + 1 } := by
          unfold StrDev.put
          rw [if_neg hg]
          simp [StrDev.store, hw]
        simp only [StrDev.step, hp, Res.obs]
        rcases ih { d with mem := d.mem.set d.w (some c), w := d.w + 1 } (by simp; omega)
          (by simp; omega) with h | h
        · simp [h]
        · simp at h; omega
      · have hp : StrDev.put d c = .ub := by
          unfold StrDev.put
          rw [if_neg hg]
          simp [StrDev.store, hw]
        simp [StrDev.step, hp, Res.obs]
  obtain ⟨s1, f1, f2, f3, f4⟩ := first
  rw [List.replicate_succ, runOps_cons]
  simp only [StrDev.step, f1, Res.obs]
  rcases rest 257 s1 (by omega) (by omega) with h | h
  · show Option.bind (some (s1, Except.ok (Out.count 1))) _ = none
    simp only [Option.bind_some]
    rw [h]; rfl
  · omega

/-- **C23, refuted**: after `clear()`, two single-character writes, or one followed by `c_str()`, write
past the end of the buffer, whatever the device held before. -/
theorem C23_fails_after_clear (d : StrDev) (a b : Char) :
    runOps StrDev.step d [.clear, .put a, .put b] = none ∧
      runOps StrDev.step d [.clear, .put a, .cstr] = none := by
  constructor <;>
    simp [runOps, StrDev.step, StrDev.clear, StrDev.put, StrDev.store, StrDev.cstr]

-- non-vacuity: a legal history with growth, interleaved reads, a clear and a bulk write after it
example : Legal tapeStep strLegal ⟨['h', 'i'], 0, some 0⟩
    [.get, .put 'x', .puts ['y', 'z'], .gets 2, .put 'w', .get, .clear, .puts ['q'], .put 'r', .cstr] := by
  simp [Legal, strLegal, tapeStep]
example : (runSpec tapeStep ⟨['h', 'i'], 0, some 0⟩ [.get, .put 'x', .gets 5]).2 =
    [.ok (.char (some 'h')), .ok (.count 1), .ok (.text ['i', 'x'])] := by decide

end Ecl.Props
