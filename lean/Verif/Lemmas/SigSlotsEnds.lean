import Verif.Lemmas.SigSlotsLog
import Verif.Spec.DeliveryEnds
import Mathlib.Algebra.BigOperators.Group.Finset.Basic
import Mathlib.Algebra.Order.BigOperators.Group.Finset
import Mathlib.Data.List.ProdSigma
import Mathlib.Tactic.Linarith
import Mathlib.Tactic.ByContra
import Mathlib.Tactic.Ring

/-! # A careful emission with ranks ends -/
set_option autoImplicit false
set_option linter.unusedSimpArgs false
set_option linter.unusedVariables false

namespace Ecl.SigSlots.Nested.Ends
open Ecl.Spec Ecl.SigSlots Ecl.SigSlots.Nested

/-- What is still before an emission. -/
def ahead (addr : Nat → Nat) (f : Frame) (q : String × Nat) : Bool :=
  match f.pos with
  | none => true
  | some p => decide (p.1 < q.1) || (decide (p.1 = q.1) && match f.cur with
    | none => true
    | some c => decide (addr c < addr q.2))

def pairs (N : Nat) (topics : List String) : List (String × Nat) := topics ×ˢ List.range N

def remP (addr : Nat → Nat) (N : Nat) (topics : List String) (f : Frame) : Nat :=
  (pairs N topics).countP (ahead addr f)

def remT (topics : List String) (f : Frame) : Nat :=
  topics.countP fun t => match f.pos with
    | none => true
    | some p => decide (p.1 < t)

theorem countP_lt {α : Type} {p q : α → Bool} : ∀ {l : List α}, (∀ a ∈ l, p a = true → q a = true) →
    (∃ a ∈ l, q a = true ∧ p a = false) → l.countP p < l.countP q := by
  intro l
  induction l with
  | nil => rintro - ⟨a, ha, -⟩; cases ha
  | cons b l ih =>
    rintro h ⟨a, ha, h1, h2⟩
    have hle : l.countP p ≤ l.countP q := List.countP_mono_left fun a ha => h a (List.mem_cons_of_mem _ ha)
    rw [List.countP_cons, List.countP_cons]
    rcases List.mem_cons.1 ha with rfl | ha
    · simp only [h1, h2, if_true]
      simp only [Bool.false_eq_true, if_false]
      omega
    · have := ih (fun a ha => h a (List.mem_cons_of_mem _ ha)) ⟨a, ha, h1, h2⟩
      have hb := h b List.mem_cons_self
      by_cases hp : p b = true
      · rw [if_pos hp, if_pos (hb hp)]; omega
      · rw [if_neg hp]; omega

section
variable (P S L : Nat)

/-- The cost of an emission or of a call by something of rank `k`. -/
def M : Nat → Nat
  | 0 => 0
  | k + 1 => 2 + L * (1 + (P * M k + S + 1)) + (P * M k + S + 1)

def B (k : Nat) : Nat := P * M P S L k + S + 1

theorem M_succ (k : Nat) : M P S L (k + 1) = 2 + L * (1 + B P S L k) + B P S L k := rfl

theorem M_mono_succ : ∀ k, M P S L k ≤ M P S L (k + 1)
  | 0 => Nat.zero_le _
  | k + 1 => by
    rw [M_succ, M_succ P S L (k + 1)]
    have hB : B P S L k ≤ B P S L (k + 1) := by
      unfold B
      have := Nat.mul_le_mul_left P (M_mono_succ k)
      omega
    have := Nat.mul_le_mul_left L (Nat.add_le_add_left hB 1)
    omega

theorem M_mono {j k : Nat} (h : j ≤ k) : M P S L j ≤ M P S L k := monotone_nat_of_le_succ (M_mono_succ P S L) h

theorem B_mono {j k : Nat} (h : j ≤ k) : B P S L j ≤ B P S L k := by
  unfold B
  have := Nat.mul_le_mul_left P (M_mono P S L h)
  omega
end

section
variable (addr rank : Nat → Nat) (N : Nat) (topics : List String) (L : Nat)

abbrev MM (k : Nat) : Nat := M (pairs N topics).length topics.length L k
abbrev BB (k : Nat) : Nat := B (pairs N topics).length topics.length L k

def cost : Item → Nat
  | .loop f => remP addr N topics f * MM N topics L (rank f.emitter) + remT topics f + 1
  | .call x acts => 1 + acts.length * (1 + BB N topics L (rank x))

def total (s : List Item) : Nat := (s.map (cost addr rank N topics L)).sum

theorem total_cons (i : Item) (s : List Item) :
    total addr rank N topics L (i :: s) = cost addr rank N topics L i + total addr rank N topics L s := by
  unfold total; rw [List.map_cons, List.sum_cons]

theorem total_append (s s' : List Item) :
    total addr rank N topics L (s ++ s') = total addr rank N topics L s + total addr rank N topics L s' := by
  unfold total; rw [List.map_append, List.sum_append]

theorem cost_start (e : Nat) : cost addr rank N topics L (.loop (.start e)) = BB N topics L (rank e) := by
  have h1 : remP addr N topics (.start e) = (pairs N topics).length := by
    unfold remP; rw [List.countP_eq_length]; intro a _; rfl
  have h2 : remT topics (.start e) = topics.length := by
    unfold remT; rw [List.countP_eq_length]; intro a _; rfl
  show remP addr N topics (.start e) * _ + remT topics (.start e) + 1 = _
  rw [h1, h2]
  rfl

theorem cost_check (w : World) (i : Item) : cost addr rank N topics L (i.check w) = cost addr rank N topics L i := by
  cases i with
  | call x acts => rfl
  | loop f =>
    unfold Item.check cost remP remT ahead
    simp only [check_pos, check_cur, check_emitter]

theorem total_check (w : World) (s : List Item) :
    total addr rank N topics L (s.map (Item.check w)) = total addr rank N topics L s := by
  unfold total
  rw [List.map_map]
  congr 1
  exact List.map_congr_left fun i _ => cost_check addr rank N topics L w i

variable {addr rank N topics L}
variable {script : Nat → List Act}

theorem nextTopic_lt {m m' : Machine} {g : Wiring} (hR : Rel m.w g) (hC : Confined N topics g) {f : Frame}
    {rest : List Item} (hst : m.stack = .loop f :: rest) (h : nextTopic m f rest = .running m') :
    total addr rank N topics L m'.stack < total addr rank N topics L m.stack := by
  rw [hst, total_cons]
  unfold nextTopic at h
  split at h
  · cases hE : m.w.eps f.emitter with
    | none => rw [hE] at h; cases h
    | some E =>
      rw [hE] at h
      simp only at h
      cases hk : nextKey (f.pos.map Prod.fst) (E.publications.map Prod.fst) with
      | none =>
        rw [hk] at h
        cases h
        have : 0 < cost addr rank N topics L (.loop f) := by simp only [cost]; omega
        simp only
        omega
      | some t =>
        rw [hk] at h
        simp only at h
        cases hf : E.publications.find? (fun p => p.1 = t) with
        | none => rw [hf] at h; cases h
        | some p =>
          rw [hf] at h
          cases h
          have hpt : p.1 = t := by simpa using List.find?_some hf
          obtain ⟨hmem, hlt, -⟩ := nextKey_some hk
          have hpub : g.pub f.emitter t := ((hR.ep _ E hE).2.2.2.2.2.1 t).1 hmem
          have htop := hC.2 _ _ hpub
          have hlt' : ∀ q, f.pos = some q → q.1 < t := by
            intro q hq
            exact hlt q.1 (by rw [hq]; rfl)
          simp only
          rw [total_cons]
          have h1 : remP addr N topics ⟨f.emitter, some p, none, true, true⟩ ≤ remP addr N topics f := by
            apply List.countP_mono_left
            intro q _ hq
            unfold ahead at hq ⊢
            cases hp : f.pos with
            | none => rfl
            | some r =>
              have := hlt' r hp
              simp only [Bool.or_eq_true, decide_eq_true_eq, Bool.and_true] at hq ⊢
              left
              rcases hq with hq | hq
              · exact lt_trans this (hpt ▸ hq)
              · rw [← hq, hpt]; exact this
          have h2 : remT topics ⟨f.emitter, some p, none, true, true⟩ < remT topics f := by
            apply countP_lt
            · intro u _ hu
              simp only [decide_eq_true_eq] at hu
              cases hp : f.pos with
              | none => rfl
              | some r => simp only [decide_eq_true_eq]; exact lt_trans (hlt' r hp) (hpt ▸ hu)
            · refine ⟨t, htop, ?_, ?_⟩
              · cases hp : f.pos with
                | none => rfl
                | some r => simp only [decide_eq_true_eq]; exact hlt' r hp
              · simp [hpt]
          have h3 := Nat.mul_le_mul_right (MM N topics L (rank f.emitter)) h1
          simp only [cost]
          omega
  · cases h

theorem next_lt {m m' : Machine} {g : Wiring} (hS : Safe m.w g m.stack) (hC : Confined N topics g)
    (hd : Descends rank g m) (hL : ∀ x, x < N → (script x).length ≤ L)
    (hs : m.stack ≠ []) (h : next addr script m = .running m') :
    total addr rank N topics L m'.stack < total addr rank N topics L m.stack := by
  have hR := hS.rel
  unfold next at h
  cases hst : m.stack with
  | nil => exact absurd hst hs
  | cons i rest =>
    rw [hst] at h
    cases i with
    | call x acts =>
      cases acts with
      | nil =>
        cases h
        rw [total_cons]
        unfold cost
        simp
      | cons a acts =>
        cases a with
        | op o =>
          simp only at h
          unfold doOp at h
          split at h
          · split at h
            · cases h
            · cases h
              simp only
              rw [total_check, total_cons, total_cons]
              simp only [cost]
              rw [List.length_cons, Nat.add_mul]
              omega
          · cases h
        | emit k =>
          simp only at h
          cases hh : handle k m.w.handles with
          | none => rw [hh] at h; cases h
          | some e =>
            rw [hh] at h
            cases h
            rw [hR.handles] at hh
            have hat : g.At k e := (handle_iff k e _ hR.keys).1 hh
            have hr := hd.2 x k acts rest hst e hat
            simp only
            rw [total_cons, total_cons, total_cons, cost_start]
            have := B_mono (pairs N topics).length topics.length L hr.le
            simp only [cost]
            rw [List.length_cons, Nat.add_mul]
            unfold BB
            omega
    | loop f =>
      simp only at h
      unfold loopStep at h
      cases hpos : f.pos with
      | none =>
        rw [hpos] at h
        rw [← hst]
        exact nextTopic_lt hR hC hst h
      | some p =>
        obtain ⟨t, uid⟩ := p
        rw [hpos] at h
        simp only at h
        split at h
        · cases hT : m.w.topics t with
          | none => rw [hT] at h; cases h
          | some T =>
            rw [hT] at h
            simp only at h
            split at h
            · cases hn : nextSub addr f.cur T.subs with
              | none =>
                rw [hn] at h
                rw [← hst]
                exact nextTopic_lt hR hC hst h
              | some x =>
                rw [hn] at h
                simp only at h
                cases hX : m.w.eps x with
                | none => rw [hX] at h; cases h
                | some X =>
                  rw [hX] at h
                  cases h
                  obtain ⟨hxs, hlt, -⟩ := nextSub_some hn
                  have hsub : g.sub x t := ((hR.topic t T hT).2.2.2.1 x).1 hxs
                  obtain ⟨E, hE, hpE⟩ := (hS.loops f (by rw [hst]; simp)).pub _ hpos
                  have hpub : g.pub f.emitter t :=
                    ((hR.ep _ E hE).2.2.2.2.2.1 t).1 (List.mem_map.2 ⟨_, hpE, rfl⟩)
                  have hr : rank x + 1 ≤ rank f.emitter := hd.1 _ _ ⟨t, hpub, hsub⟩
                  have htop := hC.2 _ _ hpub
                  have hxN : x < N := by
                    have hal : g.Alive x := by
                      by_contra hn
                      exact (hR.dead x hn t).2 hsub
                    obtain ⟨k, hk⟩ := hal
                    exact lt_of_lt_of_le (hR.bound _ hk) hC.1
                  have h1 : remP addr N topics { f with cur := some x } < remP addr N topics f := by
                    apply countP_lt
                    · intro q _ hq
                      unfold ahead at hq ⊢
                      simp only [hpos, Bool.or_eq_true, decide_eq_true_eq, Bool.and_eq_true] at hq ⊢
                      rcases hq with hq | ⟨hq, hq'⟩
                      · exact .inl hq
                      · refine .inr ⟨hq, ?_⟩
                        cases hc : f.cur with
                        | none => rfl
                        | some c => simp only [decide_eq_true_eq]; exact lt_trans (hlt c hc) hq'
                    · refine ⟨(t, x), ?_, ?_, ?_⟩
                      · exact List.mem_product.2 ⟨htop, List.mem_range.2 hxN⟩
                      · unfold ahead
                        simp only [hpos, lt_irrefl, decide_true, Bool.true_and, Bool.or_eq_true]
                        right
                        cases hc : f.cur with
                        | none => rfl
                        | some c => simp only [decide_eq_true_eq]; exact hlt c hc
                      · unfold ahead
                        simp only [hpos, lt_irrefl, decide_true, decide_false, Bool.true_and, Bool.or_false]
                  have h2 : remT topics { f with cur := some x } = remT topics f := rfl
                  have h3 : total addr rank N topics L (onCall script x X) + 1 ≤ MM N topics L (rank x + 1) := by
                    unfold MM
                    rw [M_succ]
                    unfold onCall
                    split
                    · rw [total_cons, total_cons, cost_start]
                      simp only [cost, total, BB, List.length_nil, List.map_nil, List.sum_nil]
                      omega
                    · rw [total_cons]
                      have := Nat.mul_le_mul_right (1 + BB N topics L (rank x)) (hL x hxN)
                      simp only [cost, total, List.map_nil, List.sum_nil]
                      unfold BB at this ⊢
                      omega
                  rw [hpos] at h1 h2
                  have h4 := M_mono (pairs N topics).length topics.length L hr
                  have h5 := Nat.mul_le_mul_right (MM N topics L (rank f.emitter)) h1
                  rw [Nat.succ_mul] at h5
                  simp only
                  rw [total_append, total_cons, total_cons]
                  simp only [cost]
                  rw [h2]
                  unfold MM at h3 h5 ⊢
                  omega
            · cases h
        · cases h

theorem steps_succ {n : Nat} : ∀ {m m1 : Machine}, steps addr script n m = .running m1 →
    steps addr script (n + 1) m = next addr script m1 := by
  induction n with
  | zero =>
    intro m m1 h
    cases h
    unfold steps
    cases next addr script m with
    | running m' => rfl
    | ub => rfl
    | stuck => rfl
  | succ n ih =>
    intro m m1 h
    unfold steps at h ⊢
    cases hn : next addr script m with
    | running m' => rw [hn] at h; exact ih h
    | ub => rw [hn] at h; cases h
    | stuck => rw [hn] at h; cases h

/-- An emission that descends ends. -/
theorem ends {addr : Nat → Nat} (hinj : Function.Injective addr) {g₀ : Wiring} {m₀ : Machine} {e : Nat}
    (S : Safe m₀.w (g₀.run (opsOf m₀.log)) m₀.stack) (T : Told addr g₀ e m₀)
    (hc : ∀ k m', steps addr script k m₀ = .running m' → Careful (g₀.run (opsOf m'.log)) m')
    (hC : ∀ k m', steps addr script k m₀ = .running m' → Confined N topics (g₀.run (opsOf m'.log)))
    (hd : ∀ k m', steps addr script k m₀ = .running m' → Descends rank (g₀.run (opsOf m'.log)) m') :
    ∃ n m, steps addr script n m₀ = .running m ∧ m.stack = [] := by
  have hL : ∀ x, x < N → (script x).length ≤ ∑ y ∈ Finset.range N, (script y).length := by
    intro x hx
    exact Finset.single_le_sum (f := fun y => (script y).length) (fun _ _ => Nat.zero_le _) (Finset.mem_range.2 hx)
  have main : ∀ k n m, steps addr script n m₀ = .running m →
      total addr rank N topics (∑ y ∈ Finset.range N, (script y).length) m.stack ≤ k →
      ∃ n m, steps addr script n m₀ = .running m ∧ m.stack = [] := by
    intro k
    induction k with
    | zero =>
      intro n m hm hk
      by_cases hs : m.stack = []
      · exact ⟨n, m, hm, hs⟩
      obtain ⟨m2, h2, S2, -⟩ := run_careful hinj n _ S T hc
      rw [hm] at h2
      cases h2
      obtain ⟨m', g', h1, -, -⟩ := S2.next (addr := addr) (script := script) (hc n m hm)
      have := next_lt S2 (hC n m hm) (hd n m hm) hL hs h1
      omega
    | succ k ih =>
      intro n m hm hk
      by_cases hs : m.stack = []
      · exact ⟨n, m, hm, hs⟩
      obtain ⟨m2, h2, S2, -⟩ := run_careful hinj n _ S T hc
      rw [hm] at h2
      cases h2
      obtain ⟨m', g', h1, -, -⟩ := S2.next (addr := addr) (script := script) (hc n m hm)
      have := next_lt S2 (hC n m hm) (hd n m hm) hL hs h1
      exact ih (n + 1) m' (by rw [steps_succ hm, h1]) (by omega)
  exact main _ 0 m₀ rfl le_rfl

end
end Ecl.SigSlots.Nested.Ends
