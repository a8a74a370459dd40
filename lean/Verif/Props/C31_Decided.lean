import Verif.Lemmas.SigSlots
import Verif.Spec.WiringPlain

/-! # C31: which histories of handles are undefined -/
set_option autoImplicit false

namespace Ecl.Props
open Ecl Ecl.SigSlots Ecl.Spec

namespace C31

theorem no_handle {w : World} {g : Wiring} (hR : Rel w g) {h : Nat} (hn : ¬ ∃ e, g.At h e) : handle h w.handles = none := by
  cases hh : handle h w.handles with
  | none => rfl
  | some e =>
    rw [hR.handles] at hh
    exact (hn ⟨e, (handle_iff h e _ hR.keys).1 hh⟩).elim

theorem lonely_ub {w w' : World} {g : Wiring} (hR : Rel w g) {e : Nat} {E E' : Endpoint} (hE : w.eps e = some E)
    (hlone : g.Lonely e) (hw : w'.topics = w.topics) (hE' : w'.eps e = some E') (hs : E'.subscriptions = E.subscriptions)
    (hp : E'.publications = E.publications) : SigSlots.disconnect w' e = .ub := by
  obtain ⟨k1, k2, k3, k4, k5, k6, k7⟩ := hR.ep e E hE
  obtain ⟨t, hp', hs', honly⟩ := hlone
  obtain ⟨T, hT⟩ := hR.sub_topic hs'
  obtain ⟨t1, t2, t3, t4, -⟩ := hR.topic t T hT
  exact disconnect_ub w' e E' hE' (by rw [hs]; exact k3) (by rw [hp]; exact k5)
    (fun u hu => by
      rw [hs] at hu
      obtain ⟨U, hU⟩ := hR.sub_topic ((k4 u).1 hu)
      simp [hw, hU])
    t T (by rw [hw]; exact hT) t1 t2 (by rw [hs]; exact (k4 t).2 hs') (by rw [hp]; exact (k6 t).2 hp')
    (fun x hx => honly x (hx.imp (t3 x).1 (t4 x).1))

theorem step_ub {w : World} {g : Wiring} (hR : Rel w g) (op : SigSlots.Op) (hp : g.Plain op) (hl : ¬ g.Legal op) :
    SigSlots.step w op = .ub := by
  cases op with
  | newSignal h => exact absurd hp hl
  | newSlot h => exact absurd hp hl
  | assign h k => exact hp.elim
  | copy h k =>
    have : ¬ ∃ e, g.At k e := fun hk => hl ⟨hp, hk⟩
    simp only [SigSlots.step, SigSlots.copy, no_handle hR this]
  | connect h t => simp only [SigSlots.step, onHandle, no_handle hR hl]
  | subscribe h t => simp only [SigSlots.step, onHandle, no_handle hR hl]
  | disconnect h =>
    by_cases hh : ∃ e, g.At h e
    · obtain ⟨e, he⟩ := hh
      obtain ⟨h1, E, hE⟩ := hR.at_handle he
      have hlone : g.Lonely e := by
        by_contra hc
        exact hl ⟨e, he, hc⟩
      simp only [SigSlots.step, onHandle, h1]
      exact lonely_ub hR hE hlone rfl hE rfl rfl
    · simp only [SigSlots.step, onHandle, no_handle hR hh]
  | destroy h =>
    by_cases hh : ∃ e, g.At h e
    · obtain ⟨e, he⟩ := hh
      obtain ⟨h1, E, hE⟩ := hR.at_handle he
      have hc : ¬ ((∀ k, g.At k e → k = h) → ¬ g.Lonely e) := fun hc => hl ⟨e, he, hc⟩
      have hsole : ∀ k, g.At k e → k = h := by
        by_contra hn
        exact hc fun h' => (hn h').elim
      have hlone : g.Lonely e := by
        by_contra hn
        exact hc fun _ => hn
      have hone : E.handles = 1 := by
        rw [(hR.ep e E hE).2.1]
        have f1 := countP_filter_key g.handles hR.keys h e e he
        have f2 : ¬ 0 < (g.handles.filter fun p => p.1 ≠ h).countP (fun p => p.2 = e) := by
          rw [countP_alive]
          rintro ⟨k, hk⟩
          rw [List.mem_filter] at hk
          have := hsole k hk.1
          simp [this] at hk
        have f3 := (countP_alive g.handles e).2 ⟨h, he⟩
        rw [if_pos rfl] at f1
        omega
      simp only [SigSlots.step, SigSlots.destroy, h1, hE, hone]
      have hd := lonely_ub (w' := { w with handles := w.handles.filter fun p => p.1 ≠ h, eps := upd w.eps e (some { E with handles := 0 }) })
        hR hE hlone rfl (E' := { E with handles := 0 }) (by simp [upd]) rfl rfl
      rw [if_pos (by decide), SigSlots.delete]
      erw [hd]
      rfl
    · simp only [SigSlots.step, SigSlots.destroy, no_handle hR hh]

end C31

/-- **C31**: a history without assignments, in which new handles get new names, is undefined exactly if it uses a handle that
does not exist, or disconnects or deletes an endpoint that is the only publisher and the only subscriber of a topic; no call
throws. -/
theorem C31_decided (ops : List SigSlots.Op) (hp : Wiring.empty.AllPlain ops) :
    (Wiring.empty.AllLegal ops → ∃ w, SigSlots.run World.empty ops = .ok w) ∧
    (¬ Wiring.empty.AllLegal ops → SigSlots.run World.empty ops = .ub) := by
  refine ⟨fun hl => ?_, ?_⟩
  · obtain ⟨w, h1, -⟩ := Rel.run ops Rel.empty hl
    exact ⟨w, h1⟩
  · have gen : ∀ (ops : List SigSlots.Op) (w : World) (g : Wiring), Rel w g → g.AllPlain ops → ¬ g.AllLegal ops →
        SigSlots.run w ops = .ub := by
      intro ops
      induction ops with
      | nil => intro w g _ _ hl; exact (hl trivial).elim
      | cons o os ih =>
        intro w g hR hp hl
        by_cases ho : g.Legal o
        · obtain ⟨w', h1, h2⟩ := hR.step o ho
          rw [SigSlots.run, h1, Outcome.bind_ok]
          exact ih w' _ h2 hp.2 fun h => hl ⟨ho, h⟩
        · rw [SigSlots.run, C31.step_ub hR o hp.1 ho]
          rfl
    exact gen ops _ _ Rel.empty hp

/-- A handle that was destroyed is connected. -/
example : SigSlots.run World.empty [.newSlot 0, .copy 1 0, .destroy 0, .connect 0 "a"] = .ub := by
  refine (C31_decided _ ?_).2 ?_
  · simp [Wiring.AllPlain, Wiring.Plain, Wiring.empty, Wiring.after, Wiring.At]
  · simp [Wiring.AllLegal, Wiring.Legal, Wiring.empty, Wiring.after, Wiring.At, Wiring.cut]

end Ecl.Props
