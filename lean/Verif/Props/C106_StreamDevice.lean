import Verif.Spec.StreamDevice

/-!
# C106: text streams report the failures of their device
-/
set_option autoImplicit false
set_option linter.unusedSimpArgs false

namespace Ecl.Props.C106
open Ecl Ecl.StreamDevice Ecl.Spec

/-- Reads none of which failed. -/
def Clean (dev rest : Dev) : Prop := ∃ used, dev = used ++ rest ∧ .failed ∉ used

theorem Clean.refl (dev : Dev) : Clean dev dev := ⟨[], rfl, by simp⟩

theorem Clean.byte {c : Char} {ds rest : Dev} (h : Clean ds rest) : Clean (.byte c :: ds) rest := by
  obtain ⟨u, h1, h2⟩ := h
  exact ⟨.byte c :: u, by simp [h1], by simp [h2]⟩

theorem Clean.nothing {ds rest : Dev} (h : Clean ds rest) : Clean (.nothing :: ds) rest := by
  obtain ⟨u, h1, h2⟩ := h
  exact ⟨.nothing :: u, by simp [h1], by simp [h2]⟩

theorem Clean.reported {dev mid rest : Dev} {err : Flag} (h : Clean dev mid) (h' : Reported err mid rest) :
    Reported err dev rest := by
  obtain ⟨u, rfl, h2⟩ := h
  obtain ⟨v, rfl, h4⟩ := h'
  refine ⟨u ++ v, by simp, fun hm => ?_⟩
  rcases List.mem_append.1 hm with hm | hm
  · exact absurd hm h2
  · exact h4 hm

theorem Clean.rep {dev rest : Dev} {err : Flag} (h : Clean dev rest) : Reported err dev rest := by
  obtain ⟨u, h1, h2⟩ := h
  exact ⟨u, h1, fun hm => absurd hm h2⟩

/-- A read error is reported, whatever was read. -/
theorem rep_error {dev rest : Dev} (h : rest <:+ dev) : Reported .readError dev rest := by
  obtain ⟨u, h⟩ := h
  exact ⟨u, h.symm, fun _ => rfl⟩

theorem skip_spec : ∀ (dev : Dev) (c : Char), (skip c dev).2.2 <:+ dev ∧ ((skip c dev).1 = true → Clean dev (skip c dev).2.2)
  | [], c => ⟨List.suffix_refl _, by simp [skip]⟩
  | .byte d :: ds, c => by
    simp only [skip]
    split
    · have := skip_spec ds d
      exact ⟨this.1.trans (List.suffix_cons _ _), fun h => (this.2 h).byte⟩
    · exact ⟨List.suffix_cons _ _, fun _ => (Clean.refl _).byte⟩
  | .nothing :: ds, c => ⟨List.suffix_cons _ _, by simp [skip]⟩
  | .failed :: ds, c => ⟨List.suffix_cons _ _, by simp [skip]⟩

theorem digitLoop_spec : ∀ (room : Nat) (dev : Dev) (c : Char), (digitLoop c dev room).2 <:+ dev ∧
    (∀ r, (digitLoop c dev room).1 = some r → Clean dev (digitLoop c dev room).2)
  | 0, dev, c => by simp only [digitLoop]; exact ⟨List.suffix_refl _, fun _ _ => Clean.refl _⟩
  | room + 1, [], c => by simp only [digitLoop]; exact ⟨List.suffix_refl _, fun _ _ => Clean.refl _⟩
  | room + 1, .byte d :: ds, c => by
    have ih := digitLoop_spec room ds d
    simp only [digitLoop]
    split
    · refine ⟨ih.1.trans (List.suffix_cons _ _), fun r h => ?_⟩
      simp only [Option.map_eq_some_iff] at h
      obtain ⟨q, hq, _⟩ := h
      exact (ih.2 q hq).byte
    · exact ⟨List.suffix_refl _, fun _ _ => Clean.refl _⟩
  | room + 1, .nothing :: ds, c => by
    simp only [digitLoop]
    split
    · exact ⟨List.suffix_cons _ _, fun _ _ => (Clean.refl _).nothing⟩
    · exact ⟨List.suffix_refl _, fun _ _ => Clean.refl _⟩
  | room + 1, .failed :: ds, c => by
    simp only [digitLoop]
    split
    · exact ⟨List.suffix_cons _ _, by simp⟩
    · exact ⟨List.suffix_refl _, fun _ _ => Clean.refl _⟩

theorem hexLoop_spec : ∀ (room : Nat) (dev : Dev), (hexLoop dev room).2 <:+ dev ∧
    (∀ r, (hexLoop dev room).1 = some r → Clean dev (hexLoop dev room).2)
  | 0, dev => by simp only [hexLoop]; exact ⟨List.suffix_refl _, fun _ _ => Clean.refl _⟩
  | room + 1, [] => by simp only [hexLoop]; exact ⟨List.suffix_refl _, fun _ _ => Clean.refl _⟩
  | room + 1, .byte c :: ds => by
    have ih := hexLoop_spec room ds
    simp only [hexLoop]
    cases Conv.hexDigit c with
    | none => exact ⟨List.suffix_cons _ _, fun _ _ => (Clean.refl _).byte⟩
    | some d =>
      refine ⟨ih.1.trans (List.suffix_cons _ _), fun r h => ?_⟩
      simp only [Option.map_eq_some_iff] at h
      obtain ⟨q, hq, _⟩ := h
      exact (ih.2 q hq).byte
  | room + 1, .nothing :: ds => by
    simp only [hexLoop]; exact ⟨List.suffix_cons _ _, fun _ _ => (Clean.refl _).nothing⟩
  | room + 1, .failed :: ds => by simp only [hexLoop]; exact ⟨List.suffix_cons _ _, by simp⟩

theorem fracLoop_spec : ∀ (room : Nat) (dev : Dev) (c : Char), (fracLoop c dev room).2 <:+ dev ∧
    (∀ r, (fracLoop c dev room).1 = some r → Clean dev (fracLoop c dev room).2)
  | 0, dev, c => by simp only [fracLoop]; exact ⟨List.suffix_refl _, fun _ _ => Clean.refl _⟩
  | room + 1, [], c => by simp only [fracLoop]; exact ⟨List.suffix_refl _, fun _ _ => Clean.refl _⟩
  | room + 1, .byte d :: ds, c => by
    have ih := fracLoop_spec room ds d
    simp only [fracLoop]
    split
    · refine ⟨ih.1.trans (List.suffix_cons _ _), fun r h => ?_⟩
      simp only [Option.map_eq_some_iff] at h
      obtain ⟨q, hq, _⟩ := h
      exact (ih.2 q hq).byte
    · exact ⟨List.suffix_refl _, fun _ _ => Clean.refl _⟩
  | room + 1, .nothing :: ds, c => by
    simp only [fracLoop]
    split
    · exact ⟨List.suffix_cons _ _, fun _ _ => (Clean.refl _).nothing⟩
    · exact ⟨List.suffix_refl _, fun _ _ => Clean.refl _⟩
  | room + 1, .failed :: ds, c => by
    simp only [fracLoop]
    split
    · exact ⟨List.suffix_cons _ _, by simp⟩
    · exact ⟨List.suffix_refl _, fun _ _ => Clean.refl _⟩

/-- What is to be shown of an extraction: failures are reported, and the variable has its value or, after an error, one of the
two given. -/
def Good {α : Type} (old zero : α) (dev : Dev) (g : Ext α) : Prop :=
  Reported g.err dev g.rest ∧ (g.err = .noError ∨ g.val = old ∨ g.val = zero)

theorem Good.mono {α : Type} {old zero : α} {dev mid : Dev} {g : Ext α} (h : Clean dev mid) (hg : Good old zero mid g) :
    Good old zero dev g := ⟨h.reported hg.1, hg.2⟩

theorem parseHex_good (t : TextStream.ITy) (old : Int) (dev : Dev) : Good old 0 dev (parseHex t dev) := by
  have h := hexLoop_spec 25 dev
  unfold parseHex
  generalize hexLoop dev 25 = r at h
  obtain ⟨o, rest⟩ := r
  cases o with
  | none => exact ⟨rep_error h.1, .inr (.inr rfl)⟩
  | some ds =>
    have hc := h.2 ds rfl
    dsimp only at hc ⊢
    split
    · exact ⟨hc.rep, .inr (.inr rfl)⟩
    · cases TextStream.hexAccum 0 ds with
      | none => exact ⟨hc.rep, .inr (.inr rfl)⟩
      | some n => exact ⟨hc.rep, .inl rfl⟩

theorem finishInt_good (t : TextStream.ITy) (sign old : Int) (c : Char) (dev : Dev) :
    Good old 0 dev (finishInt t sign old c dev) := by
  have h := digitLoop_spec 25 dev c
  unfold finishInt
  generalize digitLoop c dev 25 = r at h
  obtain ⟨o, rest⟩ := r
  cases o with
  | none => exact ⟨rep_error h.1, .inr (.inl rfl)⟩
  | some ds =>
    have hc := h.2 ds rfl
    dsimp only at hc ⊢
    split
    · exact ⟨hc.rep, .inr (.inl rfl)⟩
    · cases TextStream.accum (t.max / 10) 0 ds with
      | none => exact ⟨hc.rep, .inr (.inl rfl)⟩
      | some n => exact ⟨hc.rep, .inl rfl⟩

theorem finishFloat_good (sign old : Rat) (c : Char) (dev : Dev) : Good old old dev (finishFloat sign old c dev) := by
  have h := fracLoop_spec 25 dev c
  unfold finishFloat
  generalize fracLoop c dev 25 = r at h
  obtain ⟨o, rest⟩ := r
  cases o with
  | none => exact ⟨rep_error h.1, .inr (.inl rfl)⟩
  | some q =>
    have hc := h.2 q rfl
    obtain ⟨ds, e⟩ := q
    dsimp only at hc ⊢
    split
    · cases rest with
      | nil => exact ⟨rep_error h.1, .inr (.inl rfl)⟩
      | cons r rest =>
        cases r with
        | nothing => exact ⟨rep_error ((List.suffix_cons _ _).trans h.1), .inr (.inl rfl)⟩
        | failed => exact ⟨rep_error ((List.suffix_cons _ _).trans h.1), .inr (.inl rfl)⟩
        | byte d =>
          have h2 := fracLoop_spec 25 rest d
          dsimp only
          generalize fracLoop d rest 25 = p at h2
          obtain ⟨o, rest'⟩ := p
          cases o with
          | none => exact ⟨rep_error (h2.1.trans ((List.suffix_cons _ _).trans h.1)), .inr (.inl rfl)⟩
          | some q =>
            have hc2 := h2.2 q rfl
            obtain ⟨qs, e'⟩ := q
            dsimp only at hc2 ⊢
            have hr : ∀ err, Reported err dev rest' := fun err => hc.reported (hc2.byte.rep)
            split
            · exact ⟨hr _, .inr (.inl rfl)⟩
            · exact ⟨hr _, .inl rfl⟩
    · split
      · exact ⟨hc.rep, .inr (.inl rfl)⟩
      · exact ⟨hc.rep, .inl rfl⟩

theorem getInt_good (t : TextStream.ITy) (old : Int) (dev : Dev) : Good old 0 dev (getInt t old dev) := by
  have h := skip_spec dev ' '
  unfold getInt
  generalize skip ' ' dev = r at h
  obtain ⟨ok, c, ds⟩ := r
  cases ok with
  | false => exact ⟨rep_error h.1, .inr (.inl rfl)⟩
  | true =>
    have hc := h.2 rfl
    have hs := h.1
    dsimp only at hc hs ⊢
    simp only [if_true]
    have sgn : ∀ sign : Int, Good old 0 dev (afterSign old (finishInt t sign old) ds) := by
      intro sign
      cases ds with
      | nil => exact ⟨rep_error hs, .inr (.inl rfl)⟩
      | cons r ds =>
        cases r with
        | byte d => exact Good.mono hc (Good.mono (Clean.refl _).byte (finishInt_good t sign old d ds))
        | nothing => exact ⟨rep_error ((List.suffix_cons _ _).trans hs), .inr (.inl rfl)⟩
        | failed => exact ⟨rep_error ((List.suffix_cons _ _).trans hs), .inr (.inl rfl)⟩
    split
    · split
      · exact sgn (-1)
      · exact (finishInt_good t 1 old c ds).mono hc
    split
    · exact sgn 1
    split
    · cases ds with
      | nil => exact ⟨hc.rep, .inl rfl⟩
      | cons r ds =>
        cases r with
        | nothing => exact ⟨hc.reported (Clean.refl _).nothing.rep, .inl rfl⟩
        | failed => exact ⟨rep_error ((List.suffix_cons _ _).trans hs), .inr (.inl rfl)⟩
        | byte d =>
          dsimp only
          have hd : Clean (.byte d :: ds) ds := (Clean.refl _).byte
          split
          · exact ⟨hc.reported hd.rep, .inl rfl⟩
          split
          · exact ((parseHex_good t old ds).mono hd).mono hc
          · exact ((finishInt_good t 1 old d ds).mono hd).mono hc
    split
    · exact (parseHex_good t old ds).mono hc
    · exact (finishInt_good t 1 old c ds).mono hc

theorem getFloat_good (old : Rat) (dev : Dev) : Good old old dev (getFloat old dev) := by
  have h := skip_spec dev ' '
  unfold getFloat
  generalize skip ' ' dev = r at h
  obtain ⟨ok, c, ds⟩ := r
  cases ok with
  | false => exact ⟨rep_error h.1, .inr (.inl rfl)⟩
  | true =>
    have hc := h.2 rfl
    have hs := h.1
    dsimp only at hc hs ⊢
    simp only [if_true]
    have sgn : ∀ sign : Rat, Good old old dev (afterSign old (finishFloat sign old) ds) := by
      intro sign
      cases ds with
      | nil => exact ⟨rep_error hs, .inr (.inl rfl)⟩
      | cons r ds =>
        cases r with
        | byte d => exact Good.mono hc (Good.mono (Clean.refl _).byte (finishFloat_good sign old d ds))
        | nothing => exact ⟨rep_error ((List.suffix_cons _ _).trans hs), .inr (.inl rfl)⟩
        | failed => exact ⟨rep_error ((List.suffix_cons _ _).trans hs), .inr (.inl rfl)⟩
    split
    · exact sgn (-1)
    split
    · exact sgn 1
    · exact (finishFloat_good 1 old c ds).mono hc

/-! ## Text that arrives without pauses -/

/-- The text goes on, or nothing comes after it. -/
def More (rest : List Char) (tail : Dev) : Prop := tail = [] ∨ rest ≠ []

theorem skip_text : ∀ (t : List Char) (c : Char) (tail : Dev),
    (∀ d ds, TextStream.skip t = some (d, ds) → skip c (arriving t ++ tail) = (true, d, arriving ds ++ tail)) ∧
    (TextStream.skip t = none → tail = [] → (skip c (arriving t)).1 = false ∧ (skip c (arriving t)).2.2 = [])
  | [], c, tail => by simp [TextStream.skip, arriving, skip]
  | e :: t, c, tail => by
    have ih := skip_text t e tail
    simp only [TextStream.skip, arriving, List.map_cons, List.cons_append, skip]
    split
    · exact ih
    · simp

theorem digitLoop_text : ∀ (room : Nat) (t : List Char) (c : Char) (tail : Dev),
    More (TextStream.digitLoop c t room).2 tail →
    digitLoop c (arriving t ++ tail) room =
      (some (TextStream.digitLoop c t room).1, arriving (TextStream.digitLoop c t room).2 ++ tail)
  | 0, t, c, tail, _ => by cases t <;> simp [TextStream.digitLoop, digitLoop]
  | room + 1, [], c, tail, h => by
    have : tail = [] := by
      rcases h with h | h
      · exact h
      · exfalso; apply h; simp only [TextStream.digitLoop]; split <;> rfl
    subst this
    simp only [TextStream.digitLoop, arriving, List.map_nil, List.append_nil, digitLoop]
    split <;> simp
  | room + 1, d :: t, c, tail, h => by
    simp only [TextStream.digitLoop] at h ⊢
    simp only [arriving, List.map_cons, List.cons_append, digitLoop]
    split
    · rename_i hd
      simp only [hd, if_true] at h
      have ih := digitLoop_text room t d tail h
      simp only [arriving] at ih
      rw [ih]
      simp
    · simp

theorem finishInt_text (t : TextStream.ITy) (sign old : Int) (c : Char) (x : List Char) (tail : Dev)
    (h : More (TextStream.finishInt t sign old c x).rest tail) :
    finishInt t sign old c (arriving x ++ tail) =
      ⟨(TextStream.finishInt t sign old c x).val, (TextStream.finishInt t sign old c x).err,
        arriving (TextStream.finishInt t sign old c x).rest ++ tail⟩ := by
  have hr : (TextStream.finishInt t sign old c x).rest = (TextStream.digitLoop c x 25).2 := by
    unfold TextStream.finishInt
    dsimp only
    split
    · rfl
    · split <;> rfl
  rw [hr] at h ⊢
  have k := digitLoop_text 25 x c tail h
  unfold finishInt TextStream.finishInt
  rw [k]
  dsimp only
  split
  · rfl
  · cases TextStream.accum (t.max / 10) 0 (TextStream.digitLoop c x 25).1 <;> rfl

theorem hexLoop_text : ∀ (room : Nat) (t : List Char) (tail : Dev), More (TextStream.hexLoop t room).2 tail →
    hexLoop (arriving t ++ tail) room = (some (TextStream.hexLoop t room).1, arriving (TextStream.hexLoop t room).2 ++ tail)
  | 0, t, tail, _ => by cases t <;> simp [TextStream.hexLoop, hexLoop]
  | room + 1, [], tail, h => by
    have : tail = [] := by
      rcases h with h | h
      · exact h
      · exact absurd rfl h
    subst this
    rfl
  | room + 1, c :: t, tail, h => by
    simp only [TextStream.hexLoop] at h ⊢
    simp only [arriving, List.map_cons, List.cons_append, hexLoop]
    cases hd : Conv.hexDigit c with
    | none => simp
    | some d =>
      simp only [hd] at h
      have ih := hexLoop_text room t tail h
      simp only [arriving] at ih
      simp only [ih]
      simp

theorem parseHex_text (t : TextStream.ITy) (x : List Char) (tail : Dev) (h : More (TextStream.parseHex t x).rest tail) :
    parseHex t (arriving x ++ tail) =
      ⟨(TextStream.parseHex t x).val, (TextStream.parseHex t x).err, arriving (TextStream.parseHex t x).rest ++ tail⟩ := by
  have hr : (TextStream.parseHex t x).rest = (TextStream.hexLoop x 25).2 := by
    unfold TextStream.parseHex
    dsimp only
    split
    · rfl
    · split <;> rfl
  rw [hr] at h ⊢
  have k := hexLoop_text 25 x tail h
  unfold parseHex TextStream.parseHex
  rw [k]
  dsimp only
  split
  · rfl
  · cases TextStream.hexAccum 0 (TextStream.hexLoop x 25).1 <;> rfl

theorem getInt_text (t : TextStream.ITy) (old : Int) (x : List Char) (tail : Dev)
    (h : More (TextStream.getInt t old x).rest tail) :
    getInt t old (arriving x ++ tail) =
      ⟨(TextStream.getInt t old x).val, (TextStream.getInt t old x).err,
        arriving (TextStream.getInt t old x).rest ++ tail⟩ := by
  have ks := skip_text x ' ' tail
  unfold TextStream.getInt at h ⊢
  unfold getInt
  cases e : TextStream.skip x with
  | none =>
    rw [e] at h
    have ht : tail = [] := by
      rcases h with h | h
      · exact h
      · exact absurd rfl h
    subst ht
    have := ks.2 e rfl
    simp only [List.append_nil, this, Bool.false_eq_true, if_false]
    rfl
  | some q =>
    obtain ⟨c, ds⟩ := q
    rw [e] at h
    have := ks.1 c ds e
    simp only [this, if_true]
    dsimp only at h ⊢
    have sgn : ∀ sign : Int,
        More (match ds with
          | [] => (⟨old, .readError, []⟩ : TextStream.Got Int)
          | d :: ds => TextStream.finishInt t sign old d ds).rest tail →
        afterSign old (finishInt t sign old) (arriving ds ++ tail) =
        (⟨(match ds with
          | [] => (⟨old, .readError, []⟩ : TextStream.Got Int)
          | d :: ds => TextStream.finishInt t sign old d ds).val,
          (match ds with
          | [] => (⟨old, .readError, []⟩ : TextStream.Got Int)
          | d :: ds => TextStream.finishInt t sign old d ds).err,
          arriving (match ds with
          | [] => (⟨old, .readError, []⟩ : TextStream.Got Int)
          | d :: ds => TextStream.finishInt t sign old d ds).rest ++ tail⟩ : Ext Int) := by
      intro sign h
      cases ds with
      | nil =>
        have ht : tail = [] := by
          rcases h with h | h
          · exact h
          · exact absurd rfl h
        subst ht
        rfl
      | cons d ds => exact finishInt_text t sign old d ds tail h
    by_cases h1 : c = '-'
    · simp only [h1, if_true] at h ⊢
      cases hs : t.signed with
      | true => simp only [hs, if_true] at h ⊢; exact sgn (-1) h
      | false =>
        simp only [hs, Bool.false_eq_true, if_false] at h ⊢
        exact finishInt_text t 1 old '-' ds tail h
    simp only [h1, if_false] at h ⊢
    by_cases h2 : c = '+'
    · simp only [h2, if_true] at h ⊢
      exact sgn 1 h
    simp only [h2, if_false] at h ⊢
    by_cases h3 : c = '0'
    · simp only [h3, if_true] at h ⊢
      cases ds with
      | nil =>
        have ht : tail = [] := by
          rcases h with h | h
          · exact h
          · exact absurd rfl h
        subst ht
        rfl
      | cons d ds =>
        dsimp only at h
        simp only [arriving, List.map_cons, List.cons_append]
        by_cases h4 : TextStream.blank d = true
        · simp only [h4, if_true]
        · simp only [h4, if_false] at h ⊢
          by_cases h5 : d = 'x'
          · simp only [h5, if_true] at h ⊢
            exact parseHex_text t ds tail h
          · simp only [h5, if_false] at h ⊢
            exact finishInt_text t 1 old d ds tail h
    simp only [h3, if_false] at h ⊢
    by_cases h6 : c = 'x'
    · simp only [h6, if_true] at h ⊢
      exact parseHex_text t ds tail h
    · simp only [h6, if_false] at h ⊢
      exact finishInt_text t 1 old c ds tail h

theorem wordLoop_text : ∀ (t : List Char) (c : Char) (tail : Dev), More (TextStream.wordLoop c t).2 tail →
    wordLoop c (arriving t ++ tail) = ((TextStream.wordLoop c t).1, arriving (TextStream.wordLoop c t).2 ++ tail)
  | [], c, tail, h => by
    have ht : tail = [] := by
      rcases h with h | h
      · exact h
      · exact absurd rfl h
    subst ht
    rfl
  | d :: t, c, tail, h => by
    simp only [TextStream.wordLoop] at h ⊢
    simp only [arriving, List.map_cons, List.cons_append, wordLoop]
    split
    · rfl
    · rename_i hd
      simp only [hd, if_false] at h
      have ih := wordLoop_text t d tail h
      simp only [arriving] at ih
      rw [ih]

theorem getWord_text (old x : List Char) (tail : Dev) (h : More (TextStream.getWord old x).rest tail) :
    getWord old (arriving x ++ tail) =
      ⟨(TextStream.getWord old x).val, (TextStream.getWord old x).err, arriving (TextStream.getWord old x).rest ++ tail⟩ := by
  have ks := skip_text x ' ' tail
  unfold TextStream.getWord at h ⊢
  unfold getWord
  cases e : TextStream.skip x with
  | none =>
    rw [e] at h
    have ht : tail = [] := by
      rcases h with h | h
      · exact h
      · exact absurd rfl h
    subst ht
    have := ks.2 e rfl
    simp only [List.append_nil, this, Bool.false_eq_true, if_false]
    rfl
  | some q =>
    obtain ⟨c, ds⟩ := q
    rw [e] at h
    have := ks.1 c ds e
    simp only [this, if_true]
    dsimp only at h ⊢
    rw [wordLoop_text ds c tail h]

theorem fracLoop_text : ∀ (room : Nat) (t : List Char) (c : Char) (tail : Dev),
    More (TextStream.fracLoop c t room).2.2 tail →
    fracLoop c (arriving t ++ tail) room =
      (some ((TextStream.fracLoop c t room).1, (TextStream.fracLoop c t room).2.1),
        arriving (TextStream.fracLoop c t room).2.2 ++ tail)
  | 0, t, c, tail, _ => by cases t <;> simp [TextStream.fracLoop, fracLoop]
  | room + 1, [], c, tail, h => by
    have ht : tail = [] := by
      rcases h with h | h
      · exact h
      · exact absurd rfl h
    subst ht
    rfl
  | room + 1, d :: t, c, tail, h => by
    simp only [TextStream.fracLoop] at h ⊢
    simp only [arriving, List.map_cons, List.cons_append, fracLoop]
    split
    · rename_i hd
      simp only [hd, if_true] at h
      have ih := fracLoop_text room t d tail h
      simp only [arriving] at ih
      rw [ih]
      simp
    · simp

theorem fracLoop_more : ∀ (room : Nat) (t : List Char) (c : Char), (TextStream.fracLoop c t room).2.2 <:+ t
  | 0, t, c => by cases t <;> simp [TextStream.fracLoop]
  | room + 1, [], c => by simp [TextStream.fracLoop]
  | room + 1, d :: t, c => by
    simp only [TextStream.fracLoop]
    split
    · exact (fracLoop_more room t d).trans (List.suffix_cons _ _)
    · exact List.suffix_refl _

theorem finishFloat_text (sign old : Rat) (c : Char) (x : List Char) (tail : Dev)
    (h : More (TextStream.finishFloat sign old c x).rest tail) :
    finishFloat sign old c (arriving x ++ tail) =
      ⟨(TextStream.finishFloat sign old c x).val, (TextStream.finishFloat sign old c x).err,
        arriving (TextStream.finishFloat sign old c x).rest ++ tail⟩ := by
  unfold TextStream.finishFloat at h ⊢
  dsimp only at h ⊢
  have m1 : More (TextStream.fracLoop c x 25).2.2 tail := by
    rcases h with h | h
    · exact .inl h
    · right
      intro e
      apply h
      simp only [e]
      split
      · rfl
      · split <;> rfl
  unfold finishFloat
  rw [fracLoop_text 25 x c tail m1]
  dsimp only
  by_cases h1 : (TextStream.fracLoop c x 25).2.1 = '.'
  · simp only [h1, if_true] at h ⊢
    cases e : (TextStream.fracLoop c x 25).2.2 with
    | nil =>
      rw [e] at m1
      have ht : tail = [] := by
        rcases m1 with h | h
        · exact h
        · exact absurd rfl h
      subst ht
      rfl
    | cons d ds =>
      rw [e] at h
      have m2 : More (TextStream.fracLoop d ds 25).2.2 tail := by
        rcases h with h | h
        · exact .inl h
        · right
          intro e
          apply h
          dsimp only
          simp only [e]
          split <;> rfl
      simp only [arriving, List.map_cons, List.cons_append]
      have k := fracLoop_text 25 ds d tail m2
      simp only [arriving] at k
      rw [k]
      dsimp only
      split <;> rfl
  · simp only [h1, if_false] at h ⊢
    split <;> rfl

theorem getFloat_text (old : Rat) (x : List Char) (tail : Dev) (h : More (TextStream.getFloat old x).rest tail) :
    getFloat old (arriving x ++ tail) =
      ⟨(TextStream.getFloat old x).val, (TextStream.getFloat old x).err,
        arriving (TextStream.getFloat old x).rest ++ tail⟩ := by
  have ks := skip_text x ' ' tail
  unfold TextStream.getFloat at h ⊢
  unfold getFloat
  cases e : TextStream.skip x with
  | none =>
    rw [e] at h
    have ht : tail = [] := by
      rcases h with h | h
      · exact h
      · exact absurd rfl h
    subst ht
    have := ks.2 e rfl
    simp only [List.append_nil, this, Bool.false_eq_true, if_false]
    rfl
  | some q =>
    obtain ⟨c, ds⟩ := q
    rw [e] at h
    have := ks.1 c ds e
    simp only [this, if_true]
    dsimp only at h ⊢
    have sgn : ∀ sign : Rat,
        More (match ds with
          | [] => (⟨old, .readError, []⟩ : TextStream.Got Rat)
          | d :: ds => TextStream.finishFloat sign old d ds).rest tail →
        afterSign old (finishFloat sign old) (arriving ds ++ tail) =
        (⟨(match ds with
          | [] => (⟨old, .readError, []⟩ : TextStream.Got Rat)
          | d :: ds => TextStream.finishFloat sign old d ds).val,
          (match ds with
          | [] => (⟨old, .readError, []⟩ : TextStream.Got Rat)
          | d :: ds => TextStream.finishFloat sign old d ds).err,
          arriving (match ds with
          | [] => (⟨old, .readError, []⟩ : TextStream.Got Rat)
          | d :: ds => TextStream.finishFloat sign old d ds).rest ++ tail⟩ : Ext Rat) := by
      intro sign h
      cases ds with
      | nil =>
        have ht : tail = [] := by
          rcases h with h | h
          · exact h
          · exact absurd rfl h
        subst ht
        rfl
      | cons d ds => exact finishFloat_text sign old d ds tail h
    by_cases h1 : c = '-'
    · simp only [h1, if_true] at h ⊢
      exact sgn (-1) h
    simp only [h1, if_false] at h ⊢
    by_cases h2 : c = '+'
    · simp only [h2, if_true] at h ⊢
      exact sgn 1 h
    simp only [h2, if_false] at h ⊢
    exact finishFloat_text 1 old c ds tail h

end Ecl.Props.C106

namespace Ecl.Props
open Ecl Ecl.StreamDevice Ecl.Spec C106

/-- **C106**: when a read of the device fails while an integer is read, of whatever type, the stream reports it; the variable is
left alone, or zero. -/
theorem C106_integers (t : TextStream.ITy) (old : Int) (dev : Dev) :
    Reported (getInt t old dev).err dev (getInt t old dev).rest ∧
    ((getInt t old dev).err ≠ .noError → (getInt t old dev).val = old ∨ (getInt t old dev).val = 0) := by
  have h := getInt_good t old dev
  refine ⟨h.1, fun he => ?_⟩
  rcases h.2 with h | h
  · exact absurd h he
  · exact h

/-- **C106**: likewise for floating point numbers; the variable is left alone. -/
theorem C106_floats (old : Rat) (dev : Dev) :
    Reported (getFloat old dev).err dev (getFloat old dev).rest ∧
    ((getFloat old dev).err ≠ .noError → (getFloat old dev).val = old) := by
  have h := getFloat_good old dev
  refine ⟨h.1, fun he => ?_⟩
  rcases h.2 with h | h | h
  · exact absurd h he
  · exact h
  · exact h

/-- **C106**: likewise for characters. -/
theorem C106_characters (raw : Bool) (old : Char) (dev : Dev) :
    Reported (getChar raw old dev).err dev (getChar raw old dev).rest := by
  unfold getChar
  cases raw with
  | true =>
    simp only [if_true]
    cases dev with
    | nil => exact rep_error (List.suffix_refl _)
    | cons r ds =>
      cases r with
      | byte c => exact (Clean.refl _).byte.rep
      | nothing => exact rep_error (List.suffix_cons _ _)
      | failed => exact rep_error (List.suffix_cons _ _)
  | false =>
    simp only [Bool.false_eq_true, if_false]
    have h := skip_spec dev old
    cases e : (skip old dev).1 with
    | true => exact (h.2 e).rep
    | false => exact rep_error h.1

example : (getInt .int 7 [.byte '4', .byte '2', .failed, .byte ' ']).err = .readError ∧
    (getInt .int 7 [.byte '4', .byte '2', .failed, .byte ' ']).rest = [.byte ' '] := by decide +kernel
example : (getFloat 7 [.byte '4', .byte '.', .byte '2', .failed]).err = .readError := by decide +kernel

/-- **C106** fails: a failure in the middle of a word is not reported, and the beginning of the word is taken for the word. -/
theorem C106_fails_word (old : List Char) (w : List Char) (hw : w ≠ []) (hb : ∀ c ∈ w, TextStream.blank c = false)
    (rest : Dev) : getWord old (arriving w ++ .failed :: rest) = ⟨w, .noError, rest⟩ := by
  have loop : ∀ (w : List Char) (c : Char), (∀ c ∈ w, TextStream.blank c = false) →
      wordLoop c (arriving w ++ .failed :: rest) = (c :: w, rest) := by
    intro w
    induction w with
    | nil => intro c _; rfl
    | cons d w ih =>
      intro c h
      have hd := h d (by simp)
      have := ih d (fun c hc => h c (by simp [hc]))
      simp only [arriving] at this
      simp only [arriving, List.map_cons, List.cons_append, wordLoop, hd, Bool.false_eq_true, if_false, this]
  cases w with
  | nil => exact absurd rfl hw
  | cons c w =>
    have hc := hb c (by simp)
    have := loop w c (fun d hd => hb d (by simp [hd]))
    simp only [arriving] at this
    simp only [getWord, arriving, List.map_cons, List.cons_append, skip, hc, Bool.false_eq_true, if_false, if_true, this]

/-- **C106** fails: when the digits of a hexadecimal number cannot be read, the variable is changed all the same. -/
theorem C106_fails_kept (t : TextStream.ITy) (old : Int) (rest : Dev) :
    getInt t old (.byte '0' :: .byte 'x' :: .failed :: rest) = ⟨0, .readError, rest⟩ := rfl

/-- **C106** fails: when the device pauses within a number, the stream takes what has come so far for the number and reports no
error. -/
theorem C106_fails_pause (old : Int) (rest : Dev) :
    getInt .int old (.byte '1' :: .byte '2' :: .nothing :: .byte '3' :: rest) = ⟨12, .noError, .byte '3' :: rest⟩ := rfl

/-- **C106** fails: of a floating point number even the last digit before the pause is lost. -/
theorem C106_fails_pause_float (old : Rat) (rest : Dev) :
    (getFloat old (.byte '1' :: .byte '2' :: .nothing :: .byte '3' :: rest)).val = 1 ∧
    (getFloat old (.byte '1' :: .byte '2' :: .nothing :: .byte '3' :: rest)).err = .noError := by
  have e : getFloat old (.byte '1' :: .byte '2' :: .nothing :: .byte '3' :: rest) =
      ⟨1 * TextStream.intSum 0 ['1'], .noError, .byte '3' :: rest⟩ := rfl
  rw [e]
  refine ⟨?_, rfl⟩
  show 1 * TextStream.intSum 0 ['1'] = 1
  decide +kernel

/-- **C106** (partial): what comes later, pauses and failures included, does not matter to what is read from a text that has
arrived, if the text goes on after it: integers. -/
theorem C106_integer_partial (t : TextStream.ITy) (old : Int) (x : List Char) (tail : Dev)
    (h : tail = [] ∨ (TextStream.getInt t old x).rest ≠ []) :
    (getInt t old (arriving x ++ tail)).val = (TextStream.getInt t old x).val ∧
    (getInt t old (arriving x ++ tail)).err = (TextStream.getInt t old x).err ∧
    (getInt t old (arriving x ++ tail)).rest = arriving (TextStream.getInt t old x).rest ++ tail := by
  rw [getInt_text t old x tail h]
  exact ⟨rfl, rfl, rfl⟩

/-- **C106** (partial): floating point numbers. -/
theorem C106_float_partial (old : Rat) (x : List Char) (tail : Dev)
    (h : tail = [] ∨ (TextStream.getFloat old x).rest ≠ []) :
    (getFloat old (arriving x ++ tail)).val = (TextStream.getFloat old x).val ∧
    (getFloat old (arriving x ++ tail)).err = (TextStream.getFloat old x).err ∧
    (getFloat old (arriving x ++ tail)).rest = arriving (TextStream.getFloat old x).rest ++ tail := by
  rw [getFloat_text old x tail h]
  exact ⟨rfl, rfl, rfl⟩

/-- **C106** (partial): words. -/
theorem C106_word_partial (old x : List Char) (tail : Dev) (h : tail = [] ∨ (TextStream.getWord old x).rest ≠ []) :
    (getWord old (arriving x ++ tail)).val = (TextStream.getWord old x).val ∧
    (getWord old (arriving x ++ tail)).err = (TextStream.getWord old x).err ∧
    (getWord old (arriving x ++ tail)).rest = arriving (TextStream.getWord old x).rest ++ tail := by
  rw [getWord_text old x tail h]
  exact ⟨rfl, rfl, rfl⟩

example : (TextStream.getInt .int 0 "42 7".toList).rest ≠ [] ∧ (TextStream.getWord [] "ab c".toList).rest ≠ [] ∧
    (TextStream.getFloat 0 "1.5 7".toList).rest ≠ [] := by decide +kernel

/-- **C106** fails: an error is forgotten by the next extraction: after `stream >> i >> s` on "a bc" nothing is reported. -/
theorem C106_fails_chain (old : Int) (w : List Char) :
    (getInt .int old (arriving "a bc".toList)).err = .conversionError ∧
    (getWord w (getInt .int old (arriving "a bc".toList)).rest).err = .noError := ⟨rfl, rfl⟩

/-- **C106** fails: in release builds a stream never reports that its device did not take a text, whether closed, failing or
full. -/
theorem C106_fails_output (s : Out) (h : s.err = .noError) (ws : List (List Char × Wr)) :
    ∃ s' obs, runOps (fun s w => Out.put .release s w.1 w.2) s ws = some (s', obs) ∧ s'.err = .noError := by
  induction ws generalizing s with
  | nil => exact ⟨s, [], rfl, h⟩
  | cons w ws ih =>
    obtain ⟨t, r⟩ := w
    have : ∃ s1, Out.put .release s t r = .ok s1 () ∧ s1.err = .noError := by
      cases r with
      | closed => exact ⟨s, rfl, h⟩
      | failed => exact ⟨s, rfl, h⟩
      | took n => exact ⟨_, rfl, h⟩
    obtain ⟨s1, h1, h2⟩ := this
    obtain ⟨s', obs, h3, h4⟩ := ih s1 h2
    exact ⟨s', .ok () :: obs, by simp [runOps, h1, h3], h4⟩

/-- **C106** (partial): in debug builds, if no call throws and the device takes texts whole or fails, the device has got all that
was written. -/
theorem C106_output_partial (s s' : Out) (ws : List (List Char × Wr)) (obs : List (Obs Unit))
    (hw : ∀ w ∈ ws, ∀ n, w.2 = .took n → w.1.length ≤ n)
    (h : runOps (fun s w => Out.put .debug s w.1 w.2) s ws = some (s', obs)) (ho : ∀ o ∈ obs, o = .ok ()) :
    s'.taken = s.taken ++ (ws.map (·.1)).flatten := by
  induction ws generalizing s obs with
  | nil =>
    simp only [runOps, Option.some.injEq, Prod.mk.injEq] at h
    simp [← h.1]
  | cons w ws ih =>
    obtain ⟨t, r⟩ := w
    cases r with
    | closed =>
      simp only [runOps, Out.put, Option.map_eq_some_iff] at h
      obtain ⟨⟨a, b⟩, _, h2⟩ := h
      simp only [Prod.mk.injEq] at h2
      have := ho (.error .openError) (by simp [← h2.2])
      cases this
    | failed =>
      simp only [runOps, Out.put, Option.map_eq_some_iff] at h
      obtain ⟨⟨a, b⟩, _, h2⟩ := h
      simp only [Prod.mk.injEq] at h2
      have := ho (.error .writeError) (by simp [← h2.2])
      cases this
    | took n =>
      simp only [runOps, Out.put, Option.map_eq_some_iff] at h
      obtain ⟨⟨a, b⟩, h1, h2⟩ := h
      simp only [Prod.mk.injEq] at h2
      have hn : t.take n = t := List.take_of_length_le (hw (t, .took n) (by simp) n rfl)
      have := ih _ b (fun w hm => hw w (by simp [hm])) (h2.1 ▸ h1) (fun o hm => ho o (by simp [← h2.2, hm]))
      rw [this, hn]
      simp

example : ∃ s obs, runOps (fun s w => Out.put .debug s w.1 w.2) ⟨.noError, []⟩ [("ab".toList, .took 2), ("c".toList, .took 9)] =
    some (s, obs) ∧ s.taken = "abc".toList ∧ ∀ o ∈ obs, o = .ok () := ⟨_, _, rfl, rfl, by simp⟩

end Ecl.Props
