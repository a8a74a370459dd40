import Verif.Lemmas.Pose

/-! # C62: poses compose like rigid motions -/
set_option autoImplicit false
set_option linter.unusedSimpArgs false

namespace Ecl.Props
open Ecl Ecl.Pose Ecl.Angle Ecl.Spec Real

/-! ## `concatenate_poses` and `extend_pose` -/

/-- **C62.** Concatenation is composition of motions; the heading is wrapped and is the sum of the
headings up to whole turns. -/
theorem C62_concatenate (a b : XYH) :
    (∀ q, move (concatenate a b).x (concatenate a b).y (concatenate a b).h q =
      move a.x a.y a.h (move b.x b.y b.h q)) ∧
    SameDirection (concatenate a b).h (a.h + b.h) ∧
    -π ≤ (concatenate a b).h ∧ (concatenate a b).h ≤ π := by
  have hs := wrap_same (a.h + b.h)
  refine ⟨?_, hs, (C51_wrap _).1, (C51_wrap _).2.1⟩
  rintro ⟨u, v⟩
  simp only [move, concatenate, hs.cos_eq, hs.sin_eq, cos_add, sin_add]
  ext
  · simp only; ring
  · simp only; ring

/-- **C62.** Concatenation is associative and has the zero pose as identity: the positions are equal,
the headings equal up to whole turns. -/
theorem C62_concatenate_laws (a b c : XYH) :
    (concatenate (concatenate a b) c).x = (concatenate a (concatenate b c)).x ∧
    (concatenate (concatenate a b) c).y = (concatenate a (concatenate b c)).y ∧
    SameDirection (concatenate (concatenate a b) c).h (concatenate a (concatenate b c)).h ∧
    (-π ≤ a.h → a.h ≤ π → concatenate a ⟨0, 0, 0⟩ = a ∧ concatenate ⟨0, 0, 0⟩ a = a) := by
  have hs := wrap_same (a.h + b.h)
  refine ⟨?_, ?_, ?_, ?_⟩
  · simp only [concatenate, hs.cos_eq, hs.sin_eq, cos_add, sin_add]; ring
  · simp only [concatenate, hs.cos_eq, hs.sin_eq, cos_add, sin_add]; ring
  · have h1 := (C62_concatenate (concatenate a b) c).2.1
    have h2 := (C62_concatenate a b).2.1
    have h3 := (C62_concatenate a (concatenate b c)).2.1
    have h4 := (C62_concatenate b c).2.1
    have e1 := sameDirection_trans h1 (h2.add (sameDirection_refl c.h))
    have e2 := sameDirection_trans h3 ((sameDirection_refl a.h).add h4)
    rw [add_assoc] at e1
    exact sameDirection_trans e1 e2.symm
  · intro h1 h2
    have hw := (C51_wrap a.h).2.2.2 h1 h2
    constructor <;> ext <;> simp [concatenate, hw]

/-- **C62.** `extend_pose` on two different objects is `concatenate_poses`. -/
theorem C62_extend_partial (pose ext : XYH) : extend false pose ext = concatenate pose ext := by
  simp [extend, concatenate]

/-- The agreement fails when both arguments are the same object, as in `pose *= pose`: the new x is
used to compute y. -/
theorem C62_fails_extend_self : ¬ (∀ pose : XYH, extend true pose pose = concatenate pose pose) := by
  intro h
  have := congrArg XYH.y (h ⟨0, 1, π / 2⟩)
  simp [extend, concatenate] at this

/-! ## `LegacyPose2D`, rotation matrix -/

/-- A pose whose matrix is a rotation. -/
def Proper (p : PoseM) : Prop := ∃ a, p.rot = rotationMatrix a

theorem proper_ext {p q : PoseM} (h : p.rot = q.rot) (hx : p.x = q.x) (hy : p.y = q.y) : p = q :=
  PoseM.ext h hx hy

/-- **C62.** Poses with a rotation matrix form a group: constructed poses, products and inverses are
proper, the product is associative, the default pose is the identity, the inverse is two-sided. -/
theorem C62_matrix_group (p q r : PoseM) (x y a : ℝ) (hp : Proper p) (hq : Proper q) :
    Proper (PoseM.make x y a) ∧ Proper PoseM.identity ∧ Proper (p.mul q) ∧ Proper p.inverse ∧
    (p.mul q).mul r = p.mul (q.mul r) ∧
    p.mul PoseM.identity = p ∧ PoseM.identity.mul p = p ∧
    p.mul p.inverse = PoseM.identity ∧ p.inverse.mul p = PoseM.identity := by
  obtain ⟨s, hs⟩ := hp
  obtain ⟨t, ht⟩ := hq
  refine ⟨⟨a, rfl⟩, ⟨0, by simp [PoseM.identity, rotationMatrix]⟩,
    ⟨s + t, by simp only [PoseM.mul, hs, ht, mulMat_rotation]⟩,
    ⟨-s, by simp only [PoseM.inverse, hs, transpose_rotation]⟩, ?_, ?_, ?_, ?_, ?_⟩
  · ext <;> simp only [PoseM.mul, mulMat] <;> ring
  · ext <;> simp [PoseM.mul, mulMat, PoseM.identity]
  · ext <;> simp [PoseM.mul, mulMat, PoseM.identity]
  · have h1 := sin_sq_add_cos_sq s
    ext <;> simp only [PoseM.mul, mulMat, PoseM.identity, PoseM.inverse, transpose, hs, rotationMatrix]
    · linear_combination h1
    · ring
    · ring
    · linear_combination h1
    · linear_combination (-p.x) * h1
    · linear_combination (-p.y) * h1
  · have h1 := sin_sq_add_cos_sq s
    ext <;> simp only [PoseM.mul, mulMat, PoseM.identity, PoseM.inverse, transpose, hs, rotationMatrix] <;> nlinarith

/-- **C62.** The product is composition of motions, `relative` recovers the increment, and headings add
up to whole turns. -/
theorem C62_matrix_motion (p q : PoseM) (hp : Proper p) (hq : Proper q) :
    (∀ v, move (p.mul q).x (p.mul q).y (p.mul q).heading v =
      move p.x p.y p.heading (move q.x q.y q.heading v)) ∧
    (p.mul q).relative p = q ∧ p.mul (q.relative p) = q ∧
    SameDirection (p.mul q).heading (p.heading + q.heading) := by
  have hpq := (C62_matrix_group p q q 0 0 0 hp hq).2.2.1
  have head : ∀ r : PoseM, ∀ a, r.rot = rotationMatrix a → SameDirection r.heading a := by
    intro r a h
    unfold PoseM.heading; rw [h]; exact (C51_rotation a).1
  obtain ⟨s, hs⟩ := hp
  obtain ⟨t, ht⟩ := hq
  have hst : (p.mul q).rot = rotationMatrix (s + t) := by simp only [PoseM.mul, hs, ht, mulMat_rotation]
  have d1 := head p s hs
  have d2 := head q t ht
  have d3 := head _ _ hst
  have hp : Proper p := ⟨s, hs⟩
  have hq : Proper q := ⟨t, ht⟩
  refine ⟨?_, ?_, ?_, sameDirection_trans d3 (d1.add d2).symm⟩
  · rintro ⟨u, v⟩
    have e1 : (p.mul q).x = p.x + (cos s * q.x - sin s * q.y) := by
      simp only [PoseM.mul, hs, rotationMatrix]; ring
    have e2 : (p.mul q).y = p.y + (sin s * q.x + cos s * q.y) := by
      simp only [PoseM.mul, hs, rotationMatrix]
    simp only [move, d1.cos_eq, d1.sin_eq, d2.cos_eq, d2.sin_eq, d3.cos_eq, d3.sin_eq, cos_add, sin_add, e1, e2]
    ext
    · simp only; ring
    · simp only; ring
  · have hi := (C62_matrix_group p q q 0 0 0 hp hq).2.2.2.1
    have a1 := (C62_matrix_group p.inverse p q 0 0 0 hi hp).2.2.2.2.1
    have a2 := (C62_matrix_group p q q 0 0 0 hp hq).2.2.2.2.2.2.2.2
    have a3 := (C62_matrix_group q q q 0 0 0 hq hq).2.2.2.2.2.2.1
    rw [PoseM.relative, ← a1, a2, a3]
  · have hi := (C62_matrix_group p q q 0 0 0 hp hq).2.2.2.1
    have a1 := (C62_matrix_group p p.inverse q 0 0 0 hp hi).2.2.2.2.1
    have a2 := (C62_matrix_group p q q 0 0 0 hp hq).2.2.2.2.2.2.2.1
    have a3 := (C62_matrix_group q q q 0 0 0 hq hq).2.2.2.2.2.2.1
    rw [PoseM.relative, ← a1, a2, a3]

/-- Proper poses exist at every angle; the laws apply to a turned and shifted pose. -/
example : (PoseM.make 1 2 (π / 3)).mul (PoseM.make 1 2 (π / 3)).inverse = PoseM.identity ∧
    ((PoseM.make 1 2 (π / 3)).mul (PoseM.make 3 0 1)).relative (PoseM.make 1 2 (π / 3)) = PoseM.make 3 0 1 :=
  ⟨(C62_matrix_group (PoseM.make 1 2 (π / 3)) PoseM.identity PoseM.identity 0 0 0 ⟨π / 3, rfl⟩
    ⟨0, by simp [PoseM.identity, rotationMatrix]⟩).2.2.2.2.2.2.2.1,
   (C62_matrix_motion (PoseM.make 1 2 (π / 3)) (PoseM.make 3 0 1) ⟨π / 3, rfl⟩ ⟨1, rfl⟩).2.1⟩

/-! ## `LegacyPose2D`, angle -/

/-- A pose whose stored angle is wrapped, as the class `Angle` keeps it. -/
def Wrapped (p : PoseA) : Prop := -π ≤ p.rot ∧ p.rot ≤ π

/-- The same position and the same direction. -/
def SamePlace (p q : PoseA) : Prop := p.x = q.x ∧ p.y = q.y ∧ SameDirection p.rot q.rot

theorem toMatrix_eq {p q : PoseA} (h : SamePlace p q) : p.toMatrix = q.toMatrix := by
  ext <;> simp [PoseA.toMatrix, rotation_of_same h.2.2, h.1, h.2.1]

/-- **C62.** The two storages agree: the conversion to a matrix takes products to products and inverses
to inverses, and converting back recovers the pose. -/
theorem C62_storages (p q : PoseA) (x y a : ℝ) :
    (p.mul q).toMatrix = p.toMatrix.mul q.toMatrix ∧ p.inverse.toMatrix = p.toMatrix.inverse ∧
    (p.relative q).toMatrix = p.toMatrix.relative q.toMatrix ∧
    (PoseA.make x y a).toMatrix = PoseM.make x y a ∧ PoseA.identity.toMatrix = PoseM.identity ∧
    SamePlace p.toMatrix.toAngle p := by
  have hmul : ∀ p q : PoseA, (p.mul q).toMatrix = p.toMatrix.mul q.toMatrix := by
    intro p q
    have h : SameDirection (add p.rot q.rot) (p.rot + q.rot) := (C51_class p.rot q.rot 0).2.2.2.1
    apply PoseM.ext
    · simp only [PoseA.toMatrix, PoseM.mul, PoseA.mul]
      rw [rotation_of_same h, mulMat_rotation]
    · rfl
    · rfl
  have hinv : ∀ p : PoseA, p.inverse.toMatrix = p.toMatrix.inverse := by
    intro p
    have h1 : SameDirection (scale p.rot (-1)) (p.rot * -1) := (C51_class p.rot 0 (-1)).2.2.2.2.2.2.2.1
    have h : SameDirection (ofReal (scale p.rot (-1))) (-p.rot) := by
      have := sameDirection_trans (C51_class (scale p.rot (-1)) 0 0).2.1 h1
      rwa [mul_neg_one] at this
    have hr := rotation_of_same h
    simp only [PoseA.toMatrix, PoseM.inverse, PoseA.inverse, transpose_rotation, hr]
  refine ⟨hmul p q, hinv p, ?_, ?_, ?_, ?_⟩
  · rw [PoseA.relative, hmul, hinv]; rfl
  · apply PoseM.ext
    · exact rotation_of_same (wrap_same a)
    · rfl
    · rfl
  · apply PoseM.ext
    · simp only [PoseA.toMatrix, PoseA.identity, PoseM.identity]
      rw [rotation_of_same (show SameDirection (ofReal 0) 0 from wrap_same 0)]
      simp [rotationMatrix]
    · rfl
    · rfl
  · exact ⟨rfl, rfl, (C51_rotation p.rot).1⟩

theorem samePlace_of_toMatrix {p q : PoseA} (h : p.toMatrix = q.toMatrix) : SamePlace p q := by
  have h1 := (C51_rotation p.rot).1
  have h2 := (C51_rotation q.rot).1
  have e : rotationMatrix p.rot = rotationMatrix q.rot := congrArg PoseM.rot h
  rw [e] at h1
  exact ⟨congrArg PoseM.x h, congrArg PoseM.y h, sameDirection_trans h1.symm h2⟩

/-- **C62.** Poses with an angle obey the same laws, with headings compared up to whole turns; the
stored angle stays wrapped, and the identity laws hold exactly. -/
theorem C62_angle_group (p q r : PoseA) (hp : Wrapped p) :
    Wrapped (p.mul q) ∧ Wrapped p.inverse ∧ Wrapped PoseA.identity ∧
    SamePlace ((p.mul q).mul r) (p.mul (q.mul r)) ∧
    p.mul PoseA.identity = p ∧ PoseA.identity.mul p = p ∧
    SamePlace (p.mul p.inverse) PoseA.identity ∧ SamePlace (p.inverse.mul p) PoseA.identity ∧
    SamePlace ((p.mul q).relative p) q ∧
    SameDirection (p.mul q).rot (p.rot + q.rot) := by
  have pm : ∀ s : PoseA, Proper s.toMatrix := fun s => ⟨s.rot, rfl⟩
  have G := C62_matrix_group p.toMatrix q.toMatrix r.toMatrix 0 0 0 (pm p) (pm q)
  have S := fun p q => C62_storages p q 0 0 0
  have z : ofReal (0 : ℝ) = 0 := (C51_wrap 0).2.2.2 (by linarith [pi_pos]) pi_pos.le
  have w0 : wrapAngle p.rot = p.rot := (C51_wrap p.rot).2.2.2 hp.1 hp.2
  have pi' := pi_pos
  refine ⟨⟨(C51_wrap _).1, (C51_wrap _).2.1⟩, ⟨(C51_wrap _).1, (C51_wrap _).2.1⟩, ?_, ?_, ?_, ?_, ?_, ?_, ?_, ?_⟩
  · unfold Wrapped PoseA.identity; simp only [z]; constructor <;> linarith
  · apply samePlace_of_toMatrix
    rw [(S _ _).1, (S _ _).1, (S _ _).1, (S _ _).1, G.2.2.2.2.1]
  · ext
    · simp only [PoseA.mul, PoseA.identity, add, ofReal] at *
      rw [z, add_zero, w0, w0]
    · simp [PoseA.mul, PoseA.identity]
    · simp [PoseA.mul, PoseA.identity]
  · ext
    · simp only [PoseA.mul, PoseA.identity, add, ofReal] at *
      rw [z, zero_add, w0, w0]
    · simp [PoseA.mul, PoseA.identity, rotationMatrix, z]
    · simp [PoseA.mul, PoseA.identity, rotationMatrix, z]
  · apply samePlace_of_toMatrix
    rw [(S _ _).1, (S p p).2.1, G.2.2.2.2.2.2.2.1, (S p p).2.2.2.2.1]
  · apply samePlace_of_toMatrix
    rw [(S _ _).1, (S p p).2.1, G.2.2.2.2.2.2.2.2, (S p p).2.2.2.2.1]
  · apply samePlace_of_toMatrix
    rw [(S _ _).2.2.1, (S _ _).1]
    exact (C62_matrix_motion p.toMatrix q.toMatrix (pm p) (pm q)).2.1
  · exact (C51_class p.rot q.rot 0).2.2.2.1

/-- A quarter turn and a step forward, twice, is a half turn; undoing it leads back. -/
example : SamePlace ((PoseA.make 1 0 (π / 2)).mul (PoseA.make 1 0 (π / 2)).inverse) PoseA.identity :=
  (C62_angle_group _ ⟨0, 0, 0⟩ ⟨0, 0, 0⟩ ⟨(C51_wrap _).1, (C51_wrap _).2.1⟩).2.2.2.2.2.2.1

/-! ## `LegacyPose3D` -/

/-- **C62.** Spatial poses with orthogonal matrices form a group acting by rigid motions, and `relative`
recovers the increment. -/
theorem C62_spatial (p q r : Pose3) (hp : Orthogonal p.rot) (hq : Orthogonal q.rot) :
    Orthogonal (p.mul q).rot ∧ Orthogonal p.inverse.rot ∧ Orthogonal Pose3.identity.rot ∧
    (p.mul q).mul r = p.mul (q.mul r) ∧
    p.mul Pose3.identity = p ∧ Pose3.identity.mul p = p ∧
    p.mul p.inverse = Pose3.identity ∧ p.inverse.mul p = Pose3.identity ∧
    (p.mul q).relative p = q ∧
    ∀ v, moveSpace (p.mul q).rot (p.mul q).trans v = moveSpace p.rot p.trans (moveSpace q.rot q.trans v) := by
  have hp' := orthogonal_right hp
  have hassoc : ∀ p q r : Pose3, (p.mul q).mul r = p.mul (q.mul r) := by
    intro p q r
    simp only [Pose3.mul, Matrix.mul_assoc, Matrix.mulVec_add, Matrix.mulVec_mulVec, add_assoc]
  have hid : ∀ p : Pose3, Pose3.identity.mul p = p := by
    intro p; simp [Pose3.mul, Pose3.identity]
  have hinv : p.inverse.mul p = Pose3.identity := by
    have hp'' : p.rot.transpose * p.rot = 1 := hp
    simp [Pose3.mul, Pose3.identity, Pose3.inverse, hp'']
  refine ⟨?_, ?_, ?_, hassoc p q r, ?_, hid p, ?_, hinv, ?_, ?_⟩
  · show (p.rot * q.rot).transpose * (p.rot * q.rot) = 1
    have hp'' : p.rot.transpose * p.rot = 1 := hp
    have hq'' : q.rot.transpose * q.rot = 1 := hq
    rw [Matrix.transpose_mul, Matrix.mul_assoc, ← Matrix.mul_assoc p.rot.transpose, hp'', Matrix.one_mul, hq'']
  · show p.rot.transpose.transpose * p.rot.transpose = 1
    rw [Matrix.transpose_transpose, hp']
  · show (1 : Matrix (Fin 3) (Fin 3) ℝ).transpose * 1 = 1
    simp
  · simp [Pose3.mul, Pose3.identity]
  · simp [Pose3.mul, Pose3.identity, Pose3.inverse, hp', Matrix.mulVec_neg, Matrix.mulVec_smul, Matrix.mulVec_mulVec]
  · rw [Pose3.relative, ← hassoc, hinv, hid]
  · intro v
    simp only [moveSpace, Pose3.mul, Matrix.mulVec_add, Matrix.mulVec_mulVec, add_assoc]

/-- **C62.** Planar poses are embedded in space: the embedding takes products to products and inverses to
inverses, its matrices are orthogonal, and assignment agrees with construction. -/
theorem C62_embedding (p q : PoseM) (old : Pose3) (hp : Proper p) :
    Pose3.ofPlanar (p.mul q) = (Pose3.ofPlanar p).mul (Pose3.ofPlanar q) ∧
    Pose3.ofPlanar p.inverse = (Pose3.ofPlanar p).inverse ∧
    Pose3.ofPlanar PoseM.identity = Pose3.identity ∧
    Orthogonal (Pose3.ofPlanar p).rot ∧ Pose3.assignPlanar old p = Pose3.ofPlanar p := by
  have ext3 : ∀ {a b : Pose3}, a.rot = b.rot → a.trans = b.trans → a = b := by
    intro a b h1 h2; cases a; cases b; simp_all
  refine ⟨?_, ?_, ?_, ?_, ?_⟩
  · apply ext3
    · ext i j; fin_cases i <;> fin_cases j <;>
        simp [Pose3.ofPlanar, Pose3.mul, PoseM.mul, mulMat, Matrix.mul_apply, Fin.sum_univ_three]
    · ext i
      show _ = (Pose3.ofPlanar p).trans i + (Pose3.ofPlanar p).rot.mulVec (Pose3.ofPlanar q).trans i
      rw [mulVec_three]
      fin_cases i <;> simp [Pose3.ofPlanar, PoseM.mul]
  · apply ext3
    · ext i j; fin_cases i <;> fin_cases j <;>
        simp [Pose3.ofPlanar, Pose3.inverse, PoseM.inverse, transpose, Matrix.transpose]
    · ext i; fin_cases i <;>
        simp [Pose3.ofPlanar, Pose3.inverse, PoseM.inverse, transpose, Matrix.mulVec, dotProduct,
          Fin.sum_univ_three, Matrix.transpose] <;> ring
  · apply ext3
    · ext i j; fin_cases i <;> fin_cases j <;> simp [Pose3.ofPlanar, PoseM.identity, Pose3.identity]
    · ext i; fin_cases i <;> simp [Pose3.ofPlanar, PoseM.identity, Pose3.identity]
  · obtain ⟨s, hs⟩ := hp
    have h1 := sin_sq_add_cos_sq s
    show (Pose3.ofPlanar p).rot.transpose * (Pose3.ofPlanar p).rot = 1
    ext i j
    fin_cases i <;> fin_cases j <;>
      simp [Pose3.ofPlanar, hs, rotationMatrix, Matrix.mul_apply, Fin.sum_univ_three, Matrix.transpose] <;> nlinarith
  · apply ext3
    · ext i j; fin_cases i <;> fin_cases j <;> simp [Pose3.assignPlanar, Pose3.ofPlanar]
    · ext i; fin_cases i <;> simp [Pose3.assignPlanar, Pose3.ofPlanar]

/-- The hypothesis of the spatial theorem is met by every embedded planar pose. -/
example : Orthogonal (Pose3.ofPlanar (PoseM.make 1 2 (π / 3))).rot :=
  (C62_embedding (PoseM.make 1 2 (π / 3)) PoseM.identity Pose3.identity ⟨π / 3, rfl⟩).2.2.2.1

/-! ## C79: constructing spatial poses -/

/-- **C79.** A spatial pose built from a quaternion, or from a matrix, and a translation has that rotation
and translation. -/
theorem C79_quaternion_partial (rotation : Matrix (Fin 3) (Fin 3) ℝ) (translation : Fin 3 → ℝ) :
    (Pose3.ofQuaternion rotation translation).rot = rotation ∧
    (Pose3.ofQuaternion rotation translation).trans = translation ∧
    (Pose3.ofMatrix rotation translation).rot = rotation ∧
    (Pose3.ofMatrix rotation translation).trans = translation := ⟨rfl, rfl, rfl, rfl⟩

/-- Built from an angle and an axis it never has, except for the default pose. -/
theorem C79_angle_axis (rotation : Matrix (Fin 3) (Fin 3) ℝ) (translation : Fin 3 → ℝ) :
    ((Pose3.ofAngleAxis rotation translation).rot = rotation ∧
     (Pose3.ofAngleAxis rotation translation).trans = translation) ↔ rotation = 1 ∧ translation = 0 := by
  simp only [Pose3.ofAngleAxis]
  constructor
  · rintro ⟨h, h'⟩; exact ⟨h.symm, h'.symm⟩
  · rintro ⟨h, h'⟩; exact ⟨h.symm, h'.symm⟩

/-- Both arguments of the constructor from an angle and an axis are ignored. -/
theorem C79_fails_angle_axis :
    ¬ (∀ (rotation : Matrix (Fin 3) (Fin 3) ℝ) (translation : Fin 3 → ℝ), Orthogonal rotation →
      (Pose3.ofAngleAxis rotation translation).trans = translation) := by
  intro h
  have := congrFun (h 1 (fun _ => 1) (by simp [Orthogonal])) 0
  simp [Pose3.ofAngleAxis] at this

end Ecl.Props
