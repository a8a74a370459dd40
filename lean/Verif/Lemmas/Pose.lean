import Verif.Model.Pose
import Verif.Props.C51_Angle
import Verif.Spec.Motion
import Mathlib.LinearAlgebra.Matrix.NonsingularInverse

/-! # Poses: directions, small matrices -/
set_option autoImplicit false
set_option linter.unusedSimpArgs false

namespace Ecl.Props

theorem SameDirection.cos_eq {a b : ℝ} (h : SameDirection a b) : Real.cos a = Real.cos b := by
  obtain ⟨k, rfl⟩ := h; exact Real.cos_add_int_mul_two_pi b k

theorem SameDirection.sin_eq {a b : ℝ} (h : SameDirection a b) : Real.sin a = Real.sin b := by
  obtain ⟨k, rfl⟩ := h; exact Real.sin_add_int_mul_two_pi b k

theorem SameDirection.symm {a b : ℝ} (h : SameDirection a b) : SameDirection b a := by
  obtain ⟨k, rfl⟩ := h; exact ⟨-k, by push_cast; ring⟩

theorem SameDirection.add {a b c d : ℝ} (h : SameDirection a b) (h' : SameDirection c d) :
    SameDirection (a + c) (b + d) := by
  obtain ⟨k, rfl⟩ := h; obtain ⟨l, rfl⟩ := h'
  exact ⟨k + l, by push_cast; ring⟩

end Ecl.Props

namespace Ecl.Pose
open Ecl.Angle Ecl.Props Ecl.Spec Real

theorem wrap_same (a : ℝ) : SameDirection (wrapAngle a) a := (C51_wrap a).2.2.1

theorem rotation_of_same {a b : ℝ} (h : SameDirection a b) : rotationMatrix a = rotationMatrix b := by
  unfold rotationMatrix; rw [h.cos_eq, h.sin_eq]

theorem mulMat_rotation (a b : ℝ) : mulMat (rotationMatrix a) (rotationMatrix b) = rotationMatrix (a + b) := by
  unfold mulMat rotationMatrix
  rw [cos_add, sin_add]
  ext <;> simp only <;> ring

theorem transpose_rotation (a : ℝ) : transpose (rotationMatrix a) = rotationMatrix (-a) := by
  unfold transpose rotationMatrix
  rw [cos_neg, sin_neg]
  simp

theorem orthogonal_right {r : Matrix (Fin 3) (Fin 3) ℝ} (h : Orthogonal r) : r * r.transpose = 1 :=
  mul_eq_one_comm.1 h

theorem mulVec_three (m : Matrix (Fin 3) (Fin 3) ℝ) (v : Fin 3 → ℝ) (i : Fin 3) :
    m.mulVec v i = m i 0 * v 0 + m i 1 * v 1 + m i 2 * v 2 := by
  simp [Matrix.mulVec, dotProduct, Fin.sum_univ_three]

end Ecl.Pose
