import Mathlib.Analysis.Complex.Circle
import Mathlib.Analysis.SpecialFunctions.Complex.Circle
import Mathlib.Algebra.Module.LinearMap.End
import Mathlib.Algebra.Module.Equiv.Basic
import Mathlib.Algebra.Module.Equiv.Opposite
import Mathlib.Algebra.Module.Prod
import Mathlib.Algebra.Group.MinimalAxioms

/-!
# Rigid motions

The groups of the Sophus library: a rotation and a translation.  `SE2` acts on the plane (the complex
numbers), `SE3` on space; a vector of space is `(x + iy, z)`.  The rotations of `SE3` are taken from all
linear bijections of space, which include the rotations; what is shown for all of them holds for these.
-/
set_option autoImplicit false

namespace Ecl

/-- A rotation followed by a translation. -/
@[ext] structure Rigid (R V : Type) where
  rot : R
  trans : V

namespace Rigid
variable {R V : Type} [Group R] [AddCommGroup V] [DistribMulAction R V]

/-- Composition: `(T * S) p = T (S p)`. -/
instance : Mul (Rigid R V) := ⟨fun a b => ⟨a.rot * b.rot, a.trans + a.rot • b.trans⟩⟩
instance : One (Rigid R V) := ⟨⟨1, 0⟩⟩
instance : Inv (Rigid R V) := ⟨fun a => ⟨a.rot⁻¹, -(a.rot⁻¹ • a.trans)⟩⟩

@[simp] theorem mul_rot (a b : Rigid R V) : (a * b).rot = a.rot * b.rot := rfl
@[simp] theorem mul_trans (a b : Rigid R V) : (a * b).trans = a.trans + a.rot • b.trans := rfl
@[simp] theorem one_rot : (1 : Rigid R V).rot = 1 := rfl
@[simp] theorem one_trans : (1 : Rigid R V).trans = 0 := rfl
@[simp] theorem inv_rot (a : Rigid R V) : a⁻¹.rot = a.rot⁻¹ := rfl
@[simp] theorem inv_trans (a : Rigid R V) : a⁻¹.trans = -(a.rot⁻¹ • a.trans) := rfl

instance : Group (Rigid R V) :=
  Group.ofLeftAxioms
    (fun a b c => by ext <;> simp [mul_assoc, add_assoc, smul_add, mul_smul])
    (fun a => by ext <;> simp)
    (fun a => by ext <;> simp)

/-- The image of a point. -/
def apply (a : Rigid R V) (p : V) : V := a.trans + a.rot • p

end Rigid

/-- Motions of the plane. -/
abbrev SE2 := Rigid Circle ℂ

/-- Vectors of space. -/
abbrev Space := ℂ × ℝ

/-- Motions of space. -/
abbrev SE3 := Rigid (Space ≃ₗ[ℝ] Space) Space

/-- The rotation around the z axis. -/
noncomputable def rz (c : Circle) : Space ≃ₗ[ℝ] Space where
  toFun v := (c * v.1, v.2)
  invFun v := ((c⁻¹ : Circle) * v.1, v.2)
  left_inv v := by simp [← mul_assoc]
  right_inv v := by simp [← mul_assoc]
  map_add' u v := by simp [mul_add]
  map_smul' a v := by
    refine Prod.ext ?_ rfl
    simp only [Prod.smul_fst, Complex.real_smul, RingHom.id_apply]
    ring

/-- A motion of the plane as a motion of space. -/
noncomputable def embed (a : SE2) : SE3 := ⟨rz a.rot, (a.trans, 0)⟩

end Ecl
