import Mathlib.LinearAlgebra.CrossProduct
import Mathlib.LinearAlgebra.Matrix.Determinant.Basic
import Mathlib.Analysis.Calculus.Deriv.Prod
/-
Rigid motions and spatial vectors: what iDynTree (external) calls `Transform`, `Twist` / `SpatialMotionVector`,
`SpatialMomentum` / `Wrench` / `SpatialForceVector` and `SpatialInertia`.  The linear part comes first.  `double` is the real numbers.
-/
namespace Verif.Rigid
open Matrix

/-- A vector of three components. -/
abbrev Vec := Fin 3 → ℝ

/-- A spatial vector, linear part first: velocities, accelerations, momenta, wrenches. -/
abbrev Spatial := Vec × Vec

/-- `iDynTree::Transform`: `a_H_b`, the rotation and the position of the origin. -/
@[ext] structure SE3 where
  R : Matrix (Fin 3) (Fin 3) ℝ
  p : Vec
  orthogonal : R * Rᵀ = 1
  det : R.det = 1

namespace SE3

theorem orthogonal' (T : SE3) : T.Rᵀ * T.R = 1 := mul_eq_one_comm.1 T.orthogonal

/-- `Transform::Identity()`. -/
instance : One SE3 := ⟨⟨1, 0, by simp, by simp⟩⟩

/-- `a_H_b * b_H_c`. -/
instance : Mul SE3 := ⟨fun T U => ⟨T.R * U.R, T.p + T.R *ᵥ U.p,
  by rw [transpose_mul, Matrix.mul_assoc, ← Matrix.mul_assoc U.R, U.orthogonal, Matrix.one_mul, T.orthogonal],
  by rw [det_mul, T.det, U.det, one_mul]⟩⟩

/-- `Transform::inverse()`. -/
instance : Inv SE3 := ⟨fun T => ⟨T.Rᵀ, -(T.Rᵀ *ᵥ T.p), by rw [transpose_transpose]; exact T.orthogonal', by rw [det_transpose, T.det]⟩⟩

/-- `Transform * Position`. -/
def point (T : SE3) (x : Vec) : Vec := T.p + T.R *ᵥ x

/-- `Transform * SpatialMotionVector`. -/
def act (T : SE3) (m : Spatial) : Spatial := (T.R *ᵥ m.1 + T.p ⨯₃ (T.R *ᵥ m.2), T.R *ᵥ m.2)

/-- `Transform * SpatialForceVector`. -/
def actF (T : SE3) (f : Spatial) : Spatial := (T.R *ᵥ f.1, T.R *ᵥ f.2 + T.p ⨯₃ (T.R *ᵥ f.1))

end SE3

/-- `SpatialMotionVector::cross(SpatialMotionVector)`. -/
def crossM (s m : Spatial) : Spatial := (s.2 ⨯₃ m.1 + s.1 ⨯₃ m.2, s.2 ⨯₃ m.2)

/-- `SpatialMotionVector::cross(SpatialForceVector)`. -/
def crossF (s f : Spatial) : Spatial := (s.2 ⨯₃ f.1, s.2 ⨯₃ f.2 + s.1 ⨯₃ f.1)

/-- `SpatialMotionVector::dot(SpatialForceVector)`. -/
def power (m f : Spatial) : ℝ := m.1 ⬝ᵥ f.1 + m.2 ⬝ᵥ f.2

/-- `iDynTree::SpatialInertia`: mass, centre of mass, rotational inertia about the origin of the frame. -/
structure Inertia where
  mass : ℝ
  com : Vec
  rotational : Matrix (Fin 3) (Fin 3) ℝ

/-- `SpatialInertia * SpatialMotionVector`. -/
def Inertia.mul (I : Inertia) (m : Spatial) : Spatial :=
  (I.mass • m.1 - (I.mass • I.com) ⨯₃ m.2, (I.mass • I.com) ⨯₃ m.1 + I.rotational *ᵥ m.2)

end Verif.Rigid
