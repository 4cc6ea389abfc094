import Verif.Model.QuaternionUtils
import Verif.Spec.QuaternionUtils
import Mathlib.Topology.Instances.Matrix
import Mathlib.Topology.Instances.Real.Lemmas
/- Vocabulary for the statements about orientations. -/
namespace Verif.Quaternion
open Matrix Verif.Quaternion.Spec Filter Topology

/-- The rotations. -/
def Rotations : Set (Matrix (Fin 3) (Fin 3) ℝ) := {R | R * Rᵀ = 1 ∧ R.det = 1}

/-- What is asked of the quaternion that the library gives for the rotations near `R`: it is one of the two unit quaternions of the rotation, and
it does not jump to the other one. -/
def Steady (asQuaternion : Matrix (Fin 3) (Fin 3) ℝ → Quat ℝ) (R : Matrix (Fin 3) (Fin 3) ℝ) : Prop :=
  ∀ᶠ R' in 𝓝[Rotations] R, (UnitQ (asQuaternion R') ∧ rotationFromQuaternion (asQuaternion R') = R') ∧ ContinuousWithinAt asQuaternion Rotations R'

end Verif.Quaternion
