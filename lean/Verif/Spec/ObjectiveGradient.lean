import Verif.Model.ObjectiveGradient
import Verif.Spec.Objective
import Verif.Spec.Orientation
import Verif.Spec.TreeExpr
import Mathlib.Analysis.Calculus.Deriv.Basic
/- What is expected of the gradient of the objective. -/
namespace Verif.Plan.Spec
open NLP NLP.Kin SolverM StateM Rigid Matrix Quaternion
noncomputable section
variable {nj : ℕ} {L F T : Type} [DecidableEq L] [DecidableEq F] {m : Model L (Fin nj)}

/-- `d` is the derivative of `G` with respect to the entry `i` of its argument, at `v`; `G` has a value whatever that entry is. -/
def PartialDerivative (G : List ℝ → Option ℝ) (v : List ℝ) (i : ℕ) (d : ℝ) : Prop :=
  ∃ f : ℝ → ℝ, (∀ a, G (v.set i a) = some (f a)) ∧ HasDerivAt f d (v.getD i 0)

/-- Where the costs that the settings ask for can be differentiated: the quaternion of the base is not zero; the feet are on different links and the quaternions of the
rotations of the feet and of their inverses are one the inverse of the other (C68); the reference of the orientation is a rotation, and near the orientation error
the library gives its quaternion, without jumps (C69); the frame of the angular velocity cost is not turned away from the axis of its joint (C70). -/
structure Differentiable (R : CostObjects m F) (Q : Readings T) (t : ℝ) (st : ProblemSettings ℝ T) (s : State ℝ) (q : V4 ℝ) : Prop where
  base : quat q ≠ 0
  torques : st.staticTorquesCostActive = true → R.server.frames.link (R.frame st.leftFrameName) ≠ R.server.frames.link (R.frame st.rightFrameName) ∧
    ∀ frame ∈ [st.leftFrameName, st.rightFrameName], let A := (framePose R.toObjects s q frame).R
      Quaternion.Spec.UnitQ (R.asQuaternion A) ∧ rotationFromQuaternion (R.asQuaternion A) = A ∧ R.asQuaternion Aᵀ = inverse (R.asQuaternion A)
  orientation : st.frameCostActive = true → ∀ Rd, ((st.desiredRotationTrajectory.map Q.rotation).getD fun _ => some 1) t = some Rd →
    Rd ∈ Rotations ∧ Steady R.asQuaternion (Rdᵀ * (framePose R.toObjects s q st.frameForOrientationCost).R)
  velocity : st.frameAngularVelocityCostActive = true → R.server.KeepsAxes (R.frame st.frameForOrientationCost)

end
end Verif.Plan.Spec
