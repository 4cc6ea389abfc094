import Verif.Model.Plan
import Verif.Spec.Problem
/-
What it means that a state and a control are physically consistent with the robot and with the settings, in terms of the fields of `State`, `Control`
and `SettingsStruct`: no vectors, no constraints.
-/
namespace Verif.Plan.Spec
open NLP NLP.Kin SolverM StateM Rigid Matrix
open SolverM.Spec (footPoints footFrame)
open Verif.Quaternion (rotationFromQuaternion normalized leftTrivializedDerivativeInverse)
noncomputable section
variable {nj : ℕ} {L F : Type} [DecidableEq L] [DecidableEq F] {m : Model L (Fin nj)}

/-- The points of a foot in the state. -/
def points (s : State ℝ) : Foot → List (PointState ℝ)
  | .left => s.left
  | .right => s.right
/-- The points of a foot in the control. -/
def inputs (c : Control ℝ) : Foot → List (PointControl ℝ)
  | .left => c.left
  | .right => c.right

/-- Components. -/
def quat (q : V4 ℝ) : Fin 4 → ℝ := ![q.w, q.x, q.y, q.z]

/-- The pose of the base: the rotation of the normalised quaternion (C33, C48) and the position. -/
def pose (s : State ℝ) (q : V4 ℝ) : SE3 :=
  ⟨rotationFromQuaternion (normalized Real.sqrt (quat q)), toVec s.base.pos, (rotation_orthogonal _).1, (rotation_orthogonal _).2⟩
/-- The velocity of the base, in the base (linear, angular): the angular velocity that corresponds to the derivative of the quaternion (C33). -/
def twist (q : V4 ℝ) (c : Control ℝ) : Spatial :=
  (toVec c.baseLinearVelocity, leftTrivializedDerivativeInverse (normalized Real.sqrt (quat q)) *ᵥ quat c.baseQuaternionDerivative)
/-- The joints. -/
def joints (s : State ℝ) : Fin nj → ℝ := fun j => s.joints.getD j 0
/-- Their velocities. -/
def jointVelocities (c : Control ℝ) : Fin nj → ℝ := fun j => c.jointsVelocity.getD j 0

/-- The mass of the robot. -/
def mass (m : Model L (Fin nj)) : ℝ := (m.links.map fun l => (m.inertia l).mass).sum
/-- The centre of mass of the robot in that configuration. -/
def centre (R : Objects m F) (s : State ℝ) (q : V4 ℝ) : Vec :=
  (mass m)⁻¹ • (m.links.map fun l => (m.inertia l).mass • (R.server.kin.world (pose s q) (joints s) l).point (m.inertia l).com).sum
/-- The angular momentum of the robot about its centre of mass, with the orientation of the world, in that configuration and with those velocities:
the sum over the links of the angular momentum of the link about the centre of mass. -/
def angularMomentum (R : Objects m F) (s : State ℝ) (q : V4 ℝ) (c : Control ℝ) : Vec :=
  (m.links.map fun l =>
    let T := R.server.kin.world (pose s q) (joints s) l
    let h := (m.inertia l).mul (R.server.kin.vel (twist q c) (joints s) (jointVelocities c) l)
    T.R *ᵥ h.2 + (T.p - centre R s q) ⨯₃ (T.R *ᵥ h.1)).sum
/-- The pose of a frame of the robot in that configuration. -/
def framePose (R : Objects m F) (s : State ℝ) (q : V4 ℝ) (frame : String) : SE3 :=
  R.server.kin.world (pose s q) (joints s) (R.server.frames.link (R.frame frame)) * R.server.frames.offset (R.frame frame)

/-- The linear momentum of the robot in that configuration and with those velocities: the sum of the masses of the links times the velocities of their
centres of mass. -/
def linearMomentum (R : Objects m F) (s : State ℝ) (q : V4 ℝ) (c : Control ℝ) : Vec :=
  (m.links.map fun l =>
    let v := R.server.kin.vel (twist q c) (joints s) (jointVelocities c) l
    (m.inertia l).mass • ((R.server.kin.world (pose s q) (joints s) l).R *ᵥ (v.1 + v.2 ⨯₃ (m.inertia l).com))).sum
/-- The forces at all the points. -/
def contactForce (s : State ℝ) : Vec := ((s.left ++ s.right).map fun p => toVec p.force).sum
/-- Their moment about a place. -/
def contactMoment (s : State ℝ) (about : Vec) : Vec := ((s.left ++ s.right).map fun p => (toVec p.position - about) ⨯₃ toVec p.force).sum
/-- The weight. -/
def weight (m : Model L (Fin nj)) : Vec := ![0, 0, -9.81 * mass m]

/-- Each component is within `δ`. -/
def Close (δ : ℝ) (a b : Vec) : Prop := ∀ i, |a i - b i| ≤ δ

variable {T : Type}

/-- The moment of the forces of a foot, applied at its points as they are on the robot, about the centre of mass of the robot. -/
def footMoment (R : Objects m F) (st : ProblemSettings ℝ T) (s : State ℝ) (q : V4 ℝ) (foot : Foot) : Vec :=
  (List.zipWith (fun b (p : PointState ℝ) => ((framePose R s q (footFrame st foot)).point (toVec b) - centre R s q) ⨯₃ toVec p.force)
    (footPoints st foot) (points s foot)).sum

/-- The mechanism that keeps a loaded point still, by type. -/
def NoSlip (st : ProblemSettings ℝ T) (p : PointState ℝ) (c : PointControl ℝ) : Prop :=
  match st.planarComplementarity with
  | .hyperbolicTangentInequality =>
    |c.velocityControl.x| ≤ Real.tanh (st.planarVelocityHyperbolicTangentScaling * p.position.z) * st.velocityMaximumDerivative.x ∧
    |c.velocityControl.y| ≤ Real.tanh (st.planarVelocityHyperbolicTangentScaling * p.position.z) * st.velocityMaximumDerivative.y
  | .classical => |p.force.z * c.velocityControl.x| ≤ st.classicalPlanarComplementarityTolerance ∧
    |p.force.z * c.velocityControl.y| ≤ st.classicalPlanarComplementarityTolerance
  | .hyperbolicTangentInDynamics => True

/-- The mechanism that removes the force from a point that is not on the ground, by type. -/
def NoForceAbove (st : ProblemSettings ℝ T) (p : PointState ℝ) (c : PointControl ℝ) : Prop :=
  match st.complementarity with
  | .dynamical => c.forceControl.z * p.position.z + p.force.z * c.velocityControl.z ≤
      st.dynamicComplementarityUpperBound - st.complementarityDissipation * (p.position.z * p.force.z)
  | .hyperbolicSecantInequality =>
    let δ := 1 / Real.cosh (st.normalForceHyperbolicSecantScaling * p.position.z)
    c.forceControl.z ≤ δ * st.forceMaximumDerivative.z - (1 - δ) * (st.normalForceDissipationRatio * p.force.z)
  | .classical => p.position.z * p.force.z ≤ st.classicalComplementarityTolerance
  | .hyperbolicSecantInDynamics => True

/-- A state (with quaternion `q`) and a control agree with the robot and with the settings. -/
structure Consistent (R : Objects m F) (st : ProblemSettings ℝ T) (s : State ℝ) (q : V4 ℝ) (c : Control ℝ) : Prop where
  momentum : Close (st.centroidalMomentumConstraintTolerance / 2) (angularMomentum R s q c) (toVec s.angularMomentum)
  com : Close (st.comPositionConstraintTolerance / 2) (centre R s q) (toVec s.com)
  /-- the origin of the other foot, seen from the reference foot, is at the minimum distance along the lateral direction -/
  distance : ∀ i : Fin 3, (i : ℕ) = st.indexOfLateralDirection → st.minimumFeetDistance ≤
    ((framePose R s q st.referenceFrameNameForFeetDistance)⁻¹.point ((framePose R s q st.otherFrameNameForFeetDistance).point 0)) i
  quaternion : |q.w ^ 2 + q.x ^ 2 + q.y ^ 2 + q.z ^ 2 - 1| ≤ st.quaternionModulusConstraintTolerance / 2
  height : |(s.left.map fun p => p.position.z).sum / s.left.length - (s.right.map fun p => p.position.z).sum / s.right.length| ≤
    st.feetMaximumRelativeHeight
  /-- the friction cone -/
  friction : ∀ foot, ∀ p ∈ points s foot, Real.sqrt (p.force.x ^ 2 + p.force.y ^ 2) ≤ st.frictionCoefficient * |p.force.z|
  /-- the points are the ones of the foot -/
  contact : ∀ foot (i : ℕ) (p : PointState ℝ) (b : V3 ℝ), (points s foot)[i]? = some p → (footPoints st foot)[i]? = some b →
    Close (st.pointPositionConstraintTolerance / 2) ((framePose R s q (footFrame st foot)).point (toVec b)) (toVec p.position)
  slip : ∀ foot (i : ℕ) (p : PointState ℝ) (c' : PointControl ℝ), (points s foot)[i]? = some p → (inputs c foot)[i]? = some c' → NoSlip st p c'
  normal : ∀ foot (i : ℕ) (p : PointState ℝ) (c' : PointControl ℝ), (points s foot)[i]? = some p → (inputs c foot)[i]? = some c' → NoForceAbove st p c'

/-! ### Points along a trajectory -/

/-- The position of the `i`-th point of a foot. -/
def position (s : State ℝ) (foot : Foot) (i : ℕ) : Vec := ((points s foot)[i]?.map fun p => toVec p.position).getD 0
/-- The force at the `i`-th point of a foot. -/
def force (s : State ℝ) (foot : Foot) (i : ℕ) : Vec := ((points s foot)[i]?.map fun p => toVec p.force).getD 0
/-- The place of the `i`-th point of a foot on the robot. -/
def footPoint (R : Objects m F) (st : ProblemSettings ℝ T) (s : State ℝ) (q : V4 ℝ) (foot : Foot) (i : ℕ) : Vec :=
  ((footPoints st foot)[i]?.map fun b => (framePose R s q (footFrame st foot)).point (toVec b)).getD 0

end
end Verif.Plan.Spec
