import Verif.Spec.Packing
import Verif.Model.Problem
/-
What the optimal control problem must contain, from the settings: one table for the costs, one for the constraints.  The quantities are
given by the components of a state or of a control, not by positions in the optimisation vector.
-/
namespace Verif.SolverM.Spec
open StateM
open Labeller (Range)
open Reference (TimeRange)
open Settings (ComplementarityType PlanarComplementarityType)
variable {K T : Type}

/-- What a cost penalises. -/
inductive Aim (K T : Type) where
  /-- the distance of a quantity of the state (`q` is the quaternion of the base) from a reference -/
  | state (quantity : State K → V4 K → List K) (weights : Option (List K)) (reference : Option T)
  /-- the distance of a quantity of the control from a reference -/
  | control (quantity : Control K → List K) (weights : Option (List K)) (reference : Option T)
  /-- the distance of the linear momentum from the one of a velocity reference -/
  | linearMomentum (weights : Option (List K)) (velocityReference : Option T)
  /-- the quantity of a dedicated class, with these parameters -/
  | dedicated (parameters : Body K T)

/-- The three components. -/
def three (v : V3 K) : List K := [v.x, v.y, v.z]
/-- The four components. -/
def four (v : V4 K) : List K := [v.w, v.x, v.y, v.z]

/-- The points of a foot of the control. -/
def controlPoints (u : Control K) : Foot → List (PointControl K)
  | .left => u.left
  | .right => u.right

/-- The control of the force of a point. -/
def forceControlOf (foot : Foot) (i : Nat) (u : Control K) : List K := ((controlPoints u foot)[i]?.map fun p => three p.forceControl).getD []
/-- The control of the velocity of a point. -/
def velocityControlOf (foot : Foot) (i : Nat) (u : Control K) : List K := ((controlPoints u foot)[i]?.map fun p => three p.velocityControl).getD []

/-- The elements of a vector selected by a range. -/
def select (r : Range) (v : List K) : List K := (v.drop r.offset).take r.size

/-- The cost object penalises what is asked, for states and controls with `d` joints and `n` points per foot. -/
def Realises (d n : Nat) : Body K T → Aim K T → Prop
  | .stateNorm segment w ref, .state quantity w' ref' =>
    (∀ (s : State K) q, StateSize d n s → select segment (stateVector s q) = quantity s q) ∧ w = w' ∧ ref = ref'
  | .controlNorm segment w ref, .control quantity w' ref' =>
    (∀ u : Control K, ControlSize d n u → select segment (controlVector u) = quantity u) ∧ w = w' ∧ ref = ref'
  | .linearMomentumNorm segment w ref, .linearMomentum w' ref' =>
    (∀ (s : State K) q, StateSize d n s → select segment (stateVector s q) = three s.linearMomentum) ∧ w = w' ∧ ref = ref'
  | b, .dedicated b' => b = b'
  | _, _ => False

/-- What is asked for one cost. -/
structure Asked (K T : Type) where
  weight : K
  range : Option (TimeRange K)
  aim : Aim K T

/-- The contact points of a foot. -/
def footPoints (st : ProblemSettings K T) : Foot → List (V3 K)
  | .left => st.leftPointsPosition
  | .right => st.rightPointsPosition

/-- The desired ratios of a foot. -/
def ratios (st : ProblemSettings K T) : Foot → List K
  | .left => st.desiredLeftRatios
  | .right => st.desiredRightRatios

/-- `a` if the cost is active. -/
def when (active : Bool) (a : Asked K T) : Option (Asked K T) := if active then some a else none

/-- `a` for each contact point of the foot, if the cost is active. -/
def eachPoint (st : ProblemSettings K T) (active : Bool) (foot : Foot) (i : Nat) (a : Asked K T) : Option (Asked K T) :=
  if active ∧ i < (footPoints st foot).length then some a else none

/-- The table of the costs: what the settings ask for each of them. -/
def asked [Zero K] (st : ProblemSettings K T) : Cost → Option (Asked K T)
  | .comPosition => when st.comCostActive
      ⟨st.comCostOverallWeight, some st.comCostActiveRange, .state (fun s _ => three s.com) (some st.comWeights) st.desiredCoMTrajectory⟩
  | .comVelocity => when st.comVelocityCostActive
      ⟨st.comVelocityCostOverallWeight, some st.comVelocityCostActiveRange,
        .linearMomentum (some st.comVelocityWeights) st.desiredCoMVelocityTrajectory⟩
  | .frameOrientation => when st.frameCostActive
      ⟨st.frameCostOverallWeight, none,
        .dedicated (.frameOrientation st.frameForOrientationCost st.desiredRotationTrajectory st.frameCostTimeVaryingWeight)⟩
  | .forceMean f i => eachPoint st st.forceMeanCostActive f i ⟨st.forceMeanCostOverallWeight, none, .dedicated .forceMean⟩
  | .forceRatio f i => eachPoint st st.forceRatioCostActive f i
      ⟨st.forceRatioCostOverallWeight, none, .dedicated (.forceRatio ((ratios st f).getD i 0))⟩
  | .jointsRegularization => when st.jointsRegularizationCostActive
      ⟨st.jointsRegularizationCostOverallWeight, none,
        .state (fun s _ => s.joints) (some st.jointsRegularizationWeights) st.desiredJointsTrajectory⟩
  | .jointsVelocity => when st.jointsVelocityCostActive
      ⟨st.jointsVelocityCostOverallWeight, none,
        .control (fun u => u.jointsVelocity) (some st.jointsVelocityCostWeights) st.desiredJointsVelocityTrajectory⟩
  | .staticTorques => when st.staticTorquesCostActive
      ⟨st.staticTorquesCostOverallWeight, none,
        .dedicated (.staticTorques st.leftFrameName st.rightFrameName st.leftPointsPosition st.rightPointsPosition st.staticTorquesCostWeights)⟩
  | .forceDerivative f i => eachPoint st st.forceDerivativeCostActive f i
      ⟨st.forceDerivativesCostOverallWeight, none,
        .control (forceControlOf f i) (some st.forceDerivativeWeights) st.desiredForceDerivativeTrajectory⟩
  | .pointAcceleration f i => eachPoint st st.pointAccelerationCostActive f i
      ⟨st.pointAccelerationCostOverallWeight, none,
        .control (velocityControlOf f i) (some st.pointAccelerationWeights) st.desiredPointAccelerationTrajectory⟩
  | .swing f i => eachPoint st st.swingCostActive f i
      ⟨st.swingCostOverallWeight, none, .dedicated (.swing st.desiredSwingHeight st.swingCostWeights)⟩
  | .phantomForces f i => eachPoint st st.phantomForcesCostActive f i
      ⟨st.phantomForcesCostOverallWeight, none, .dedicated (.phantomForces st.normalForceHyperbolicSecantScaling)⟩
  | .meanPointPosition => when st.meanPointPositionCostActive
      ⟨st.meanPointPositionCostOverallWeight, some st.meanPointPositionCostActiveRange,
        .dedicated (.meanPointPosition st.desiredMeanPointPosition st.meanPointPositionCostTimeVaryingWeight)⟩
  | .footYaw .left => when st.leftFootYawCostActive
      ⟨st.leftFootYawCostOverallWeight, none, .dedicated (.footYaw st.leftPointsPosition st.desiredLeftFootYaw)⟩
  | .footYaw .right => when st.rightFootYawCostActive
      ⟨st.rightFootYawCostOverallWeight, none, .dedicated (.footYaw st.rightPointsPosition st.desiredRightFootYaw)⟩
  | .feetDistance => when st.feetDistanceCostActive ⟨st.feetDistanceCostOverallWeight, none, .dedicated .feetDistance⟩
  | .jointsVelocityForPostural => when st.jointsVelocityForPosturalCostActive
      ⟨st.jointsVelocityForPosturalCostOverallWeight, none,
        .dedicated (.jointsVelocityForPostural st.jointsVelocityCostWeights st.jointsRegularizationWeights st.desiredJointsTrajectory)⟩
  | .complementarity f i => eachPoint st st.complementarityCostActive f i ⟨st.complementarityCostOverallWeight, none, .dedicated .complementarity⟩
  | .basePosition => when st.basePositionCostActive
      ⟨st.basePositionCostOverallWeight, some st.basePositionCostActiveRange,
        .state (fun s _ => three s.base.pos) (some st.basePositionCostWeights) st.desiredBasePositionTrajectory⟩
  | .baseQuaternion => when st.baseQuaternionCostActive
      ⟨st.baseQuaternionCostOverallWeight, none, .state (fun _ q => four q) none st.desiredBaseQuaternionTrajectory⟩
  | .frameAngularVelocity => when st.frameAngularVelocityCostActive
      ⟨st.frameAngularVelocityCostOverallWeight, none,
        .dedicated (.frameAngularVelocity st.frameForOrientationCost st.rotationalPIDgain st.desiredRotationTrajectory)⟩
  | .baseLinearVelocity => when st.baseLinearVelocityCostActive
      ⟨st.baseLinearVelocityCostOverallWeight, none,
        .control (fun u => three u.baseLinearVelocity) (some st.baseLinearVelocityCostWeights) st.desiredBaseLinearVelocityTrajectory⟩
  | .baseQuaternionVelocity => when st.baseQuaternionVelocityCostActive
      ⟨st.baseQuaternionVelocityCostOverallWeight, none,
        .control (fun u => four u.baseQuaternionDerivative) none st.desiredBaseQuaternionVelocityTrajectory⟩
  | .angularMomentum => when st.angularMomentumCostActive
      ⟨st.angularMomentumCostOverallWeight, none, .state (fun s _ => three s.angularMomentum) none none⟩

/-- The term agrees with what is asked. -/
structure Honours (d n : Nat) (t : Term K T) (a : Asked K T) : Prop where
  weight : t.weight = a.weight
  range : t.range = a.range
  aim : Realises d n t.body a.aim

/-- The cost `k` is in the problem exactly once, as asked, or it is not in the problem if it is not asked. -/
def CostHonoured [Zero K] (st : ProblemSettings K T) (terms : List (Term K T)) (k : Cost) : Prop :=
  match asked st k with
  | none => ∀ t ∈ terms, t.cost ≠ k
  | some a => ∃ t, terms.filter (fun t => t.cost = k) = [t] ∧ Honours st.dofs st.leftPointsPosition.length t a

/-- The vectors of weights have the size of what they weigh and the references are given, for the active costs. -/
structure Ready (st : ProblemSettings K T) : Prop where
  com : st.comCostActive → st.comWeights.length = 3 ∧ st.desiredCoMTrajectory.isSome
  comVelocity : st.comVelocityCostActive → st.comVelocityWeights.length = 3 ∧ st.desiredCoMVelocityTrajectory.isSome
  frame : st.frameCostActive → st.desiredRotationTrajectory.isSome ∧ st.frameCostTimeVaryingWeight.isSome
  ratio : st.forceRatioCostActive →
    st.leftPointsPosition.length ≤ st.desiredLeftRatios.length ∧ st.rightPointsPosition.length ≤ st.desiredRightRatios.length
  regularization : st.jointsRegularizationCostActive → st.jointsRegularizationWeights.length = st.dofs ∧ st.desiredJointsTrajectory.isSome
  jointsVelocity : st.jointsVelocityCostActive → st.jointsVelocityCostWeights.length = st.dofs ∧ st.desiredJointsVelocityTrajectory.isSome
  torques : st.staticTorquesCostActive → st.staticTorquesCostWeights.length = st.dofs
  forceDerivative : st.forceDerivativeCostActive → st.forceDerivativeWeights.length = 3 ∧ st.desiredForceDerivativeTrajectory.isSome
  acceleration : st.pointAccelerationCostActive → st.pointAccelerationWeights.length = 3 ∧ st.desiredPointAccelerationTrajectory.isSome
  mean : st.meanPointPositionCostActive → st.meanPointPositionCostTimeVaryingWeight.isSome
  leftYaw : st.leftFootYawCostActive → st.desiredLeftFootYaw.isSome
  rightYaw : st.rightFootYawCostActive → st.desiredRightFootYaw.isSome
  postural : st.jointsVelocityForPosturalCostActive →
    st.jointsRegularizationWeights.length = st.dofs ∧ st.jointsVelocityCostWeights.length = st.dofs ∧ st.desiredJointsTrajectory.isSome
  basePosition : st.basePositionCostActive → st.basePositionCostWeights.length = 3 ∧ st.desiredBasePositionTrajectory.isSome
  baseQuaternion : st.baseQuaternionCostActive → st.desiredBaseQuaternionTrajectory.isSome
  baseVelocity : st.baseLinearVelocityCostActive → st.baseLinearVelocityCostWeights.length = 3 ∧ st.desiredBaseLinearVelocityTrajectory.isSome
  quaternionVelocity : st.baseQuaternionVelocityCostActive → st.desiredBaseQuaternionVelocityTrajectory.isSome

/-- `OptimalControlProblem::addLagrangeTerm` (external): refuses a name already used and an invalid time range. -/
def ocpCosts (validRange : TimeRange K → Bool) (before : List (Term K T)) (t : Term K T) : Bool :=
  !(before.map fun x => x.cost.name).contains t.cost.name && (t.range.map validRange).getD true

/-- `OptimalControlProblem::addConstraint` (external): refuses a name already used. -/
def ocpConstraints (before : List (Con K)) (t : Con K) : Bool := !(before.map Con.name).contains t.name

/-- The frame of a foot. -/
def footFrame (st : ProblemSettings K T) : Foot → String
  | .left => st.leftFrameName
  | .right => st.rightFrameName

/-- `i` is the index of a contact point of the foot. -/
def IsPoint (st : ProblemSettings K T) (foot : Foot) (i : Nat) : Prop := i < (footPoints st foot).length

/-- The table of the constraints: which constraints the settings ask for, with all the parameters. -/
def Wanted [Field K] (st : ProblemSettings K T) : Con K → Prop
  | .centroidalMomentum lower upper =>
    lower = -st.centroidalMomentumConstraintTolerance / 2 ∧ upper = st.centroidalMomentumConstraintTolerance / 2
  | .comPosition lower upper => lower = -st.comPositionConstraintTolerance / 2 ∧ upper = st.comPositionConstraintTolerance / 2
  | .feetLateralDistance direction reference other lower =>
    direction = st.indexOfLateralDirection ∧ reference = st.referenceFrameNameForFeetDistance ∧
    other = st.otherFrameNameForFeetDistance ∧ lower = st.minimumFeetDistance
  | .quaternionNorm lower upper => lower = -st.quaternionModulusConstraintTolerance / 2 ∧ upper = st.quaternionModulusConstraintTolerance / 2
  | .feetRelativeHeight maximum => maximum = st.feetMaximumRelativeHeight
  | .planarVelocityControl foot i scaling x y => IsPoint st foot i ∧ st.planarComplementarity = .hyperbolicTangentInequality ∧
    scaling = st.planarVelocityHyperbolicTangentScaling ∧ x = st.velocityMaximumDerivative.x ∧ y = st.velocityMaximumDerivative.y
  | .classicalPlanarComplementarity foot i tolerance => IsPoint st foot i ∧ st.planarComplementarity = .classical ∧
    tolerance = st.classicalPlanarComplementarityTolerance
  | .dynamicalComplementarity foot i dissipation upperBound => IsPoint st foot i ∧ st.complementarity = .dynamical ∧
    dissipation = st.complementarityDissipation ∧ upperBound = st.dynamicComplementarityUpperBound
  | .forceControl foot i scaling maximum dissipation => IsPoint st foot i ∧ st.complementarity = .hyperbolicSecantInequality ∧
    scaling = st.normalForceHyperbolicSecantScaling ∧ maximum = st.forceMaximumDerivative.z ∧ dissipation = st.normalForceDissipationRatio
  | .classicalComplementarity foot i tolerance => IsPoint st foot i ∧ st.complementarity = .classical ∧
    tolerance = st.classicalComplementarityTolerance
  | .friction foot i coefficient => IsPoint st foot i ∧ coefficient = st.frictionCoefficient
  | .contactPosition foot i frame point lower upper => (footPoints st foot)[i]? = some point ∧ frame = footFrame st foot ∧
    lower = -st.pointPositionConstraintTolerance / 2 ∧ upper = st.pointPositionConstraintTolerance / 2

/-- The parameters of the constraints are in their domains. -/
structure ConstraintsReady [Field K] [LinearOrder K] (st : ProblemSettings K T) : Prop where
  momentum : 0 ≤ st.centroidalMomentumConstraintTolerance
  com : 0 ≤ st.comPositionConstraintTolerance
  lateral : st.indexOfLateralDirection < 3
  quaternion : 0 ≤ st.quaternionModulusConstraintTolerance
  leftPoints : 0 < st.leftPointsPosition.length
  rightPoints : 0 < st.rightPointsPosition.length
  friction : 0 < st.frictionCoefficient
  points : 0 ≤ st.pointPositionConstraintTolerance

/-- The constraint keeps the point still while it is in contact. -/
def planarFor (foot : Foot) (i : Nat) : Con K → Bool
  | .planarVelocityControl f j _ _ _ | .classicalPlanarComplementarity f j _ => decide (f = foot ∧ j = i)
  | _ => false

/-- The constraint relates the normal force of the point to its height. -/
def normalFor (foot : Foot) (i : Nat) : Con K → Bool
  | .dynamicalComplementarity f j _ _ | .forceControl f j _ _ _ | .classicalComplementarity f j _ => decide (f = foot ∧ j = i)
  | _ => false

/-- The friction constraint of the point. -/
def frictionFor (foot : Foot) (i : Nat) : Con K → Bool
  | .friction f j _ => decide (f = foot ∧ j = i)
  | _ => false

/-- The consistency of the position of the point with the joints. -/
def positionFor (foot : Foot) (i : Nat) : Con K → Bool
  | .contactPosition f j .. => decide (f = foot ∧ j = i)
  | _ => false

/-- The time ranges of the active costs are valid. -/
structure RangesValid (valid : TimeRange K → Bool) (st : ProblemSettings K T) : Prop where
  com : st.comCostActive → valid st.comCostActiveRange
  comVelocity : st.comVelocityCostActive → valid st.comVelocityCostActiveRange
  mean : st.meanPointPositionCostActive → valid st.meanPointPositionCostActiveRange
  basePosition : st.basePositionCostActive → valid st.basePositionCostActiveRange

/-- The settings given to the solver (`st`) are the ones that were validated (`i`). -/
structure Describes {R : Type} (valid : TimeRange K → Bool) (i : Settings.SettingsStruct K R) (st : ProblemSettings K T) : Prop where
  dofs : st.dofs = i.robotModel.nrOfDOFs
  leftPoints : st.leftPointsPosition.length = i.nLeftPoints
  rightPoints : st.rightPointsPosition.length = i.nRightPoints
  friction : st.frictionCoefficient = i.frictionCoefficient
  lateral : st.indexOfLateralDirection = i.indexOfLateralDirection
  feetDistance : st.minimumFeetDistance = i.minimumFeetDistance
  comTolerance : st.comPositionConstraintTolerance = i.comPositionConstraintTolerance
  momentumTolerance : st.centroidalMomentumConstraintTolerance = i.centroidalMomentumConstraintTolerance
  quaternionTolerance : st.quaternionModulusConstraintTolerance = i.quaternionModulusConstraintTolerance
  pointTolerance : st.pointPositionConstraintTolerance = i.pointPositionConstraintTolerance
  com : st.comCostActive = i.comCostActive ∧ st.comWeights.length = i.comWeightsSize ∧
    st.desiredCoMTrajectory.isSome = i.hasDesiredCoMTrajectory ∧ valid st.comCostActiveRange = i.comCostActiveRangeValid
  comVelocity : st.comVelocityCostActive = i.comVelocityCostActive ∧ st.comVelocityWeights.length = i.comVelocityWeightsSize ∧
    st.desiredCoMVelocityTrajectory.isSome = i.hasDesiredCoMVelocityTrajectory
  frame : st.frameCostActive = i.frameCostActive ∧ st.desiredRotationTrajectory.isSome = i.hasDesiredRotationTrajectory ∧
    st.frameCostTimeVaryingWeight.isSome = i.hasFrameCostTimeVaryingWeight
  ratio : st.forceRatioCostActive = i.forceRatioCostActive ∧ st.desiredLeftRatios = i.desiredLeftRatios ∧ st.desiredRightRatios = i.desiredRightRatios
  joints : st.jointsRegularizationCostActive = i.jointsRegularizationCostActive ∧
    st.jointsRegularizationWeights.length = i.jointsRegularizationWeightsSize ∧ st.desiredJointsTrajectory.isSome = i.hasDesiredJointsTrajectory
  torques : st.staticTorquesCostActive = i.staticTorquesCostActive ∧ st.staticTorquesCostWeights.length = i.staticTorquesCostWeightsSize
  forceDerivative : st.forceDerivativeCostActive = i.forceDerivativeCostActive ∧ st.forceDerivativeWeights.length = i.forceDerivativeWeightsSize
  acceleration : st.pointAccelerationCostActive = i.pointAccelerationCostActive ∧
    st.pointAccelerationWeights.length = i.pointAccelerationWeightsSize ∧
    st.desiredPointAccelerationTrajectory.isSome = i.hasDesiredPointAccelerationTrajectory
  mean : st.meanPointPositionCostActive = i.meanPointPositionCostActive ∧
    st.meanPointPositionCostTimeVaryingWeight.isSome = i.hasMeanPointPositionCostTimeVaryingWeight ∧
    valid st.meanPointPositionCostActiveRange = i.meanPointPositionCostActiveRangeValid
  basePosition : st.basePositionCostActive = i.basePositionCostActive ∧ st.basePositionCostWeights.length = i.basePositionCostWeightsSize ∧
    st.desiredBasePositionTrajectory.isSome = i.hasDesiredBasePositionTrajectory ∧
    valid st.basePositionCostActiveRange = i.basePositionCostActiveRangeValid
  baseQuaternion : st.baseQuaternionCostActive = i.baseQuaternionCostActive ∧
    st.desiredBaseQuaternionTrajectory.isSome = i.hasDesiredBaseQuaternionTrajectory
  baseVelocity : st.baseLinearVelocityCostActive = i.baseLinearVelocityCostActive ∧
    st.baseLinearVelocityCostWeights.length = i.baseLinearVelocityCostWeightsSize ∧
    st.desiredBaseLinearVelocityTrajectory.isSome = i.hasDesiredBaseLinearVelocityTrajectory
  quaternionVelocity : st.baseQuaternionVelocityCostActive = i.baseQuaternionVelocityCostActive ∧
    st.desiredBaseQuaternionVelocityTrajectory.isSome = i.hasDesiredBaseQuaternionVelocityTrajectory

/-- What the validation does not check although the solver needs it. -/
structure Unchecked [Field K] [LinearOrder K] (valid : TimeRange K → Bool) (st : ProblemSettings K T) : Prop where
  points : 0 < st.leftPointsPosition.length
  friction : st.frictionCoefficient ≠ 0
  comVelocityRange : st.comVelocityCostActive → valid st.comVelocityCostActiveRange
  jointsVelocity : st.jointsVelocityCostActive → st.jointsVelocityCostWeights.length = st.dofs ∧ st.desiredJointsVelocityTrajectory.isSome
  forceDerivative : st.forceDerivativeCostActive → st.desiredForceDerivativeTrajectory.isSome
  leftYaw : st.leftFootYawCostActive → st.desiredLeftFootYaw.isSome
  rightYaw : st.rightFootYawCostActive → st.desiredRightFootYaw.isSome
  postural : st.jointsVelocityForPosturalCostActive →
    st.jointsRegularizationWeights.length = st.dofs ∧ st.jointsVelocityCostWeights.length = st.dofs ∧ st.desiredJointsTrajectory.isSome

end Verif.SolverM.Spec
