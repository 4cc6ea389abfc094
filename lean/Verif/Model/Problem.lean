import Verif.Model.Packing
import Verif.Model.Reference
import Verif.Model.Settings
/-
How the solver assembles the optimal control problem: `setCosts` (src/Solver.cpp:384-878), `setConstraints` (lines 880-1126), the
dynamics and the kinematics objects of `specifySettings` (lines 1435-1495).

Simplifications: `double` is an ordered field; all the time varying objects have one type `T` and a shared pointer is an `Option T`;
a frame index is the name of the frame; `none` means "returns false or hits an assertion"; a cost or a constraint is represented by what
it was built from.  `iDynTree::optimalcontrol::OptimalControlProblem` is the list of what it accepted, and `accepts` is its decision on
one more element; `L2NormCost` (external) refuses weights whose size is not the one of its segment, a null reference, and any setting on
a segment that is not valid.
-/
namespace Verif.SolverM
open StateM
open Labeller (Labeller Range)
open Settings (ComplementarityType PlanarComplementarityType)
open Reference (TimeRange)

/-- Settings.h:36-245: the members read here. -/
structure ProblemSettings (K T : Type) where
  dofs : Nat
  gravity : V3 K
  updateTolerance : K
  floatingBaseName : String
  leftPointsPosition : List (V3 K)
  rightPointsPosition : List (V3 K)
  leftFrameName : String
  rightFrameName : String
  complementarity : ComplementarityType
  forceMaximumDerivative : V3 K
  normalForceDissipationRatio : K
  normalForceHyperbolicSecantScaling : K
  complementarityDissipation : K
  dynamicComplementarityUpperBound : K
  classicalComplementarityTolerance : K
  frictionCoefficient : K
  planarComplementarity : PlanarComplementarityType
  velocityMaximumDerivative : V3 K
  planarVelocityHyperbolicTangentScaling : K
  classicalPlanarComplementarityTolerance : K
  indexOfLateralDirection : Nat
  minimumFeetDistance : K
  referenceFrameNameForFeetDistance : String
  otherFrameNameForFeetDistance : String
  feetMaximumRelativeHeight : K
  comPositionConstraintTolerance : K
  centroidalMomentumConstraintTolerance : K
  quaternionModulusConstraintTolerance : K
  pointPositionConstraintTolerance : K
  comCostActive : Bool
  comCostOverallWeight : K
  comCostActiveRange : TimeRange K
  comWeights : List K
  desiredCoMTrajectory : Option T
  comVelocityCostActive : Bool
  comVelocityCostOverallWeight : K
  comVelocityWeights : List K
  comVelocityCostActiveRange : TimeRange K
  desiredCoMVelocityTrajectory : Option T
  frameCostActive : Bool
  frameCostOverallWeight : K
  frameForOrientationCost : String
  desiredRotationTrajectory : Option T
  frameCostTimeVaryingWeight : Option T
  forceMeanCostActive : Bool
  forceMeanCostOverallWeight : K
  forceRatioCostActive : Bool
  forceRatioCostOverallWeight : K
  desiredLeftRatios : List K
  desiredRightRatios : List K
  jointsRegularizationCostActive : Bool
  jointsRegularizationCostOverallWeight : K
  desiredJointsTrajectory : Option T
  jointsRegularizationWeights : List K
  jointsVelocityCostActive : Bool
  jointsVelocityCostOverallWeight : K
  desiredJointsVelocityTrajectory : Option T
  jointsVelocityCostWeights : List K
  staticTorquesCostActive : Bool
  staticTorquesCostOverallWeight : K
  staticTorquesCostWeights : List K
  forceDerivativeCostActive : Bool
  forceDerivativesCostOverallWeight : K
  desiredForceDerivativeTrajectory : Option T
  forceDerivativeWeights : List K
  pointAccelerationCostActive : Bool
  pointAccelerationCostOverallWeight : K
  desiredPointAccelerationTrajectory : Option T
  pointAccelerationWeights : List K
  swingCostActive : Bool
  swingCostOverallWeight : K
  desiredSwingHeight : K
  swingCostWeights : V3 K
  phantomForcesCostActive : Bool
  phantomForcesCostOverallWeight : K
  meanPointPositionCostActive : Bool
  meanPointPositionCostOverallWeight : K
  meanPointPositionCostTimeVaryingWeight : Option T
  meanPointPositionCostActiveRange : TimeRange K
  desiredMeanPointPosition : Option T
  leftFootYawCostActive : Bool
  leftFootYawCostOverallWeight : K
  desiredLeftFootYaw : Option T
  rightFootYawCostActive : Bool
  rightFootYawCostOverallWeight : K
  desiredRightFootYaw : Option T
  feetDistanceCostActive : Bool
  feetDistanceCostOverallWeight : K
  jointsVelocityForPosturalCostActive : Bool
  jointsVelocityForPosturalCostOverallWeight : K
  complementarityCostActive : Bool
  complementarityCostOverallWeight : K
  basePositionCostActive : Bool
  basePositionCostOverallWeight : K
  basePositionCostActiveRange : TimeRange K
  basePositionCostWeights : List K
  desiredBasePositionTrajectory : Option T
  baseQuaternionCostActive : Bool
  baseQuaternionCostOverallWeight : K
  desiredBaseQuaternionTrajectory : Option T
  frameAngularVelocityCostActive : Bool
  frameAngularVelocityCostOverallWeight : K
  rotationalPIDgain : K
  baseLinearVelocityCostActive : Bool
  baseLinearVelocityCostOverallWeight : K
  baseLinearVelocityCostWeights : List K
  desiredBaseLinearVelocityTrajectory : Option T
  baseQuaternionVelocityCostActive : Bool
  baseQuaternionVelocityCostOverallWeight : K
  desiredBaseQuaternionVelocityTrajectory : Option T
  angularMomentumCostActive : Bool
  angularMomentumCostOverallWeight : K

/-- The two feet. -/
inductive Foot where
  | left | right
deriving DecidableEq

/-- The `footName` given to the constructors. -/
def Foot.name : Foot → String
  | .left => "Left"
  | .right => "Right"

/-- The member `costs` of the implementation (Solver.cpp:40-72): one constructor for each cost object. -/
inductive Cost where
  | comPosition | comVelocity | frameOrientation
  | forceMean (foot : Foot) (i : Nat)
  | forceRatio (foot : Foot) (i : Nat)
  | jointsRegularization | jointsVelocity | staticTorques
  | forceDerivative (foot : Foot) (i : Nat)
  | pointAcceleration (foot : Foot) (i : Nat)
  | swing (foot : Foot) (i : Nat)
  | phantomForces (foot : Foot) (i : Nat)
  | meanPointPosition
  | footYaw (foot : Foot)
  | feetDistance | jointsVelocityForPostural
  | complementarity (foot : Foot) (i : Nat)
  | basePosition | baseQuaternion | frameAngularVelocity | baseLinearVelocity | baseQuaternionVelocity | angularMomentum
deriving DecidableEq

/-- The names given to the base class: Solver.cpp:388, 489, 511, 551, 575, 602, 624, 767, 790, 818, 842, 863 and the initialiser lists of
the private classes (CoMVelocityCost.cpp:67, FrameOrientationCost.cpp:87, ForceMeanCost.cpp:35, ForceRatioCost.cpp:36,
StaticTorquesCost.cpp:211, SwingCost.cpp:29, PhantomForcesCost.cpp:35, MeanPointPositionCost.cpp:34, FootYawCost.cpp:34,
FeetDistanceCost.cpp:32, JointsVelocityForPosturalCost.cpp:30, ComplementarityCost.cpp:33, FrameAngularVelocityCost.cpp:97). -/
def Cost.name : Cost → String
  | .comPosition => "CoMCost"
  | .comVelocity => "CoMVelocity"
  | .frameOrientation => "FrameOrientation"
  | .forceMean f i => "ForceMean" ++ f.name ++ toString i
  | .forceRatio f i => "ForceRatio" ++ f.name ++ toString i
  | .jointsRegularization => "JointsRegularizations"
  | .jointsVelocity => "JointsVelocity"
  | .staticTorques => "StaticTorques"
  | .forceDerivative .left i => "ForceDerivativeLeft" ++ toString i
  | .forceDerivative .right i => "ForceDerivativeRight" ++ toString i
  | .pointAcceleration .left i => "AccelerationLeft" ++ toString i
  | .pointAcceleration .right i => "AccelerationRight" ++ toString i
  | .swing f i => "Swing" ++ f.name ++ toString i
  | .phantomForces f i => "PhantomForces" ++ f.name ++ toString i
  | .meanPointPosition => "MeanPointPosition"
  | .footYaw f => f.name ++ "FootYawCost"
  | .feetDistance => "FeetDistance"
  | .jointsVelocityForPostural => "JointsVelocityForPostural"
  | .complementarity f i => "Complementarity" ++ f.name ++ toString i
  | .basePosition => "RootCost"
  | .baseQuaternion => "BaseOrientationCost"
  | .frameAngularVelocity => "FrameAngularVelocity"
  | .baseLinearVelocity => "BaseLinearVelocityCost"
  | .baseQuaternionVelocity => "BaseQuaternionVelocityCost"
  | .angularMomentum => "AngularMomentumCost"

/-- What a cost object was built from.  A reference or a weight equal to `none` is the default of the class. -/
inductive Body (K T : Type) where
  /-- a segment of the state -/
  | stateNorm (segment : Range) (weights : Option (List K)) (reference : Option T)
  /-- a segment of the control -/
  | controlNorm (segment : Range) (weights : Option (List K)) (reference : Option T)
  /-- a segment of the state, the reference is multiplied by the mass -/
  | linearMomentumNorm (segment : Range) (weights : Option (List K)) (velocityReference : Option T)
  | frameOrientation (frame : String) (reference timeVaryingWeight : Option T)
  | forceMean
  | forceRatio (ratio : K)
  | staticTorques (leftFrame rightFrame : String) (leftPoints rightPoints : List (V3 K)) (weights : List K)
  | swing (height : K) (weights : V3 K)
  | phantomForces (secantScaling : K)
  | meanPointPosition (reference timeVaryingWeight : Option T)
  | footYaw (points : List (V3 K)) (reference : Option T)
  | feetDistance
  | jointsVelocityForPostural (weights gains : List K) (reference : Option T)
  | complementarity
  | frameAngularVelocity (frame : String) (gain : K) (reference : Option T)
deriving DecidableEq

/-- A Lagrange term: the cost, the weight and the time range of `addLagrangeTerm` (`none`: always). -/
structure Term (K T : Type) where
  cost : Cost
  weight : K
  range : Option (TimeRange K)
  body : Body K T

/-- `addLagrangeTerm` and `addConstraint`: what was accepted before, then the new one. -/
def push {α : Type} (accepts : List α → α → Bool) (t : α) (p : List α) : Option (List α) :=
  if accepts p t then some (p ++ [t]) else none

/-- `if (!ok) return false`, or an assertion. -/
def require (b : Bool) : Option Unit := if b then some () else none

/-- `for (size_t i = 0; i < n; ++i)` over a body that changes the problem. -/
def forPoints {α : Type} (body : Nat → List α → Option (List α)) : Nat → List α → Option (List α)
  | 0, p => some p
  | n + 1, p =>
    match forPoints body n p with
    | none => none
    | some p => body n p

section Costs
variable {K T : Type} (accepts : List (Term K T) → Term K T → Bool) (st : ProblemSettings K T) (s c : Labeller K)

/-- `setStateWeight` and `setControlWeight` on a segment. -/
def weightsFit (segment : Range) (weights : List K) : Bool := decide (weights.length = segment.size)

/-- Solver.cpp:387-407. -/
def addCoMPosition (p : List (Term K T)) : Option (List (Term K T)) :=
  if st.comCostActive then do
    let segment ← Labeller.getIndexRange s "CoMPosition"
    require (weightsFit segment st.comWeights)
    require st.desiredCoMTrajectory.isSome
    push accepts ⟨.comPosition, st.comCostOverallWeight, some st.comCostActiveRange,
      .stateNorm segment (some st.comWeights) st.desiredCoMTrajectory⟩ p
  else some p

/-- Solver.cpp:409-426; the segment is built at CoMVelocityCost.cpp:67, the reference is set at CoMVelocityCost.cpp:92-96. -/
def addCoMVelocity (p : List (Term K T)) : Option (List (Term K T)) :=
  if st.comVelocityCostActive then do
    let momentum ← Labeller.getIndexRange s "Momentum"
    let segment : Range := ⟨momentum.offset, 3⟩
    require (weightsFit segment st.comVelocityWeights)
    require st.desiredCoMVelocityTrajectory.isSome
    push accepts ⟨.comVelocity, st.comVelocityCostOverallWeight, some st.comVelocityCostActiveRange,
      .linearMomentumNorm segment (some st.comVelocityWeights) st.desiredCoMVelocityTrajectory⟩ p
  else some p

/-- Solver.cpp:428-444; FrameOrientationCost.cpp:168-180. -/
def addFrameOrientation (p : List (Term K T)) : Option (List (Term K T)) :=
  if st.frameCostActive then do
    require st.desiredRotationTrajectory.isSome
    require st.frameCostTimeVaryingWeight.isSome
    push accepts ⟨.frameOrientation, st.frameCostOverallWeight, none,
      .frameOrientation st.frameForOrientationCost st.desiredRotationTrajectory st.frameCostTimeVaryingWeight⟩ p
  else some p

/-- Solver.cpp:446-463. -/
def addForceMean (p : List (Term K T)) : Option (List (Term K T)) :=
  if st.forceMeanCostActive then do
    let p ← forPoints (fun i => push accepts ⟨.forceMean .left i, st.forceMeanCostOverallWeight, none, .forceMean⟩) st.leftPointsPosition.length p
    forPoints (fun i => push accepts ⟨.forceMean .right i, st.forceMeanCostOverallWeight, none, .forceMean⟩) st.rightPointsPosition.length p
  else some p

/-- Solver.cpp:465-484 (the weight is the one of the force mean cost, lines 470 and 479). -/
def addForceRatio (p : List (Term K T)) : Option (List (Term K T)) :=
  if st.forceRatioCostActive then do
    let p ← forPoints (fun i p => do
      let ratio ← st.desiredLeftRatios[i]?
      push accepts ⟨.forceRatio .left i, st.forceMeanCostOverallWeight, none, .forceRatio ratio⟩ p) st.leftPointsPosition.length p
    forPoints (fun i p => do
      let ratio ← st.desiredRightRatios[i]?
      push accepts ⟨.forceRatio .right i, st.forceMeanCostOverallWeight, none, .forceRatio ratio⟩ p) st.rightPointsPosition.length p
  else some p

/-- Solver.cpp:486-506. -/
def addJointsRegularization (p : List (Term K T)) : Option (List (Term K T)) :=
  if st.jointsRegularizationCostActive then do
    let segment ← Labeller.getIndexRange s "JointsPosition"
    require (weightsFit segment st.jointsRegularizationWeights)
    require st.desiredJointsTrajectory.isSome
    push accepts ⟨.jointsRegularization, st.jointsRegularizationCostOverallWeight, none,
      .stateNorm segment (some st.jointsRegularizationWeights) st.desiredJointsTrajectory⟩ p
  else some p

/-- Solver.cpp:508-527. -/
def addJointsVelocity (p : List (Term K T)) : Option (List (Term K T)) :=
  if st.jointsVelocityCostActive then do
    let segment ← Labeller.getIndexRange c "JointsVelocity"
    require (weightsFit segment st.jointsVelocityCostWeights)
    require st.desiredJointsVelocityTrajectory.isSome
    push accepts ⟨.jointsVelocity, st.jointsVelocityCostOverallWeight, none,
      .controlNorm segment (some st.jointsVelocityCostWeights) st.desiredJointsVelocityTrajectory⟩ p
  else some p

/-- Solver.cpp:529-544; StaticTorquesCost.cpp:257-265 (the weights have the size of the joints). -/
def addStaticTorques (p : List (Term K T)) : Option (List (Term K T)) :=
  if st.staticTorquesCostActive then do
    let joints ← Labeller.getIndexRange s "JointsPosition"
    require (weightsFit joints st.staticTorquesCostWeights)
    push accepts ⟨.staticTorques, st.staticTorquesCostOverallWeight, none,
      .staticTorques st.leftFrameName st.rightFrameName st.leftPointsPosition st.rightPointsPosition st.staticTorquesCostWeights⟩ p
  else some p

/-- Solver.cpp:546-593. -/
def addForceDerivative (p : List (Term K T)) : Option (List (Term K T)) :=
  if st.forceDerivativeCostActive then do
    let p ← forPoints (fun i p => do
      let segment ← Labeller.getIndexRange c ("LeftForceControlPoint" ++ toString i)
      require (weightsFit segment st.forceDerivativeWeights)
      require st.desiredForceDerivativeTrajectory.isSome
      push accepts ⟨.forceDerivative .left i, st.forceDerivativesCostOverallWeight, none,
        .controlNorm segment (some st.forceDerivativeWeights) st.desiredForceDerivativeTrajectory⟩ p) st.leftPointsPosition.length p
    forPoints (fun i p => do
      let segment ← Labeller.getIndexRange c ("RightForceControlPoint" ++ toString i)
      require (weightsFit segment st.forceDerivativeWeights)
      require st.desiredForceDerivativeTrajectory.isSome
      push accepts ⟨.forceDerivative .right i, st.forceDerivativesCostOverallWeight, none,
        .controlNorm segment (some st.forceDerivativeWeights) st.desiredForceDerivativeTrajectory⟩ p) st.rightPointsPosition.length p
  else some p

/-- Solver.cpp:595-641. -/
def addPointAcceleration (p : List (Term K T)) : Option (List (Term K T)) :=
  if st.pointAccelerationCostActive then do
    let p ← forPoints (fun i p => do
      let segment ← Labeller.getIndexRange c ("LeftVelocityControlPoint" ++ toString i)
      require (weightsFit segment st.pointAccelerationWeights)
      require st.desiredPointAccelerationTrajectory.isSome
      push accepts ⟨.pointAcceleration .left i, st.pointAccelerationCostOverallWeight, none,
        .controlNorm segment (some st.pointAccelerationWeights) st.desiredPointAccelerationTrajectory⟩ p) st.leftPointsPosition.length p
    forPoints (fun i p => do
      let segment ← Labeller.getIndexRange c ("RightVelocityControlPoint" ++ toString i)
      require (weightsFit segment st.pointAccelerationWeights)
      require st.desiredPointAccelerationTrajectory.isSome
      push accepts ⟨.pointAcceleration .right i, st.pointAccelerationCostOverallWeight, none,
        .controlNorm segment (some st.pointAccelerationWeights) st.desiredPointAccelerationTrajectory⟩ p) st.rightPointsPosition.length p
  else some p

/-- Solver.cpp:643-662. -/
def addSwing (p : List (Term K T)) : Option (List (Term K T)) :=
  if st.swingCostActive then do
    let p ← forPoints (fun i => push accepts ⟨.swing .left i, st.swingCostOverallWeight, none,
      .swing st.desiredSwingHeight st.swingCostWeights⟩) st.leftPointsPosition.length p
    forPoints (fun i => push accepts ⟨.swing .right i, st.swingCostOverallWeight, none,
      .swing st.desiredSwingHeight st.swingCostWeights⟩) st.rightPointsPosition.length p
  else some p

/-- Solver.cpp:664-686. -/
def addPhantomForces (p : List (Term K T)) : Option (List (Term K T)) :=
  if st.phantomForcesCostActive then do
    let p ← forPoints (fun i => push accepts ⟨.phantomForces .left i, st.phantomForcesCostOverallWeight, none,
      .phantomForces st.normalForceHyperbolicSecantScaling⟩) st.leftPointsPosition.length p
    forPoints (fun i => push accepts ⟨.phantomForces .right i, st.phantomForcesCostOverallWeight, none,
      .phantomForces st.normalForceHyperbolicSecantScaling⟩) st.rightPointsPosition.length p
  else some p

/-- Solver.cpp:688-696; MeanPointPositionCost.cpp:47, 81-95 (a null reference is refused, the result is ignored, and the reference stays
the default one). -/
def addMeanPointPosition (p : List (Term K T)) : Option (List (Term K T)) :=
  if st.meanPointPositionCostActive then do
    require (decide (0 < st.leftPointsPosition.length + st.rightPointsPosition.length))
    require st.meanPointPositionCostTimeVaryingWeight.isSome
    push accepts ⟨.meanPointPosition, st.meanPointPositionCostOverallWeight, some st.meanPointPositionCostActiveRange,
      .meanPointPosition st.desiredMeanPointPosition st.meanPointPositionCostTimeVaryingWeight⟩ p
  else some p

/-- Solver.cpp:698-705.  The three corners required by the constructor (FootYawCost.cpp:82-87) are not checked here. -/
def addLeftFootYaw (p : List (Term K T)) : Option (List (Term K T)) :=
  if st.leftFootYawCostActive then do
    require st.desiredLeftFootYaw.isSome
    push accepts ⟨.footYaw .left, st.leftFootYawCostOverallWeight, none, .footYaw st.leftPointsPosition st.desiredLeftFootYaw⟩ p
  else some p

/-- Solver.cpp:707-714. -/
def addRightFootYaw (p : List (Term K T)) : Option (List (Term K T)) :=
  if st.rightFootYawCostActive then do
    require st.desiredRightFootYaw.isSome
    push accepts ⟨.footYaw .right, st.rightFootYawCostOverallWeight, none, .footYaw st.rightPointsPosition st.desiredRightFootYaw⟩ p
  else some p

/-- Solver.cpp:716-723; FeetDistanceCost.cpp:53. -/
def addFeetDistance (p : List (Term K T)) : Option (List (Term K T)) :=
  if st.feetDistanceCostActive then do
    require (decide (0 < st.leftPointsPosition.length) && decide (0 < st.rightPointsPosition.length))
    push accepts ⟨.feetDistance, st.feetDistanceCostOverallWeight, none, .feetDistance⟩ p
  else some p

/-- Solver.cpp:725-735; JointsVelocityForPosturalCost.cpp:36-52. -/
def addJointsVelocityForPostural (p : List (Term K T)) : Option (List (Term K T)) :=
  if st.jointsVelocityForPosturalCostActive then do
    let joints ← Labeller.getIndexRange s "JointsPosition"
    require (weightsFit joints st.jointsRegularizationWeights)
    require (weightsFit joints st.jointsVelocityCostWeights)
    require st.desiredJointsTrajectory.isSome
    push accepts ⟨.jointsVelocityForPostural, st.jointsVelocityForPosturalCostOverallWeight, none,
      .jointsVelocityForPostural st.jointsVelocityCostWeights st.jointsRegularizationWeights st.desiredJointsTrajectory⟩ p
  else some p

/-- Solver.cpp:738-760. -/
def addComplementarity (p : List (Term K T)) : Option (List (Term K T)) :=
  if st.complementarityCostActive then do
    let p ← forPoints (fun i => push accepts ⟨.complementarity .left i, st.complementarityCostOverallWeight, none, .complementarity⟩)
      st.leftPointsPosition.length p
    forPoints (fun i => push accepts ⟨.complementarity .right i, st.complementarityCostOverallWeight, none, .complementarity⟩)
      st.rightPointsPosition.length p
  else some p

/-- Solver.cpp:762-783. -/
def addBasePosition (p : List (Term K T)) : Option (List (Term K T)) :=
  if st.basePositionCostActive then do
    let segment ← Labeller.getIndexRange s "BasePosition"
    require (weightsFit segment st.basePositionCostWeights)
    require st.desiredBasePositionTrajectory.isSome
    push accepts ⟨.basePosition, st.basePositionCostOverallWeight, some st.basePositionCostActiveRange,
      .stateNorm segment (some st.basePositionCostWeights) st.desiredBasePositionTrajectory⟩ p
  else some p

/-- Solver.cpp:785-803. -/
def addBaseQuaternion (p : List (Term K T)) : Option (List (Term K T)) :=
  if st.baseQuaternionCostActive then do
    let segment ← Labeller.getIndexRange s "BaseQuaternion"
    require st.desiredBaseQuaternionTrajectory.isSome
    push accepts ⟨.baseQuaternion, st.baseQuaternionCostOverallWeight, none,
      .stateNorm segment none st.desiredBaseQuaternionTrajectory⟩ p
  else some p

/-- Solver.cpp:805-815; FrameAngularVelocityCost.cpp:168-174 (a null reference is refused, the result is ignored). -/
def addFrameAngularVelocity (p : List (Term K T)) : Option (List (Term K T)) :=
  if st.frameAngularVelocityCostActive then
    push accepts ⟨.frameAngularVelocity, st.frameAngularVelocityCostOverallWeight, none,
      .frameAngularVelocity st.frameForOrientationCost st.rotationalPIDgain st.desiredRotationTrajectory⟩ p
  else some p

/-- Solver.cpp:817-840. -/
def addBaseLinearVelocity (p : List (Term K T)) : Option (List (Term K T)) :=
  if st.baseLinearVelocityCostActive then do
    let segment ← Labeller.getIndexRange c "BaseLinearVelocity"
    require (weightsFit segment st.baseLinearVelocityCostWeights)
    require st.desiredBaseLinearVelocityTrajectory.isSome
    push accepts ⟨.baseLinearVelocity, st.baseLinearVelocityCostOverallWeight, none,
      .controlNorm segment (some st.baseLinearVelocityCostWeights) st.desiredBaseLinearVelocityTrajectory⟩ p
  else some p

/-- Solver.cpp:842-860. -/
def addBaseQuaternionVelocity (p : List (Term K T)) : Option (List (Term K T)) :=
  if st.baseQuaternionVelocityCostActive then do
    let segment ← Labeller.getIndexRange c "BaseQuaternionDerivative"
    require st.desiredBaseQuaternionVelocityTrajectory.isSome
    push accepts ⟨.baseQuaternionVelocity, st.baseQuaternionVelocityCostOverallWeight, none,
      .controlNorm segment none st.desiredBaseQuaternionVelocityTrajectory⟩ p
  else some p

/-- Solver.cpp:862-876. -/
def addAngularMomentum (p : List (Term K T)) : Option (List (Term K T)) :=
  if st.angularMomentumCostActive then do
    let momentum ← Labeller.getIndexRange s "Momentum"
    push accepts ⟨.angularMomentum, st.angularMomentumCostOverallWeight, none, .stateNorm ⟨momentum.offset + 3, 3⟩ none none⟩ p
  else some p

/-- Solver.cpp:384-878 (`setCosts`) on a new problem (line 1462): the terms of the problem, `none` if it fails. -/
def setCosts : Option (List (Term K T)) := do
  let p ← addCoMPosition accepts st s []
  let p ← addCoMVelocity accepts st s p
  let p ← addFrameOrientation accepts st p
  let p ← addForceMean accepts st p
  let p ← addForceRatio accepts st p
  let p ← addJointsRegularization accepts st s p
  let p ← addJointsVelocity accepts st c p
  let p ← addStaticTorques accepts st s p
  let p ← addForceDerivative accepts st c p
  let p ← addPointAcceleration accepts st c p
  let p ← addSwing accepts st p
  let p ← addPhantomForces accepts st p
  let p ← addMeanPointPosition accepts st p
  let p ← addLeftFootYaw accepts st p
  let p ← addRightFootYaw accepts st p
  let p ← addFeetDistance accepts st p
  let p ← addJointsVelocityForPostural accepts st s p
  let p ← addComplementarity accepts st p
  let p ← addBasePosition accepts st s p
  let p ← addBaseQuaternion accepts st s p
  let p ← addFrameAngularVelocity accepts st p
  let p ← addBaseLinearVelocity accepts st c p
  let p ← addBaseQuaternionVelocity accepts st c p
  addAngularMomentum accepts st s p

end Costs

/-- A constraint of the problem and what it was built from (the member `constraints`, Solver.cpp:47-72). -/
inductive Con (K : Type) where
  | centroidalMomentum (lower upper : K)
  | comPosition (lower upper : K)
  | feetLateralDistance (direction : Nat) (referenceFrame otherFrame : String) (lower : K)
  | quaternionNorm (lower upper : K)
  | feetRelativeHeight (maximum : K)
  | planarVelocityControl (foot : Foot) (i : Nat) (tangentScaling maximumX maximumY : K)
  | classicalPlanarComplementarity (foot : Foot) (i : Nat) (tolerance : K)
  | dynamicalComplementarity (foot : Foot) (i : Nat) (dissipation upperBound : K)
  | forceControl (foot : Foot) (i : Nat) (secantScaling maximumNormalDerivative dissipation : K)
  | classicalComplementarity (foot : Foot) (i : Nat) (tolerance : K)
  | friction (foot : Foot) (i : Nat) (coefficient : K)
  | contactPosition (foot : Foot) (i : Nat) (frame : String) (point : V3 K) (lower upper : K)
deriving DecidableEq

/-- The names given to the base class in the initialiser lists of the constraints. -/
def Con.name {K : Type} : Con K → String
  | .centroidalMomentum .. => "CentroidalMomentum"
  | .comPosition .. => "CoMPosition"
  | .feetLateralDistance .. => "FeetLateralConstraint"
  | .quaternionNorm .. => "QuaternionNorm"
  | .feetRelativeHeight .. => "MaxRelativeHeight"
  | .planarVelocityControl f i .. => "PlanarVelocityControlBounds" ++ f.name ++ toString i
  | .classicalPlanarComplementarity f i _ => "ClassicalPlanarComplementarity" ++ f.name ++ toString i
  | .dynamicalComplementarity f i .. => "DynamicalComplementarity" ++ f.name ++ toString i
  | .forceControl f i .. => "ForceControlBounds" ++ f.name ++ toString i
  | .classicalComplementarity f i _ => "ClassicalComplementarity" ++ f.name ++ toString i
  | .friction f i _ => "ContactFriction" ++ f.name ++ toString i
  | .contactPosition f i .. => "ContactPositionConsistency" ++ f.name ++ toString i

section Constraints
variable {K T : Type} [Field K] [LinearOrder K] (accepts : List (Con K) → Con K → Bool) (st : ProblemSettings K T)

/-- The bounds after `setEqualityTolerance(tolerance)` (CoMPositionConstraint.cpp:162-168, CentroidalMomentumConstraint.cpp:303-310,
QuaternionNormConstraint.cpp:65-71, ContactPositionConsistencyConstraint.cpp:215-221). -/
def equalityTolerance (tolerance : K) : Option (K × K) := if 0 ≤ tolerance then some (-tolerance / 2, tolerance / 2) else none

/-- The lower bound after the constructor (FeetLateralDistanceConstraint.cpp:110-114) and `setMinimumDistance` (lines 143-151), whose
result is overwritten at Solver.cpp:933-935. -/
def lateralLowerBound (minDistance : K) : K := if minDistance < 0 then 0 else minDistance

/-- Solver.cpp:911-951; FeetLateralDistanceConstraint.cpp:92, FeetRelativeHeightConstraint.cpp:45, 54. -/
def addGlobalConstraints (p : List (Con K)) : Option (List (Con K)) := do
  let (lower, upper) ← equalityTolerance st.centroidalMomentumConstraintTolerance
  let p ← push accepts (.centroidalMomentum lower upper) p
  let (lower, upper) ← equalityTolerance st.comPositionConstraintTolerance
  let p ← push accepts (.comPosition lower upper) p
  require (decide (st.indexOfLateralDirection < 3))
  let p ← push accepts (.feetLateralDistance st.indexOfLateralDirection st.referenceFrameNameForFeetDistance
    st.otherFrameNameForFeetDistance (lateralLowerBound st.minimumFeetDistance)) p
  let (lower, upper) ← equalityTolerance st.quaternionModulusConstraintTolerance
  let p ← push accepts (.quaternionNorm lower upper) p
  require (decide (0 < st.leftPointsPosition.length) && decide (0 < st.rightPointsPosition.length))
  push accepts (.feetRelativeHeight st.feetMaximumRelativeHeight) p

/-- Solver.cpp:955-977. -/
def addLeftPlanar (i : Nat) (p : List (Con K)) : Option (List (Con K)) := do
  let p ← (if st.planarComplementarity = .hyperbolicTangentInequality then
      push accepts (.planarVelocityControl .left i st.planarVelocityHyperbolicTangentScaling st.velocityMaximumDerivative.x st.velocityMaximumDerivative.y) p
    else some p)
  if st.planarComplementarity = .classical then
    push accepts (.classicalPlanarComplementarity .left i st.classicalPlanarComplementarityTolerance) p
  else some p

/-- Solver.cpp:987-1018. -/
def addLeftNormal (i : Nat) (p : List (Con K)) : Option (List (Con K)) := do
  let p ← (if st.complementarity = .dynamical then
      push accepts (.dynamicalComplementarity .left i st.complementarityDissipation st.dynamicComplementarityUpperBound) p
    else some p)
  let p ← (if st.complementarity = .hyperbolicSecantInequality then
      push accepts (.forceControl .left i st.normalForceHyperbolicSecantScaling st.forceMaximumDerivative.z st.normalForceDissipationRatio) p
    else some p)
  if st.complementarity = .classical then
    push accepts (.classicalComplementarity .left i st.classicalComplementarityTolerance) p
  else some p

/-- Solver.cpp:1020-1044; ContactFrictionConstraint.cpp:66-73. -/
def addLeftContact (i : Nat) (p : List (Con K)) : Option (List (Con K)) := do
  require (decide (0 < st.frictionCoefficient))
  let p ← push accepts (.friction .left i st.frictionCoefficient) p
  let point ← st.leftPointsPosition[i]?
  let (lower, upper) ← equalityTolerance st.pointPositionConstraintTolerance
  push accepts (.contactPosition .left i st.leftFrameName point lower upper) p

/-- Body of the loop, Solver.cpp:953-1045. -/
def addLeftPoint (i : Nat) (p : List (Con K)) : Option (List (Con K)) := do
  let p ← addLeftPlanar accepts st i p
  let p ← addLeftNormal accepts st i p
  addLeftContact accepts st i p

/-- Solver.cpp:1049-1070. -/
def addRightPlanar (i : Nat) (p : List (Con K)) : Option (List (Con K)) := do
  let p ← (if st.planarComplementarity = .hyperbolicTangentInequality then
      push accepts (.planarVelocityControl .right i st.planarVelocityHyperbolicTangentScaling st.velocityMaximumDerivative.x st.velocityMaximumDerivative.y) p
    else some p)
  if st.planarComplementarity = .classical then
    push accepts (.classicalPlanarComplementarity .right i st.classicalPlanarComplementarityTolerance) p
  else some p

/-- Solver.cpp:1080-1108. -/
def addRightNormal (i : Nat) (p : List (Con K)) : Option (List (Con K)) := do
  let p ← (if st.complementarity = .dynamical then
      push accepts (.dynamicalComplementarity .right i st.complementarityDissipation st.dynamicComplementarityUpperBound) p
    else some p)
  let p ← (if st.complementarity = .classical then
      push accepts (.classicalComplementarity .right i st.classicalComplementarityTolerance) p
    else some p)
  if st.complementarity = .hyperbolicSecantInequality then
    push accepts (.forceControl .right i st.normalForceHyperbolicSecantScaling st.forceMaximumDerivative.z st.normalForceDissipationRatio) p
  else some p

/-- Solver.cpp:1100-1123. -/
def addRightContact (i : Nat) (p : List (Con K)) : Option (List (Con K)) := do
  require (decide (0 < st.frictionCoefficient))
  let p ← push accepts (.friction .right i st.frictionCoefficient) p
  let point ← st.rightPointsPosition[i]?
  let (lower, upper) ← equalityTolerance st.pointPositionConstraintTolerance
  push accepts (.contactPosition .right i st.rightFrameName point lower upper) p

/-- Body of the loop, Solver.cpp:1047-1123. -/
def addRightPoint (i : Nat) (p : List (Con K)) : Option (List (Con K)) := do
  let p ← addRightPlanar accepts st i p
  let p ← addRightNormal accepts st i p
  addRightContact accepts st i p

/-- Solver.cpp:880-1126 (`setConstraints`) on a new problem. -/
def setConstraints : Option (List (Con K)) := do
  let p ← addGlobalConstraints accepts st []
  let p ← forPoints (addLeftPoint accepts st) st.leftPointsPosition.length p
  forPoints (addRightPoint accepts st) st.rightPointsPosition.length p

/-- The arguments of `DynamicalConstraints` (Solver.cpp:1446-1466); `none` is a disabled activation. -/
structure DynamicsSetup (K : Type) where
  velocityActivation : Option K
  forceActivation : Option K
  dissipation : K

/-- Solver.cpp:1446-1466. -/
def dynamicsSetup : DynamicsSetup K :=
  { velocityActivation := if st.planarComplementarity ≠ .hyperbolicTangentInDynamics then none else some st.planarVelocityHyperbolicTangentScaling
    forceActivation := if ¬ (st.complementarity = .hyperbolicSecantInDynamics) then none else some st.normalForceHyperbolicSecantScaling
    dissipation := st.normalForceDissipationRatio }

end Constraints

/-- The configuration of the shared kinematics objects. -/
structure KinDynSetup (K : Type) where
  gravity : V3 K
  updateTolerance : K
  /-- `none`: the default base link of the model -/
  floatingBase : Option String

/-- `SharedKinDynComputations` after its constructor (src/private/SharedKinDynComputations.cpp:193-205) and `loadRobotModel`
(Solver.cpp:1435-1436): `specifySettings` does nothing else to it.  `g` is 9.81 and `tolerance` the initial tolerance. -/
def kinDynSetup {K T : Type} [Zero K] [Neg K] (g tolerance : K) (_ : ProblemSettings K T) : KinDynSetup K :=
  { gravity := ⟨0, 0, -g⟩, updateTolerance := tolerance, floatingBase := none }

end Verif.SolverM
