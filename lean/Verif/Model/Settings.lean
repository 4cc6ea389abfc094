import Mathlib.Algebra.Order.Field.Basic
/-
Model of `DynamicalPlanner::Settings` (src/Settings.cpp, include/DynamicalPlanner/Settings.h).
`double` is a linearly ordered field.  Shared pointers are modelled by whether they are non-null, time ranges by
`isValid()` (external, iDynTree), the robot model by its number of DoFs and the name predicates used here, positions by
their number.  Members that no check reads are collected in the opaque member `rest` (so that "the structure is stored"
covers them).
-/
namespace Verif.Settings

inductive ComplementarityType where
  | dynamical | classical | hyperbolicSecantInequality | hyperbolicSecantInDynamics
deriving DecidableEq

inductive PlanarComplementarityType where
  | hyperbolicTangentInDynamics | hyperbolicTangentInequality | classical
deriving DecidableEq

/-- The queries of `iDynTree::Model` used by the checks. -/
structure RobotModel where
  nrOfDOFs : Nat
  isLinkNameUsed : String → Bool
  isFrameNameUsed : String → Bool

/-- Settings.h:36-245. -/
structure SettingsStruct (K R : Type) where
  minimumDt : K
  maximumDt : K
  controlPeriod : K
  horizon : K
  activeControlPercentage : K
  robotModel : RobotModel
  floatingBaseName : String
  nLeftPoints : Nat
  nRightPoints : Nat
  leftFrameName : String
  rightFrameName : String
  complementarity : ComplementarityType
  complementarityDissipation : K
  dynamicComplementarityUpperBound : K
  classicalComplementarityTolerance : K
  frictionCoefficient : K
  planarComplementarity : PlanarComplementarityType
  velocityMaximumDerivative : K × K × K
  planarVelocityHyperbolicTangentScaling : K
  classicalPlanarComplementarityTolerance : K
  indexOfLateralDirection : Nat
  minimumFeetDistance : K
  referenceFrameNameForFeetDistance : String
  otherFrameNameForFeetDistance : String
  feetMaximumRelativeHeight : K
  comPositionConstraintTolerance : K
  centroidalMomentumConstraintTolerance : K
  quaternionModulusConstraintTolerance : K
  pointPositionConstraintTolerance : K
  minimumCoMHeight : K
  jointsLimits : List (K × K)
  jointsVelocityLimits : List (K × K)
  constrainTargetCoMPosition : Bool
  hasTargetCoMPositionTolerance : Bool
  constrainTargetCoMPositionRangeValid : Bool
  maximumAngularMomentum : K
  comCostActive : Bool
  comCostActiveRangeValid : Bool
  comWeightsSize : Nat
  hasDesiredCoMTrajectory : Bool
  comVelocityCostActive : Bool
  comVelocityWeightsSize : Nat
  hasDesiredCoMVelocityTrajectory : Bool
  frameCostActive : Bool
  frameForOrientationCost : String
  hasDesiredRotationTrajectory : Bool
  hasFrameCostTimeVaryingWeight : Bool
  forceRatioCostActive : Bool
  desiredLeftRatios : List K
  desiredRightRatios : List K
  jointsRegularizationCostActive : Bool
  hasDesiredJointsTrajectory : Bool
  jointsRegularizationWeightsSize : Nat
  jointsVelocityCostActive : Bool
  hasDesiredJointsVelocityTrajectory : Bool
  jointsVelocityCostWeightsSize : Nat
  staticTorquesCostActive : Bool
  staticTorquesCostWeightsSize : Nat
  forceDerivativeCostActive : Bool
  hasDesiredForceDerivativeTrajectory : Bool
  forceDerivativeWeightsSize : Nat
  pointAccelerationCostActive : Bool
  hasDesiredPointAccelerationTrajectory : Bool
  pointAccelerationWeightsSize : Nat
  swingCostActive : Bool
  desiredSwingHeight : K
  meanPointPositionCostActive : Bool
  hasMeanPointPositionCostTimeVaryingWeight : Bool
  meanPointPositionCostActiveRangeValid : Bool
  hasDesiredMeanPointPosition : Bool
  leftFootYawCostActive : Bool
  hasDesiredLeftFootYaw : Bool
  rightFootYawCostActive : Bool
  hasDesiredRightFootYaw : Bool
  jointsVelocityForPosturalCostActive : Bool
  frameAngularVelocityCostActive : Bool
  basePositionCostActive : Bool
  basePositionCostActiveRangeValid : Bool
  basePositionCostWeightsSize : Nat
  hasDesiredBasePositionTrajectory : Bool
  baseQuaternionCostActive : Bool
  hasDesiredBaseQuaternionTrajectory : Bool
  baseLinearVelocityCostActive : Bool
  baseLinearVelocityCostWeightsSize : Nat
  hasDesiredBaseLinearVelocityTrajectory : Bool
  baseQuaternionVelocityCostActive : Bool
  hasDesiredBaseQuaternionVelocityTrajectory : Bool
  rest : R

/-- Settings.cpp:20-25: a check contributes one error when it fires. -/
def checkError (error : Bool) : Nat := if error then 1 else 0

variable {K R : Type} [Field K] [LinearOrder K]

/-- The loop Settings.cpp:82-88; `none` when `jointsVelocityLimits[j]` is read out of bounds. -/
def jointErrors : List (K × K) → List (K × K) → Option Nat
  | [], _ => some 0
  | _ :: _, [] => none
  | l :: ls, v :: vs => match jointErrors ls vs with
    | none => none
    | some n => some (checkError (decide (l.1 > l.2)) + checkError (decide (v.1 > v.2)) + n)

/-- The loops Settings.cpp:173-176, 181-184. -/
def ratioErrors (rs : List K) : Nat := (rs.map fun r => checkError (decide (r < 0) || decide (r > 1))).sum

/-- Settings.cpp:44-81. -/
def errorsBeforeJoints (i : SettingsStruct K R) : Nat :=
  checkError (decide (i.minimumDt < 0))
  + checkError (decide (i.maximumDt < 0))
  + checkError (decide (i.maximumDt ≤ 2 * i.minimumDt))
  + checkError (decide (i.controlPeriod < 0))
  + checkError (decide (i.horizon < 0))
  + checkError (decide (i.activeControlPercentage > 1) || decide (i.activeControlPercentage < 0))
  + checkError (!i.robotModel.isLinkNameUsed i.floatingBaseName)
  + checkError (decide (i.nLeftPoints ≠ i.nRightPoints))
  + checkError (!i.robotModel.isFrameNameUsed i.leftFrameName)
  + checkError (!i.robotModel.isFrameNameUsed i.rightFrameName)
  + checkError (decide (i.complementarityDissipation < 0))
  + checkError (decide (i.frictionCoefficient < 0))
  + checkError (decide (i.indexOfLateralDirection > 2))
  + checkError (decide (i.minimumFeetDistance < 0))
  + checkError (!i.robotModel.isFrameNameUsed i.referenceFrameNameForFeetDistance)
  + checkError (!i.robotModel.isFrameNameUsed i.otherFrameNameForFeetDistance)
  + checkError (decide (i.comPositionConstraintTolerance < 0))
  + checkError (decide (i.centroidalMomentumConstraintTolerance < 0))
  + checkError (decide (i.quaternionModulusConstraintTolerance < 0))
  + checkError (decide (i.pointPositionConstraintTolerance < 0))
  + checkError (decide (i.minimumCoMHeight < 0))
  + checkError (decide (i.jointsLimits.length ≠ i.robotModel.nrOfDOFs))
  + checkError (decide (i.jointsVelocityLimits.length ≠ i.robotModel.nrOfDOFs))

/-- Settings.cpp:90-136. -/
def errorsCosts1 (i : SettingsStruct K R) : Nat :=
  checkError (decide (i.maximumAngularMomentum < 0))
  + checkError (decide (i.feetMaximumRelativeHeight < 0))
  + (if i.constrainTargetCoMPosition then
      checkError (!i.constrainTargetCoMPositionRangeValid) + checkError (!i.hasTargetCoMPositionTolerance) else 0)
  + (if i.comCostActive then
      checkError (decide (i.comWeightsSize ≠ 3)) + checkError (!i.comCostActiveRangeValid)
      + checkError (!i.hasDesiredCoMTrajectory) else 0)
  + (if i.comVelocityCostActive then
      checkError (decide (i.comVelocityWeightsSize ≠ 3)) + checkError (!i.hasDesiredCoMVelocityTrajectory) else 0)
  + (if i.frameCostActive then
      checkError (!i.robotModel.isFrameNameUsed i.frameForOrientationCost)
      + checkError (!i.hasDesiredRotationTrajectory) + checkError (!i.hasFrameCostTimeVaryingWeight) else 0)
  + (if i.jointsRegularizationCostActive then
      checkError (!i.hasDesiredJointsTrajectory)
      + checkError (decide (i.jointsRegularizationWeightsSize ≠ i.robotModel.nrOfDOFs)) else 0)
  + (if i.staticTorquesCostActive then
      checkError (decide (i.staticTorquesCostWeightsSize ≠ i.robotModel.nrOfDOFs)) else 0)
  + (if i.forceDerivativeCostActive then
      checkError (!i.hasDesiredRotationTrajectory) -- line 129: the rotation trajectory, not the force derivative one
      + checkError (decide (i.forceDerivativeWeightsSize ≠ 3)) else 0)
  + (if i.pointAccelerationCostActive then
      checkError (!i.hasDesiredPointAccelerationTrajectory)
      + checkError (decide (i.pointAccelerationWeightsSize ≠ 3)) else 0)

/-- Settings.cpp:138-211. -/
def errorsCosts2 (i : SettingsStruct K R) : Nat :=
  (if i.swingCostActive then checkError (decide (i.desiredSwingHeight < 0)) else 0)
  + (if i.meanPointPositionCostActive then
      checkError (!i.meanPointPositionCostActiveRangeValid) + checkError (!i.hasDesiredMeanPointPosition)
      + checkError (!i.hasMeanPointPositionCostTimeVaryingWeight) else 0)
  + (if i.basePositionCostActive then
      checkError (decide (i.basePositionCostWeightsSize ≠ 3)) + checkError (!i.basePositionCostActiveRangeValid)
      + checkError (!i.hasDesiredBasePositionTrajectory) else 0)
  + (if i.baseQuaternionCostActive then checkError (!i.hasDesiredBaseQuaternionTrajectory) else 0)
  + (if i.baseLinearVelocityCostActive then
      checkError (!i.hasDesiredBaseLinearVelocityTrajectory)
      + checkError (decide (i.baseLinearVelocityCostWeightsSize ≠ 3)) else 0)
  + (if i.baseQuaternionVelocityCostActive then checkError (!i.hasDesiredBaseQuaternionVelocityTrajectory) else 0)
  + (if i.forceRatioCostActive then
      checkError (decide (i.nLeftPoints ≠ i.desiredLeftRatios.length)) + ratioErrors i.desiredLeftRatios
      + checkError (decide (i.nRightPoints ≠ i.desiredRightRatios.length)) + ratioErrors i.desiredRightRatios else 0)
  + (if i.complementarity = .dynamical then
      checkError (decide (i.complementarityDissipation < 0))
      + checkError (decide (i.dynamicComplementarityUpperBound < 0)) else 0)
  + (if i.complementarity = .classical then
      checkError (decide (i.classicalComplementarityTolerance < 0)) else 0)
  + (if i.planarComplementarity = .classical then
      checkError (decide (i.classicalPlanarComplementarityTolerance < 0)) else 0)
  + checkError (decide (min i.velocityMaximumDerivative.1
      (min i.velocityMaximumDerivative.2.1 i.velocityMaximumDerivative.2.2) < 0))
  + (if i.planarComplementarity = .hyperbolicTangentInDynamics
        ∨ i.planarComplementarity = .hyperbolicTangentInequality then
      checkError (decide (i.planarVelocityHyperbolicTangentScaling < 0)) else 0)

/-- Total number of errors, Settings.cpp:42-211; `none` is the out-of-bounds read. -/
def errors (i : SettingsStruct K R) : Option Nat :=
  match jointErrors i.jointsLimits i.jointsVelocityLimits with
  | none => none
  | some j => some (errorsBeforeJoints i + j + errorsCosts1 i + errorsCosts2 i)

/-- The object: Settings.h:248-251. `stored = none` stands for the uninitialised structure of a new object. -/
structure Settings (K R : Type) where
  stored : Option (SettingsStruct K R)
  isValid : Bool

/-- Settings.cpp:28-30. -/
def init (K R : Type) : Settings K R := { stored := none, isValid := false }

/-- Settings.cpp:37-221. -/
def setFromStruct (s : Settings K R) (i : SettingsStruct K R) : Option (Settings K R × Bool) :=
  match errors i with
  | none => none
  | some n =>
    if n = 0 then some ({ stored := some i, isValid := true }, true)
    else some (s, false)

/-- Settings.cpp:32-35: constructor from a structure. -/
def fromStruct (i : SettingsStruct K R) : Option (Settings K R) :=
  match setFromStruct { stored := none, isValid := false } i with
  | none => none
  | some (s, ok) => some { s with isValid := ok }

/-- A history of `setFromStruct` calls. -/
def setMany (s : Settings K R) : List (SettingsStruct K R) → Option (Settings K R)
  | [] => some s
  | i :: rest => match setFromStruct s i with
    | none => none
    | some (s', _) => setMany s' rest

/-- Settings.cpp:233-509.  `limits` is what lines 311-322 collect: one pair per degree of freedom of the first
`nrOfDOFs` joints, `(-1e19, 1e19)` when the model does not give limits. -/
def defaults (m : RobotModel) (limits : List (K × K)) (rest : R) : SettingsStruct K R :=
  { minimumDt := 1 / 100, maximumDt := 1 / 10, controlPeriod := 1 / 100, horizon := 1
    activeControlPercentage := 1
    robotModel := m
    floatingBaseName := "root_link"
    nLeftPoints := 4, nRightPoints := 4, leftFrameName := "l_sole", rightFrameName := "r_sole"
    complementarity := .hyperbolicSecantInequality
    complementarityDissipation := 10, dynamicComplementarityUpperBound := 1 / 100
    classicalComplementarityTolerance := 1 / 10
    frictionCoefficient := 3 / 10
    planarComplementarity := .hyperbolicTangentInDynamics
    velocityMaximumDerivative := (10, 10, 10)
    planarVelocityHyperbolicTangentScaling := 50
    classicalPlanarComplementarityTolerance := 1 / 10
    indexOfLateralDirection := 1
    minimumFeetDistance := 1 / 10
    referenceFrameNameForFeetDistance := "r_sole", otherFrameNameForFeetDistance := "l_sole"
    feetMaximumRelativeHeight := 4 / 100
    comPositionConstraintTolerance := 1 / 1000, centroidalMomentumConstraintTolerance := 1 / 100
    quaternionModulusConstraintTolerance := 1 / 10000, pointPositionConstraintTolerance := 1 / 1000
    minimumCoMHeight := 2 / 10
    jointsLimits := limits
    jointsVelocityLimits := List.replicate m.nrOfDOFs (-(10 ^ 19), 10 ^ 19)
    constrainTargetCoMPosition := true, hasTargetCoMPositionTolerance := true
    constrainTargetCoMPositionRangeValid := true
    maximumAngularMomentum := 10
    comCostActive := true, comCostActiveRangeValid := true, comWeightsSize := 3, hasDesiredCoMTrajectory := true
    comVelocityCostActive := true, comVelocityWeightsSize := 3, hasDesiredCoMVelocityTrajectory := true
    frameCostActive := true, frameForOrientationCost := "neck_2", hasDesiredRotationTrajectory := true
    hasFrameCostTimeVaryingWeight := true
    forceRatioCostActive := true
    desiredLeftRatios := List.replicate 4 (1 / 4), desiredRightRatios := List.replicate 4 (1 / 4)
    jointsRegularizationCostActive := true, hasDesiredJointsTrajectory := true
    jointsRegularizationWeightsSize := m.nrOfDOFs
    jointsVelocityCostActive := true, hasDesiredJointsVelocityTrajectory := true
    jointsVelocityCostWeightsSize := m.nrOfDOFs
    staticTorquesCostActive := true, staticTorquesCostWeightsSize := m.nrOfDOFs
    forceDerivativeCostActive := true, hasDesiredForceDerivativeTrajectory := true, forceDerivativeWeightsSize := 3
    pointAccelerationCostActive := true, hasDesiredPointAccelerationTrajectory := true
    pointAccelerationWeightsSize := 3
    swingCostActive := true, desiredSwingHeight := 3 / 100
    meanPointPositionCostActive := true, hasMeanPointPositionCostTimeVaryingWeight := true
    meanPointPositionCostActiveRangeValid := true, hasDesiredMeanPointPosition := true
    leftFootYawCostActive := true, hasDesiredLeftFootYaw := true
    rightFootYawCostActive := true, hasDesiredRightFootYaw := true
    jointsVelocityForPosturalCostActive := true
    frameAngularVelocityCostActive := true
    basePositionCostActive := true, basePositionCostActiveRangeValid := true, basePositionCostWeightsSize := 3
    hasDesiredBasePositionTrajectory := true
    baseQuaternionCostActive := true, hasDesiredBaseQuaternionTrajectory := true
    baseLinearVelocityCostActive := true, baseLinearVelocityCostWeightsSize := 3
    hasDesiredBaseLinearVelocityTrajectory := true
    baseQuaternionVelocityCostActive := true, hasDesiredBaseQuaternionVelocityTrajectory := true
    rest := rest }

end Verif.Settings
