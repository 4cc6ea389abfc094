import Verif.Model.Settings
/- Specification: which settings are acceptable, in positive form, grouped as documented. -/
namespace Verif.Settings.Spec
variable {K R : Type} [Field K] [LinearOrder K]

def TimingsOk (i : SettingsStruct K R) : Prop :=
  0 ≤ i.minimumDt ∧ 0 ≤ i.maximumDt ∧ 2 * i.minimumDt < i.maximumDt ∧ 0 ≤ i.controlPeriod ∧ 0 ≤ i.horizon ∧
  0 ≤ i.activeControlPercentage ∧ i.activeControlPercentage ≤ 1

def ModelOk (i : SettingsStruct K R) : Prop :=
  i.robotModel.isLinkNameUsed i.floatingBaseName = true ∧ i.nLeftPoints = i.nRightPoints ∧
  i.robotModel.isFrameNameUsed i.leftFrameName = true ∧ i.robotModel.isFrameNameUsed i.rightFrameName = true ∧
  i.robotModel.isFrameNameUsed i.referenceFrameNameForFeetDistance = true ∧
  i.robotModel.isFrameNameUsed i.otherFrameNameForFeetDistance = true ∧
  i.indexOfLateralDirection ≤ 2

def TolerancesOk (i : SettingsStruct K R) : Prop :=
  0 ≤ i.complementarityDissipation ∧ 0 ≤ i.frictionCoefficient ∧ 0 ≤ i.minimumFeetDistance ∧
  0 ≤ i.comPositionConstraintTolerance ∧ 0 ≤ i.centroidalMomentumConstraintTolerance ∧
  0 ≤ i.quaternionModulusConstraintTolerance ∧ 0 ≤ i.pointPositionConstraintTolerance ∧ 0 ≤ i.minimumCoMHeight ∧
  0 ≤ i.maximumAngularMomentum ∧ 0 ≤ i.feetMaximumRelativeHeight ∧
  0 ≤ i.velocityMaximumDerivative.1 ∧ 0 ≤ i.velocityMaximumDerivative.2.1 ∧ 0 ≤ i.velocityMaximumDerivative.2.2

def JointsOk (i : SettingsStruct K R) : Prop :=
  i.jointsLimits.length = i.robotModel.nrOfDOFs ∧ i.jointsVelocityLimits.length = i.robotModel.nrOfDOFs ∧
  (∀ l ∈ i.jointsLimits, l.1 ≤ l.2) ∧ (∀ l ∈ i.jointsVelocityLimits, l.1 ≤ l.2)

def CostsOk (i : SettingsStruct K R) : Prop :=
  (i.constrainTargetCoMPosition = true →
    i.constrainTargetCoMPositionRangeValid = true ∧ i.hasTargetCoMPositionTolerance = true) ∧
  (i.comCostActive = true →
    i.comWeightsSize = 3 ∧ i.comCostActiveRangeValid = true ∧ i.hasDesiredCoMTrajectory = true) ∧
  (i.comVelocityCostActive = true → i.comVelocityWeightsSize = 3 ∧ i.hasDesiredCoMVelocityTrajectory = true) ∧
  (i.frameCostActive = true → i.robotModel.isFrameNameUsed i.frameForOrientationCost = true ∧
    i.hasDesiredRotationTrajectory = true ∧ i.hasFrameCostTimeVaryingWeight = true) ∧
  (i.jointsRegularizationCostActive = true →
    i.hasDesiredJointsTrajectory = true ∧ i.jointsRegularizationWeightsSize = i.robotModel.nrOfDOFs) ∧
  (i.staticTorquesCostActive = true → i.staticTorquesCostWeightsSize = i.robotModel.nrOfDOFs) ∧
  (i.forceDerivativeCostActive = true →
    i.hasDesiredRotationTrajectory = true ∧ i.forceDerivativeWeightsSize = 3) ∧
  (i.pointAccelerationCostActive = true →
    i.hasDesiredPointAccelerationTrajectory = true ∧ i.pointAccelerationWeightsSize = 3) ∧
  (i.swingCostActive = true → 0 ≤ i.desiredSwingHeight) ∧
  (i.meanPointPositionCostActive = true → i.meanPointPositionCostActiveRangeValid = true ∧
    i.hasDesiredMeanPointPosition = true ∧ i.hasMeanPointPositionCostTimeVaryingWeight = true) ∧
  (i.basePositionCostActive = true → i.basePositionCostWeightsSize = 3 ∧ i.basePositionCostActiveRangeValid = true ∧
    i.hasDesiredBasePositionTrajectory = true) ∧
  (i.baseQuaternionCostActive = true → i.hasDesiredBaseQuaternionTrajectory = true) ∧
  (i.baseLinearVelocityCostActive = true →
    i.hasDesiredBaseLinearVelocityTrajectory = true ∧ i.baseLinearVelocityCostWeightsSize = 3) ∧
  (i.baseQuaternionVelocityCostActive = true → i.hasDesiredBaseQuaternionVelocityTrajectory = true) ∧
  (i.forceRatioCostActive = true →
    i.desiredLeftRatios.length = i.nLeftPoints ∧ i.desiredRightRatios.length = i.nRightPoints ∧
    (∀ r ∈ i.desiredLeftRatios, 0 ≤ r ∧ r ≤ 1) ∧ (∀ r ∈ i.desiredRightRatios, 0 ≤ r ∧ r ≤ 1))

def ComplementarityOk (i : SettingsStruct K R) : Prop :=
  (i.complementarity = .dynamical → 0 ≤ i.dynamicComplementarityUpperBound) ∧
  (i.complementarity = .classical → 0 ≤ i.classicalComplementarityTolerance) ∧
  (i.planarComplementarity = .classical → 0 ≤ i.classicalPlanarComplementarityTolerance) ∧
  (i.planarComplementarity ≠ .classical → 0 ≤ i.planarVelocityHyperbolicTangentScaling)

/-- What the documentation of the structure and the error messages ask for (as implemented, i.e. with the rotation
trajectory in the force-derivative clause). -/
structure Acceptable (i : SettingsStruct K R) : Prop where
  timings : TimingsOk i
  model : ModelOk i
  tolerances : TolerancesOk i
  joints : JointsOk i
  costs : CostsOk i
  complementarity : ComplementarityOk i

/-- Every enabled cost that follows a desired trajectory has one. -/
def TrajectoriesPresent (i : SettingsStruct K R) : Prop :=
  (i.comCostActive = true → i.hasDesiredCoMTrajectory = true) ∧
  (i.comVelocityCostActive = true → i.hasDesiredCoMVelocityTrajectory = true) ∧
  (i.frameCostActive = true → i.hasDesiredRotationTrajectory = true) ∧
  (i.jointsRegularizationCostActive = true → i.hasDesiredJointsTrajectory = true) ∧
  (i.jointsVelocityCostActive = true → i.hasDesiredJointsVelocityTrajectory = true) ∧
  (i.forceDerivativeCostActive = true → i.hasDesiredForceDerivativeTrajectory = true) ∧
  (i.pointAccelerationCostActive = true → i.hasDesiredPointAccelerationTrajectory = true) ∧
  (i.meanPointPositionCostActive = true → i.hasDesiredMeanPointPosition = true) ∧
  (i.leftFootYawCostActive = true → i.hasDesiredLeftFootYaw = true) ∧
  (i.rightFootYawCostActive = true → i.hasDesiredRightFootYaw = true) ∧
  (i.basePositionCostActive = true → i.hasDesiredBasePositionTrajectory = true) ∧
  (i.baseQuaternionCostActive = true → i.hasDesiredBaseQuaternionTrajectory = true) ∧
  (i.baseLinearVelocityCostActive = true → i.hasDesiredBaseLinearVelocityTrajectory = true) ∧
  (i.baseQuaternionVelocityCostActive = true → i.hasDesiredBaseQuaternionVelocityTrajectory = true)

end Verif.Settings.Spec
