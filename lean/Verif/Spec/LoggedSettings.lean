import Verif.Model.LoggedSettings
/-
Specification for the settings saved next to the solution: what someone who opens the file expects to read under each name.
-/
namespace Verif.LoggedSettings.Spec
open Verif.LoggedSettings
variable {K M T W : Type}

/-- Under the name of each of the saved settings the file holds the value of that setting. `read` is the reading of a field of the structure. -/
structure Recorded (modelText : M → String) (read : String → Option (Value K)) (s : SettingsStruct K M T W) : Prop where
  minimumDt : read "minimumDt" = some (.number s.minimumDt)
  maximumDt : read "maximumDt" = some (.number s.maximumDt)
  controlPeriod : read "controlPeriod" = some (.number s.controlPeriod)
  horizon : read "horizon" = some (.number s.horizon)
  activeControlPercentage : read "activeControlPercentage" = some (.number s.activeControlPercentage)
  robotModel : read "robotModel" = some (.text (modelText s.robotModel))
  gravity : read "gravity" = some (.vector [s.gravity.1, s.gravity.2.1, s.gravity.2.2])
  updateTolerance : read "updateTolerance" = some (.number s.updateTolerance)
  floatingBaseName : read "floatingBaseName" = some (.text s.floatingBaseName)
  leftPointsPosition : read "leftPointsPosition" = some (.cell (s.leftPointsPosition.map fun p => .vector [p.1, p.2.1, p.2.2]))
  rightPointsPosition : read "rightPointsPosition" = some (.cell (s.rightPointsPosition.map fun p => .vector [p.1, p.2.1, p.2.2]))
  leftFrameName : read "leftFrameName" = some (.text s.leftFrameName)
  rightFrameName : read "rightFrameName" = some (.text s.rightFrameName)
  complementarity_classical : read "complementarity" = some (.text "Classical") ↔ s.complementarity = .classical
  complementarity_dynamical : read "complementarity" = some (.text "Dynamical") ↔ s.complementarity = .dynamical
  complementarity_hyperbolicSecantInDynamics : read "complementarity" = some (.text "HyperbolicSecantInDynamics") ↔ s.complementarity = .hyperbolicSecantInDynamics
  complementarity_hyperbolicSecantInequality : read "complementarity" = some (.text "HyperbolicSecantInequality") ↔ s.complementarity = .hyperbolicSecantInequality
  forceMaximumDerivative : read "forceMaximumDerivative" = some (.vector [s.forceMaximumDerivative.1, s.forceMaximumDerivative.2.1, s.forceMaximumDerivative.2.2])
  normalForceDissipationRatio : read "normalForceDissipationRatio" = some (.number s.normalForceDissipationRatio)
  normalForceHyperbolicSecantScaling : read "normalForceHyperbolicSecantScaling" = some (.number s.normalForceHyperbolicSecantScaling)
  complementarityDissipation : read "complementarityDissipation" = some (.number s.complementarityDissipation)
  dynamicComplementarityUpperBound : read "dynamicComplementarityUpperBound" = some (.number s.dynamicComplementarityUpperBound)
  classicalComplementarityTolerance : read "classicalComplementarityTolerance" = some (.number s.classicalComplementarityTolerance)
  frictionCoefficient : read "frictionCoefficient" = some (.number s.frictionCoefficient)
  planarComplementarity_classical : read "planarComplementarity" = some (.text "Classical") ↔ s.planarComplementarity = .classical
  planarComplementarity_hyperbolicTangentInDynamics : read "planarComplementarity" = some (.text "HyperbolicTangentInDynamics") ↔ s.planarComplementarity = .hyperbolicTangentInDynamics
  planarComplementarity_hyperbolicTangentInequality : read "planarComplementarity" = some (.text "HyperbolicTangentInequality") ↔ s.planarComplementarity = .hyperbolicTangentInequality
  velocityMaximumDerivative : read "velocityMaximumDerivative" = some (.vector [s.velocityMaximumDerivative.1, s.velocityMaximumDerivative.2.1, s.velocityMaximumDerivative.2.2])
  planarVelocityHyperbolicTangentScaling : read "planarVelocityHyperbolicTangentScaling" = some (.number s.planarVelocityHyperbolicTangentScaling)
  normalVelocityHyperbolicSecantScaling : read "normalVelocityHyperbolicSecantScaling" = some (.number s.normalVelocityHyperbolicSecantScaling)
  classicalPlanarComplementarityTolerance : read "classicalPlanarComplementarityTolerance" = some (.number s.classicalPlanarComplementarityTolerance)
  indexOfLateralDirection : read "indexOfLateralDirection" = some (.integer s.indexOfLateralDirection)
  minimumFeetDistance : read "minimumFeetDistance" = some (.number s.minimumFeetDistance)
  referenceFrameNameForFeetDistance : read "referenceFrameNameForFeetDistance" = some (.text s.referenceFrameNameForFeetDistance)
  otherFrameNameForFeetDistance : read "otherFrameNameForFeetDistance" = some (.text s.otherFrameNameForFeetDistance)
  feetMaximumRelativeHeight : read "feetMaximumRelativeHeight" = some (.number s.feetMaximumRelativeHeight)
  comPositionConstraintTolerance : read "comPositionConstraintTolerance" = some (.number s.comPositionConstraintTolerance)
  centroidalMomentumConstraintTolerance : read "centroidalMomentumConstraintTolerance" = some (.number s.centroidalMomentumConstraintTolerance)
  quaternionModulusConstraintTolerance : read "quaternionModulusConstraintTolerance" = some (.number s.quaternionModulusConstraintTolerance)
  pointPositionConstraintTolerance : read "pointPositionConstraintTolerance" = some (.number s.pointPositionConstraintTolerance)
  minimumCoMHeight : read "minimumCoMHeight" = some (.number s.minimumCoMHeight)
  maximumAngularMomentum : read "maximumAngularMomentum" = some (.number s.maximumAngularMomentum)
  jointsLimits : read "jointsLimits" = some (.cell (s.jointsLimits.map fun b => .struct [("min", .number b.1), ("max", .number b.2)]))
  jointsVelocityLimits : read "jointsVelocityLimits" = some (.cell (s.jointsVelocityLimits.map fun b => .struct [("min", .number b.1), ("max", .number b.2)]))
  constrainTargetCoMPosition : read "constrainTargetCoMPosition" = some (.logical s.constrainTargetCoMPosition)
  comCostActive : read "comCostActive" = some (.logical s.comCostActive)
  comCostOverallWeight : read "comCostOverallWeight" = some (.number s.comCostOverallWeight)
  comWeights : read "comWeights" = some (.vector s.comWeights)
  comVelocityCostActive : read "comVelocityCostActive" = some (.logical s.comVelocityCostActive)
  comVelocityCostOverallWeight : read "comVelocityCostOverallWeight" = some (.number s.comVelocityCostOverallWeight)
  comVelocityWeights : read "comVelocityWeights" = some (.vector s.comVelocityWeights)
  frameCostActive : read "frameCostActive" = some (.logical s.frameCostActive)
  frameCostOverallWeight : read "frameCostOverallWeight" = some (.number s.frameCostOverallWeight)
  frameForOrientationCost : read "frameForOrientationCost" = some (.text s.frameForOrientationCost)
  forceMeanCostActive : read "forceMeanCostActive" = some (.logical s.forceMeanCostActive)
  forceMeanCostOverallWeight : read "forceMeanCostOverallWeight" = some (.number s.forceMeanCostOverallWeight)
  forceRatioCostActive : read "forceRatioCostActive" = some (.logical s.forceRatioCostActive)
  forceRatioCostOverallWeight : read "forceRatioCostOverallWeight" = some (.number s.forceRatioCostOverallWeight)
  desiredLeftRatios : read "desiredLeftRatios" = some (.vector s.desiredLeftRatios)
  desiredRightRatios : read "desiredRightRatios" = some (.vector s.desiredRightRatios)
  jointsRegularizationCostActive : read "jointsRegularizationCostActive" = some (.logical s.jointsRegularizationCostActive)
  jointsRegularizationCostOverallWeight : read "jointsRegularizationCostOverallWeight" = some (.number s.jointsRegularizationCostOverallWeight)
  jointsRegularizationWeights : read "jointsRegularizationWeights" = some (.vector s.jointsRegularizationWeights)
  jointsVelocityCostActive : read "jointsVelocityCostActive" = some (.logical s.jointsVelocityCostActive)
  jointsVelocityCostOverallWeight : read "jointsVelocityCostOverallWeight" = some (.number s.jointsVelocityCostOverallWeight)
  jointsVelocityCostWeights : read "jointsVelocityCostWeights" = some (.vector s.jointsVelocityCostWeights)
  staticTorquesCostActive : read "staticTorquesCostActive" = some (.logical s.staticTorquesCostActive)
  staticTorquesCostOverallWeight : read "staticTorquesCostOverallWeight" = some (.number s.staticTorquesCostOverallWeight)
  staticTorquesCostWeights : read "staticTorquesCostWeights" = some (.vector s.staticTorquesCostWeights)
  forceDerivativeCostActive : read "forceDerivativeCostActive" = some (.logical s.forceDerivativeCostActive)
  forceDerivativesCostOverallWeight : read "forceDerivativesCostOverallWeight" = some (.number s.forceDerivativesCostOverallWeight)
  forceDerivativeWeights : read "forceDerivativeWeights" = some (.vector s.forceDerivativeWeights)
  pointAccelerationCostActive : read "pointAccelerationCostActive" = some (.logical s.pointAccelerationCostActive)
  pointAccelerationCostOverallWeight : read "pointAccelerationCostOverallWeight" = some (.number s.pointAccelerationCostOverallWeight)
  pointAccelerationWeights : read "pointAccelerationWeights" = some (.vector s.pointAccelerationWeights)
  swingCostActive : read "swingCostActive" = some (.logical s.swingCostActive)
  swingCostOverallWeight : read "swingCostOverallWeight" = some (.number s.swingCostOverallWeight)
  desiredSwingHeight : read "desiredSwingHeight" = some (.number s.desiredSwingHeight)
  swingCostWeights : read "swingCostWeights" = some (.vector [s.swingCostWeights.1, s.swingCostWeights.2.1, s.swingCostWeights.2.2])
  phantomForcesCostActive : read "phantomForcesCostActive" = some (.logical s.phantomForcesCostActive)
  phantomForcesCostOverallWeight : read "phantomForcesCostOverallWeight" = some (.number s.phantomForcesCostOverallWeight)
  meanPointPositionCostActive : read "meanPointPositionCostActive" = some (.logical s.meanPointPositionCostActive)
  meanPointPositionCostOverallWeight : read "meanPointPositionCostOverallWeight" = some (.number s.meanPointPositionCostOverallWeight)
  leftFootYawCostActive : read "leftFootYawCostActive" = some (.logical s.leftFootYawCostActive)
  leftFootYawCostOverallWeight : read "leftFootYawCostOverallWeight" = some (.number s.leftFootYawCostOverallWeight)
  rightFootYawCostActive : read "rightFootYawCostActive" = some (.logical s.rightFootYawCostActive)
  rightFootYawCostOverallWeight : read "rightFootYawCostOverallWeight" = some (.number s.rightFootYawCostOverallWeight)
  feetDistanceCostActive : read "feetDistanceCostActive" = some (.logical s.feetDistanceCostActive)
  feetDistanceCostOverallWeight : read "feetDistanceCostOverallWeight" = some (.number s.feetDistanceCostOverallWeight)
  jointsVelocityForPosturalCostActive : read "jointsVelocityForPosturalCostActive" = some (.logical s.jointsVelocityForPosturalCostActive)
  jointsVelocityForPosturalCostOverallWeight : read "jointsVelocityForPosturalCostOverallWeight" = some (.number s.jointsVelocityForPosturalCostOverallWeight)
  complementarityCostActive : read "complementarityCostActive" = some (.logical s.complementarityCostActive)
  complementarityCostOverallWeight : read "complementarityCostOverallWeight" = some (.number s.complementarityCostOverallWeight)
  basePositionCostActive : read "basePositionCostActive" = some (.logical s.basePositionCostActive)
  basePositionCostOverallWeight : read "basePositionCostOverallWeight" = some (.number s.basePositionCostOverallWeight)
  basePositionCostWeights : read "basePositionCostWeights" = some (.vector s.basePositionCostWeights)
  baseQuaternionCostActive : read "baseQuaternionCostActive" = some (.logical s.baseQuaternionCostActive)
  baseQuaternionCostOverallWeight : read "baseQuaternionCostOverallWeight" = some (.number s.baseQuaternionCostOverallWeight)
  frameAngularVelocityCostActive : read "frameAngularVelocityCostActive" = some (.logical s.frameAngularVelocityCostActive)
  frameAngularVelocityCostOverallWeight : read "frameAngularVelocityCostOverallWeight" = some (.number s.frameAngularVelocityCostOverallWeight)
  rotationalPIDgain : read "rotationalPIDgain" = some (.number s.rotationalPIDgain)
  baseLinearVelocityCostActive : read "baseLinearVelocityCostActive" = some (.logical s.baseLinearVelocityCostActive)
  baseLinearVelocityCostWeights : read "baseLinearVelocityCostWeights" = some (.vector s.baseLinearVelocityCostWeights)
  baseLinearVelocityCostOverallWeight : read "baseLinearVelocityCostOverallWeight" = some (.number s.baseLinearVelocityCostOverallWeight)
  baseQuaternionVelocityCostActive : read "baseQuaternionVelocityCostActive" = some (.logical s.baseQuaternionVelocityCostActive)
  baseQuaternionVelocityCostOverallWeight : read "baseQuaternionVelocityCostOverallWeight" = some (.number s.baseQuaternionVelocityCostOverallWeight)
  angularMomentumCostActive : read "angularMomentumCostActive" = some (.logical s.angularMomentumCostActive)
  angularMomentumCostOverallWeight : read "angularMomentumCostOverallWeight" = some (.number s.angularMomentumCostOverallWeight)
  useConstraintsHessianRegularization : read "useConstraintsHessianRegularization" = some (.logical s.useConstraintsHessianRegularization)
  constraintsHessianRegularization : read "constraintsHessianRegularization" = some (.number s.constraintsHessianRegularization)
  useCostsHessianRegularization : read "useCostsHessianRegularization" = some (.logical s.useCostsHessianRegularization)
  costsHessianRegularization : read "costsHessianRegularization" = some (.number s.costsHessianRegularization)

/-- Two settings agree on everything that is saved; of the robot model only the text is. -/
structure SameRecord (modelText : M → String) (s s' : SettingsStruct K M T W) : Prop where
  minimumDt : s.minimumDt = s'.minimumDt
  maximumDt : s.maximumDt = s'.maximumDt
  controlPeriod : s.controlPeriod = s'.controlPeriod
  horizon : s.horizon = s'.horizon
  activeControlPercentage : s.activeControlPercentage = s'.activeControlPercentage
  robotModel : modelText s.robotModel = modelText s'.robotModel
  gravity : s.gravity = s'.gravity
  updateTolerance : s.updateTolerance = s'.updateTolerance
  floatingBaseName : s.floatingBaseName = s'.floatingBaseName
  leftPointsPosition : s.leftPointsPosition = s'.leftPointsPosition
  rightPointsPosition : s.rightPointsPosition = s'.rightPointsPosition
  leftFrameName : s.leftFrameName = s'.leftFrameName
  rightFrameName : s.rightFrameName = s'.rightFrameName
  complementarity : s.complementarity = s'.complementarity
  forceMaximumDerivative : s.forceMaximumDerivative = s'.forceMaximumDerivative
  normalForceDissipationRatio : s.normalForceDissipationRatio = s'.normalForceDissipationRatio
  normalForceHyperbolicSecantScaling : s.normalForceHyperbolicSecantScaling = s'.normalForceHyperbolicSecantScaling
  complementarityDissipation : s.complementarityDissipation = s'.complementarityDissipation
  dynamicComplementarityUpperBound : s.dynamicComplementarityUpperBound = s'.dynamicComplementarityUpperBound
  classicalComplementarityTolerance : s.classicalComplementarityTolerance = s'.classicalComplementarityTolerance
  frictionCoefficient : s.frictionCoefficient = s'.frictionCoefficient
  planarComplementarity : s.planarComplementarity = s'.planarComplementarity
  velocityMaximumDerivative : s.velocityMaximumDerivative = s'.velocityMaximumDerivative
  planarVelocityHyperbolicTangentScaling : s.planarVelocityHyperbolicTangentScaling = s'.planarVelocityHyperbolicTangentScaling
  normalVelocityHyperbolicSecantScaling : s.normalVelocityHyperbolicSecantScaling = s'.normalVelocityHyperbolicSecantScaling
  classicalPlanarComplementarityTolerance : s.classicalPlanarComplementarityTolerance = s'.classicalPlanarComplementarityTolerance
  indexOfLateralDirection : s.indexOfLateralDirection = s'.indexOfLateralDirection
  minimumFeetDistance : s.minimumFeetDistance = s'.minimumFeetDistance
  referenceFrameNameForFeetDistance : s.referenceFrameNameForFeetDistance = s'.referenceFrameNameForFeetDistance
  otherFrameNameForFeetDistance : s.otherFrameNameForFeetDistance = s'.otherFrameNameForFeetDistance
  feetMaximumRelativeHeight : s.feetMaximumRelativeHeight = s'.feetMaximumRelativeHeight
  comPositionConstraintTolerance : s.comPositionConstraintTolerance = s'.comPositionConstraintTolerance
  centroidalMomentumConstraintTolerance : s.centroidalMomentumConstraintTolerance = s'.centroidalMomentumConstraintTolerance
  quaternionModulusConstraintTolerance : s.quaternionModulusConstraintTolerance = s'.quaternionModulusConstraintTolerance
  pointPositionConstraintTolerance : s.pointPositionConstraintTolerance = s'.pointPositionConstraintTolerance
  minimumCoMHeight : s.minimumCoMHeight = s'.minimumCoMHeight
  maximumAngularMomentum : s.maximumAngularMomentum = s'.maximumAngularMomentum
  jointsLimits : s.jointsLimits = s'.jointsLimits
  jointsVelocityLimits : s.jointsVelocityLimits = s'.jointsVelocityLimits
  constrainTargetCoMPosition : s.constrainTargetCoMPosition = s'.constrainTargetCoMPosition
  comCostActive : s.comCostActive = s'.comCostActive
  comCostOverallWeight : s.comCostOverallWeight = s'.comCostOverallWeight
  comWeights : s.comWeights = s'.comWeights
  comVelocityCostActive : s.comVelocityCostActive = s'.comVelocityCostActive
  comVelocityCostOverallWeight : s.comVelocityCostOverallWeight = s'.comVelocityCostOverallWeight
  comVelocityWeights : s.comVelocityWeights = s'.comVelocityWeights
  frameCostActive : s.frameCostActive = s'.frameCostActive
  frameCostOverallWeight : s.frameCostOverallWeight = s'.frameCostOverallWeight
  frameForOrientationCost : s.frameForOrientationCost = s'.frameForOrientationCost
  forceMeanCostActive : s.forceMeanCostActive = s'.forceMeanCostActive
  forceMeanCostOverallWeight : s.forceMeanCostOverallWeight = s'.forceMeanCostOverallWeight
  forceRatioCostActive : s.forceRatioCostActive = s'.forceRatioCostActive
  forceRatioCostOverallWeight : s.forceRatioCostOverallWeight = s'.forceRatioCostOverallWeight
  desiredLeftRatios : s.desiredLeftRatios = s'.desiredLeftRatios
  desiredRightRatios : s.desiredRightRatios = s'.desiredRightRatios
  jointsRegularizationCostActive : s.jointsRegularizationCostActive = s'.jointsRegularizationCostActive
  jointsRegularizationCostOverallWeight : s.jointsRegularizationCostOverallWeight = s'.jointsRegularizationCostOverallWeight
  jointsRegularizationWeights : s.jointsRegularizationWeights = s'.jointsRegularizationWeights
  jointsVelocityCostActive : s.jointsVelocityCostActive = s'.jointsVelocityCostActive
  jointsVelocityCostOverallWeight : s.jointsVelocityCostOverallWeight = s'.jointsVelocityCostOverallWeight
  jointsVelocityCostWeights : s.jointsVelocityCostWeights = s'.jointsVelocityCostWeights
  staticTorquesCostActive : s.staticTorquesCostActive = s'.staticTorquesCostActive
  staticTorquesCostOverallWeight : s.staticTorquesCostOverallWeight = s'.staticTorquesCostOverallWeight
  staticTorquesCostWeights : s.staticTorquesCostWeights = s'.staticTorquesCostWeights
  forceDerivativeCostActive : s.forceDerivativeCostActive = s'.forceDerivativeCostActive
  forceDerivativesCostOverallWeight : s.forceDerivativesCostOverallWeight = s'.forceDerivativesCostOverallWeight
  forceDerivativeWeights : s.forceDerivativeWeights = s'.forceDerivativeWeights
  pointAccelerationCostActive : s.pointAccelerationCostActive = s'.pointAccelerationCostActive
  pointAccelerationCostOverallWeight : s.pointAccelerationCostOverallWeight = s'.pointAccelerationCostOverallWeight
  pointAccelerationWeights : s.pointAccelerationWeights = s'.pointAccelerationWeights
  swingCostActive : s.swingCostActive = s'.swingCostActive
  swingCostOverallWeight : s.swingCostOverallWeight = s'.swingCostOverallWeight
  desiredSwingHeight : s.desiredSwingHeight = s'.desiredSwingHeight
  swingCostWeights : s.swingCostWeights = s'.swingCostWeights
  phantomForcesCostActive : s.phantomForcesCostActive = s'.phantomForcesCostActive
  phantomForcesCostOverallWeight : s.phantomForcesCostOverallWeight = s'.phantomForcesCostOverallWeight
  meanPointPositionCostActive : s.meanPointPositionCostActive = s'.meanPointPositionCostActive
  meanPointPositionCostOverallWeight : s.meanPointPositionCostOverallWeight = s'.meanPointPositionCostOverallWeight
  leftFootYawCostActive : s.leftFootYawCostActive = s'.leftFootYawCostActive
  leftFootYawCostOverallWeight : s.leftFootYawCostOverallWeight = s'.leftFootYawCostOverallWeight
  rightFootYawCostActive : s.rightFootYawCostActive = s'.rightFootYawCostActive
  rightFootYawCostOverallWeight : s.rightFootYawCostOverallWeight = s'.rightFootYawCostOverallWeight
  feetDistanceCostActive : s.feetDistanceCostActive = s'.feetDistanceCostActive
  feetDistanceCostOverallWeight : s.feetDistanceCostOverallWeight = s'.feetDistanceCostOverallWeight
  jointsVelocityForPosturalCostActive : s.jointsVelocityForPosturalCostActive = s'.jointsVelocityForPosturalCostActive
  jointsVelocityForPosturalCostOverallWeight : s.jointsVelocityForPosturalCostOverallWeight = s'.jointsVelocityForPosturalCostOverallWeight
  complementarityCostActive : s.complementarityCostActive = s'.complementarityCostActive
  complementarityCostOverallWeight : s.complementarityCostOverallWeight = s'.complementarityCostOverallWeight
  basePositionCostActive : s.basePositionCostActive = s'.basePositionCostActive
  basePositionCostOverallWeight : s.basePositionCostOverallWeight = s'.basePositionCostOverallWeight
  basePositionCostWeights : s.basePositionCostWeights = s'.basePositionCostWeights
  baseQuaternionCostActive : s.baseQuaternionCostActive = s'.baseQuaternionCostActive
  baseQuaternionCostOverallWeight : s.baseQuaternionCostOverallWeight = s'.baseQuaternionCostOverallWeight
  frameAngularVelocityCostActive : s.frameAngularVelocityCostActive = s'.frameAngularVelocityCostActive
  frameAngularVelocityCostOverallWeight : s.frameAngularVelocityCostOverallWeight = s'.frameAngularVelocityCostOverallWeight
  rotationalPIDgain : s.rotationalPIDgain = s'.rotationalPIDgain
  baseLinearVelocityCostActive : s.baseLinearVelocityCostActive = s'.baseLinearVelocityCostActive
  baseLinearVelocityCostWeights : s.baseLinearVelocityCostWeights = s'.baseLinearVelocityCostWeights
  baseLinearVelocityCostOverallWeight : s.baseLinearVelocityCostOverallWeight = s'.baseLinearVelocityCostOverallWeight
  baseQuaternionVelocityCostActive : s.baseQuaternionVelocityCostActive = s'.baseQuaternionVelocityCostActive
  baseQuaternionVelocityCostOverallWeight : s.baseQuaternionVelocityCostOverallWeight = s'.baseQuaternionVelocityCostOverallWeight
  angularMomentumCostActive : s.angularMomentumCostActive = s'.angularMomentumCostActive
  angularMomentumCostOverallWeight : s.angularMomentumCostOverallWeight = s'.angularMomentumCostOverallWeight
  useConstraintsHessianRegularization : s.useConstraintsHessianRegularization = s'.useConstraintsHessianRegularization
  constraintsHessianRegularization : s.constraintsHessianRegularization = s'.constraintsHessianRegularization
  useCostsHessianRegularization : s.useCostsHessianRegularization = s'.useCostsHessianRegularization
  costsHessianRegularization : s.costsHessianRegularization = s'.costsHessianRegularization

/-- A name that MATLAB accepts for a field: at most 63 characters, letters, digits and underscores, the first one a letter. -/
def MatlabName (s : String) : Prop :=
  s.toList.length ≤ 63 ∧ (∃ c ∈ s.toList.head?, c.isAlpha = true) ∧ ∀ c ∈ s.toList, c.isAlphanum = true ∨ c = '_'

end Verif.LoggedSettings.Spec
