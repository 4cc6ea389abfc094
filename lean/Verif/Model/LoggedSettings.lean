import Verif.Model.Logger
/-
Model of `populateSettingsStruct` (src/Logger.cpp:29-242), which `Logger::saveSolutionVectorsToFile` (src/Logger.cpp:244-359) calls at line 357 to save the settings next to the solution.
A time varying reference (`std::shared_ptr<TimeVarying...>`) is an element of `T`, a `TimeRange` of `W`, a robot model of `M`; `modelText` is `iDynTree::Model::toString`.
Simplification: the names that the code gives to the elements of a cell array ("contactPoint", "bound") are left out, since a cell array is read by position; the numeric class of a MATLAB value is the constructor of `Value`.
-/
namespace Verif.LoggedSettings

/-- Settings.h:20-25. -/
inductive Complementarity
  | hyperbolicSecantInequality | dynamical | classical | hyperbolicSecantInDynamics
  deriving DecidableEq

/-- Settings.h:27-31. -/
inductive PlanarComplementarity
  | hyperbolicTangentInDynamics | hyperbolicTangentInequality | classical
  deriving DecidableEq

/-- Settings.h:35-242: all the members, in the order of the declaration. -/
structure SettingsStruct (K M T W : Type) where
  minimumDt : K
  maximumDt : K
  controlPeriod : K
  horizon : K
  activeControlPercentage : K
  robotModel : M
  gravity : K × K × K
  updateTolerance : K
  floatingBaseName : String
  leftPointsPosition : List (K × K × K)
  rightPointsPosition : List (K × K × K)
  leftFrameName : String
  rightFrameName : String
  complementarity : Complementarity
  forceMaximumDerivative : K × K × K
  normalForceDissipationRatio : K
  normalForceHyperbolicSecantScaling : K
  complementarityDissipation : K
  dynamicComplementarityUpperBound : K
  classicalComplementarityTolerance : K
  frictionCoefficient : K
  planarComplementarity : PlanarComplementarity
  velocityMaximumDerivative : K × K × K
  planarVelocityHyperbolicTangentScaling : K
  normalVelocityHyperbolicSecantScaling : K
  classicalPlanarComplementarityTolerance : K
  indexOfLateralDirection : Nat
  minimumFeetDistance : K
  referenceFrameNameForFeetDistance : String
  otherFrameNameForFeetDistance : String
  feetMaximumRelativeHeight : K
  comPositionConstraintTolerance : K
  centroidalMomentumConstraintTolerance : K
  quaternionModulusConstraintTolerance : K
  pointPositionConstraintTolerance : K
  minimumCoMHeight : K
  jointsLimits : List (K × K)
  jointsVelocityLimits : List (K × K)
  constrainTargetCoMPosition : Bool
  targetCoMPositionTolerance : T
  constrainTargetCoMPositionRange : W
  maximumAngularMomentum : K
  comCostActive : Bool
  comCostOverallWeight : K
  comCostActiveRange : W
  comWeights : List K
  desiredCoMTrajectory : T
  comVelocityCostActive : Bool
  comVelocityCostOverallWeight : K
  comVelocityWeights : List K
  comVelocityCostActiveRange : W
  desiredCoMVelocityTrajectory : T
  frameCostActive : Bool
  frameCostOverallWeight : K
  frameForOrientationCost : String
  desiredRotationTrajectory : T
  frameCostTimeVaryingWeight : T
  forceMeanCostActive : Bool
  forceMeanCostOverallWeight : K
  forceRatioCostActive : Bool
  forceRatioCostOverallWeight : K
  desiredLeftRatios : List K
  desiredRightRatios : List K
  jointsRegularizationCostActive : Bool
  jointsRegularizationCostOverallWeight : K
  desiredJointsTrajectory : T
  jointsRegularizationWeights : List K
  jointsVelocityCostActive : Bool
  jointsVelocityCostOverallWeight : K
  desiredJointsVelocityTrajectory : T
  jointsVelocityCostWeights : List K
  staticTorquesCostActive : Bool
  staticTorquesCostOverallWeight : K
  staticTorquesCostWeights : List K
  forceDerivativeCostActive : Bool
  forceDerivativesCostOverallWeight : K
  desiredForceDerivativeTrajectory : T
  forceDerivativeWeights : List K
  pointAccelerationCostActive : Bool
  pointAccelerationCostOverallWeight : K
  desiredPointAccelerationTrajectory : T
  pointAccelerationWeights : List K
  swingCostActive : Bool
  swingCostOverallWeight : K
  desiredSwingHeight : K
  swingCostWeights : K × K × K
  phantomForcesCostActive : Bool
  phantomForcesCostOverallWeight : K
  meanPointPositionCostActive : Bool
  meanPointPositionCostOverallWeight : K
  meanPointPositionCostTimeVaryingWeight : T
  meanPointPositionCostActiveRange : W
  desiredMeanPointPosition : T
  leftFootYawCostActive : Bool
  leftFootYawCostOverallWeight : K
  desiredLeftFootYaw : T
  rightFootYawCostActive : Bool
  rightFootYawCostOverallWeight : K
  desiredRightFootYaw : T
  feetDistanceCostActive : Bool
  feetDistanceCostOverallWeight : K
  jointsVelocityForPosturalCostActive : Bool
  jointsVelocityForPosturalCostOverallWeight : K
  complementarityCostActive : Bool
  complementarityCostOverallWeight : K
  basePositionCostActive : Bool
  basePositionCostOverallWeight : K
  basePositionCostActiveRange : W
  basePositionCostWeights : List K
  desiredBasePositionTrajectory : T
  baseQuaternionCostActive : Bool
  baseQuaternionCostOverallWeight : K
  desiredBaseQuaternionTrajectory : T
  frameAngularVelocityCostActive : Bool
  frameAngularVelocityCostOverallWeight : K
  rotationalPIDgain : K
  baseLinearVelocityCostActive : Bool
  baseLinearVelocityCostOverallWeight : K
  baseLinearVelocityCostWeights : List K
  desiredBaseLinearVelocityTrajectory : T
  baseQuaternionVelocityCostActive : Bool
  baseQuaternionVelocityCostOverallWeight : K
  desiredBaseQuaternionVelocityTrajectory : T
  angularMomentumCostActive : Bool
  angularMomentumCostOverallWeight : K
  useConstraintsHessianRegularization : Bool
  constraintsHessianRegularization : K
  useCostsHessianRegularization : Bool
  costsHessianRegularization : K

/-- What a field of a MATLAB structure can hold (`matioCpp::Element`, `String`, `Vector`, `CellArray`, `Struct`; Logger.cpp:29-63, 79-90, 143-161). -/
inductive Value (K : Type)
  | number (x : K)
  | integer (x : Nat)
  | logical (x : Bool)
  | text (x : String)
  | vector (x : List K)
  | cell (x : List (Value K))
  | struct (x : List (String × Value K))

/-- `matioCpp::Struct`: the fields in the order in which they were added. -/
abbrev Struct (K : Type) := List (String × Value K)

/-- `matioCpp::Struct::setField`: a field that is there is overwritten, one that is not is added at the end. -/
def setField {K : Type} (s : Struct K) (name : String) (v : Value K) : Struct K :=
  if s.any (fun f => f.1 == name) then s.map (fun f => if f.1 == name then (name, v) else f) else s ++ [(name, v)]

/-- The value read from a structure under a name. -/
def field {K : Type} (s : Struct K) (name : String) : Option (Value K) := (s.find? (fun f => f.1 == name)).map Prod.snd

/-- Logger.cpp:95-110. -/
def complementarityName : Complementarity → String
  | .classical => "Classical"
  | .dynamical => "Dynamical"
  | .hyperbolicSecantInDynamics => "HyperbolicSecantInDynamics"
  | .hyperbolicSecantInequality => "HyperbolicSecantInequality"

/-- Logger.cpp:120-131. -/
def planarName : PlanarComplementarity → String
  | .classical => "Classical"
  | .hyperbolicTangentInDynamics => "HyperbolicTangentInDynamics"
  | .hyperbolicTangentInequality => "HyperbolicTangentInequality"

/-- Logger.cpp:79-90: an element of the cell arrays of the contact points. -/
def contactPoint {K : Type} (p : K × K × K) : Value K := .vector [p.1, p.2.1, p.2.2]

/-- Logger.cpp:143-161: an element of the cell arrays of the limits. -/
def bound {K : Type} (b : K × K) : Value K := .struct (setField (setField [] "min" (.number b.1)) "max" (.number b.2))

variable {K M T W : Type}

/-- Logger.cpp:66-242: the calls of `setField`, in the order of the code; the name of a setting saved with the macro of line 63 is the name of the member. -/
def calls (modelText : M → String) (s : SettingsStruct K M T W) : List (String × Value K) :=
  [ ("minimumDt", .number s.minimumDt),
    ("maximumDt", .number s.maximumDt),
    ("controlPeriod", .number s.controlPeriod),
    ("horizon", .number s.horizon),
    ("activeControlPercentage", .number s.activeControlPercentage),
    ("robotModel", .text (modelText s.robotModel)),
    ("gravity", .vector [s.gravity.1, s.gravity.2.1, s.gravity.2.2]),
    ("updateTolerance", .number s.updateTolerance),
    ("floatingBaseName", .text s.floatingBaseName),
    ("leftPointsPosition", .cell (s.leftPointsPosition.map contactPoint)),
    ("rightPointsPosition", .cell (s.rightPointsPosition.map contactPoint)),
    ("leftFrameName", .text s.leftFrameName),
    ("rightFrameName", .text s.rightFrameName),
    ("complementarity", .text (complementarityName s.complementarity)),
    ("forceMaximumDerivative", .vector [s.forceMaximumDerivative.1, s.forceMaximumDerivative.2.1, s.forceMaximumDerivative.2.2]),
    ("normalForceDissipationRatio", .number s.normalForceDissipationRatio),
    ("normalForceHyperbolicSecantScaling", .number s.normalForceHyperbolicSecantScaling),
    ("complementarityDissipation", .number s.complementarityDissipation),
    ("dynamicComplementarityUpperBound", .number s.dynamicComplementarityUpperBound),
    ("classicalComplementarityTolerance", .number s.classicalComplementarityTolerance),
    ("frictionCoefficient", .number s.frictionCoefficient),
    ("planarComplementarity", .text (planarName s.planarComplementarity)),
    ("velocityMaximumDerivative", .vector [s.velocityMaximumDerivative.1, s.velocityMaximumDerivative.2.1, s.velocityMaximumDerivative.2.2]),
    ("planarVelocityHyperbolicTangentScaling", .number s.planarVelocityHyperbolicTangentScaling),
    ("normalVelocityHyperbolicSecantScaling", .number s.normalVelocityHyperbolicSecantScaling),
    ("classicalPlanarComplementarityTolerance", .number s.classicalPlanarComplementarityTolerance),
    ("indexOfLateralDirection", .integer s.indexOfLateralDirection),
    ("minimumFeetDistance", .number s.minimumFeetDistance),
    ("referenceFrameNameForFeetDistance", .text s.referenceFrameNameForFeetDistance),
    ("otherFrameNameForFeetDistance", .text s.otherFrameNameForFeetDistance),
    ("feetMaximumRelativeHeight", .number s.feetMaximumRelativeHeight),
    ("comPositionConstraintTolerance", .number s.comPositionConstraintTolerance),
    ("centroidalMomentumConstraintTolerance", .number s.centroidalMomentumConstraintTolerance),
    ("quaternionModulusConstraintTolerance", .number s.quaternionModulusConstraintTolerance),
    ("pointPositionConstraintTolerance", .number s.pointPositionConstraintTolerance),
    ("minimumCoMHeight", .number s.minimumCoMHeight),
    ("maximumAngularMomentum", .number s.maximumAngularMomentum),
    ("jointsLimits", .cell (s.jointsLimits.map bound)),
    ("jointsVelocityLimits", .cell (s.jointsVelocityLimits.map bound)),
    ("constrainTargetCoMPosition", .logical s.constrainTargetCoMPosition),
    ("comCostActive", .logical s.comCostActive),
    ("comCostOverallWeight", .number s.comCostOverallWeight),
    ("comWeights", .vector s.comWeights),
    ("comVelocityCostActive", .logical s.comVelocityCostActive),
    ("comVelocityCostOverallWeight", .number s.comVelocityCostOverallWeight),
    ("comVelocityWeights", .vector s.comVelocityWeights),
    ("frameCostActive", .logical s.frameCostActive),
    ("frameCostOverallWeight", .number s.frameCostOverallWeight),
    ("frameForOrientationCost", .text s.frameForOrientationCost),
    ("forceMeanCostActive", .logical s.forceMeanCostActive),
    ("forceMeanCostOverallWeight", .number s.forceMeanCostOverallWeight),
    ("forceRatioCostActive", .logical s.forceRatioCostActive),
    ("forceRatioCostOverallWeight", .number s.forceRatioCostOverallWeight),
    ("desiredLeftRatios", .vector s.desiredLeftRatios),
    ("desiredRightRatios", .vector s.desiredRightRatios),
    ("jointsRegularizationCostActive", .logical s.jointsRegularizationCostActive),
    ("jointsRegularizationCostOverallWeight", .number s.jointsRegularizationCostOverallWeight),
    ("jointsRegularizationWeights", .vector s.jointsRegularizationWeights),
    ("jointsVelocityCostActive", .logical s.jointsVelocityCostActive),
    ("jointsVelocityCostOverallWeight", .number s.jointsVelocityCostOverallWeight),
    ("jointsVelocityCostWeights", .vector s.jointsVelocityCostWeights),
    ("staticTorquesCostActive", .logical s.staticTorquesCostActive),
    ("staticTorquesCostOverallWeight", .number s.staticTorquesCostOverallWeight),
    ("staticTorquesCostWeights", .vector s.staticTorquesCostWeights),
    ("forceDerivativeCostActive", .logical s.forceDerivativeCostActive),
    ("forceDerivativesCostOverallWeight", .number s.forceDerivativesCostOverallWeight),
    ("forceDerivativeWeights", .vector s.forceDerivativeWeights),
    ("pointAccelerationCostActive", .logical s.pointAccelerationCostActive),
    ("pointAccelerationCostOverallWeight", .number s.pointAccelerationCostOverallWeight),
    ("pointAccelerationWeights", .vector s.pointAccelerationWeights),
    ("swingCostActive", .logical s.swingCostActive),
    ("swingCostOverallWeight", .number s.swingCostOverallWeight),
    ("desiredSwingHeight", .number s.desiredSwingHeight),
    ("swingCostWeights", .vector [s.swingCostWeights.1, s.swingCostWeights.2.1, s.swingCostWeights.2.2]),
    ("phantomForcesCostActive", .logical s.phantomForcesCostActive),
    ("phantomForcesCostOverallWeight", .number s.phantomForcesCostOverallWeight),
    ("meanPointPositionCostActive", .logical s.meanPointPositionCostActive),
    ("meanPointPositionCostOverallWeight", .number s.meanPointPositionCostOverallWeight),
    ("leftFootYawCostActive", .logical s.leftFootYawCostActive),
    ("leftFootYawCostOverallWeight", .number s.leftFootYawCostOverallWeight),
    ("rightFootYawCostActive", .logical s.rightFootYawCostActive),
    ("rightFootYawCostOverallWeight", .number s.rightFootYawCostOverallWeight),
    ("feetDistanceCostActive", .logical s.feetDistanceCostActive),
    ("feetDistanceCostOverallWeight", .number s.feetDistanceCostOverallWeight),
    ("jointsVelocityForPosturalCostActive", .logical s.jointsVelocityForPosturalCostActive),
    ("jointsVelocityForPosturalCostOverallWeight", .number s.jointsVelocityForPosturalCostOverallWeight),
    ("complementarityCostActive", .logical s.complementarityCostActive),
    ("complementarityCostOverallWeight", .number s.complementarityCostOverallWeight),
    ("basePositionCostActive", .logical s.basePositionCostActive),
    ("basePositionCostOverallWeight", .number s.basePositionCostOverallWeight),
    ("basePositionCostWeights", .vector s.basePositionCostWeights),
    ("baseQuaternionCostActive", .logical s.baseQuaternionCostActive),
    ("baseQuaternionCostOverallWeight", .number s.baseQuaternionCostOverallWeight),
    ("frameAngularVelocityCostActive", .logical s.frameAngularVelocityCostActive),
    ("frameAngularVelocityCostOverallWeight", .number s.frameAngularVelocityCostOverallWeight),
    ("rotationalPIDgain", .number s.rotationalPIDgain),
    ("baseLinearVelocityCostActive", .logical s.baseLinearVelocityCostActive),
    ("baseLinearVelocityCostWeights", .vector s.baseLinearVelocityCostWeights),
    ("baseLinearVelocityCostOverallWeight", .number s.baseLinearVelocityCostOverallWeight),
    ("baseQuaternionVelocityCostActive", .logical s.baseQuaternionVelocityCostActive),
    ("baseQuaternionVelocityCostOverallWeight", .number s.baseQuaternionVelocityCostOverallWeight),
    ("angularMomentumCostActive", .logical s.angularMomentumCostActive),
    ("angularMomentumCostOverallWeight", .number s.angularMomentumCostOverallWeight),
    ("useConstraintsHessianRegularization", .logical s.useConstraintsHessianRegularization),
    ("constraintsHessianRegularization", .number s.constraintsHessianRegularization),
    ("useCostsHessianRegularization", .logical s.useCostsHessianRegularization),
    ("costsHessianRegularization", .number s.costsHessianRegularization) ]

/-- `populateSettingsStruct`, Logger.cpp:66-242. -/
def populate (modelText : M → String) (s : SettingsStruct K M T W) : Struct K :=
  (calls modelText s).foldl (fun acc c => setField acc c.1 c.2) []

/-- A variable of the file. -/
inductive Variable (K : Type)
  | array (a : Logger.Arr K)
  | struct (s : Struct K)

/-- Logger.cpp:244-359: the variables of the file that is written, by name; `none` if the method fails before the file is created (see Model/Logger.lean).
The structure is called "settings" (line 68) and is written last. -/
def savedFile (junk : String → Nat → Nat → K) (asQuat : Verif.M3 K → StateM.V4 K) (modelText : M → String) (settings : SettingsStruct K M T W)
    (states : List (StateM.State K)) (controls : List (StateM.Control K)) (computationalTime costValues : List K) : Option (String → Option (Variable K)) := do
  let logged ← Logger.saveSolutionVectors junk asQuat states controls computationalTime costValues
  return Function.update (fun name => (logged name).map .array) "settings" (some (.struct (populate modelText settings)))

end Verif.LoggedSettings
