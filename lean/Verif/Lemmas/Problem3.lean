import Verif.Lemmas.Problem2
import Verif.Spec.Problem
/- The terms added by each block of `setCosts`. -/
set_option linter.unusedSectionVars false
set_option linter.unusedSimpArgs false
namespace Verif.SolverM
open Labeller (Labeller Range)
open Spec (Ready)
variable {K T : Type} [Zero K] {accepts : List (Term K T) → Term K T → Bool} {st : ProblemSettings K T} {s c : Labeller K} {r : Ranges} {n : Nat}

/-- The range of a point. -/
def rangeAt (l : List Range) (i : Nat) : Range := l.getD i ⟨0, 0⟩

theorem rangeAt_some {l : List Range} {i : Nat} {x : Range} (h : l[i]? = some x) : rangeAt l i = x := by
  simp [rangeAt, List.getD_eq_getElem?_getD, h]

theorem blk_com (F : Found s c r n) : Blk accepts (addCoMPosition accepts st s)
    (st.comCostActive → st.comWeights.length = r.comPosition.size ∧ st.desiredCoMTrajectory.isSome)
    (if st.comCostActive then [⟨.comPosition, st.comCostOverallWeight, some st.comCostActiveRange,
      .stateNorm r.comPosition (some st.comWeights) st.desiredCoMTrajectory⟩] else []) := by
  unfold addCoMPosition
  refine (Blk.ite _ (Blk.lookup F.comPosition (Blk.require _ (Blk.require _ (Blk.push _))))).cond ?_ rfl
  simp [weightsFit]

theorem blk_comVelocity (F : Found s c r n) : Blk accepts (addCoMVelocity accepts st s)
    (st.comVelocityCostActive → st.comVelocityWeights.length = 3 ∧ st.desiredCoMVelocityTrajectory.isSome)
    (if st.comVelocityCostActive then [⟨.comVelocity, st.comVelocityCostOverallWeight, some st.comVelocityCostActiveRange,
      .linearMomentumNorm ⟨r.momentum.offset, 3⟩ (some st.comVelocityWeights) st.desiredCoMVelocityTrajectory⟩] else []) := by
  unfold addCoMVelocity
  refine (Blk.ite _ (Blk.lookup F.momentum (Blk.require _ (Blk.require _ (Blk.push _))))).cond ?_ rfl
  simp [weightsFit]

theorem blk_frame : Blk accepts (addFrameOrientation accepts st)
    (st.frameCostActive → st.desiredRotationTrajectory.isSome ∧ st.frameCostTimeVaryingWeight.isSome)
    (if st.frameCostActive then [⟨.frameOrientation, st.frameCostOverallWeight, none,
      .frameOrientation st.frameForOrientationCost st.desiredRotationTrajectory st.frameCostTimeVaryingWeight⟩] else []) := by
  unfold addFrameOrientation
  refine (Blk.ite _ (Blk.require _ (Blk.require _ (Blk.push _)))).cond ?_ rfl
  simp

/-- `t left i` for the left points, then `t right i` for the right points. -/
def pointTerms (st : ProblemSettings K T) (t : Foot → Nat → Term K T) : List (Term K T) :=
  (List.range st.leftPointsPosition.length).flatMap (fun i => [t .left i]) ++ (List.range st.rightPointsPosition.length).flatMap (fun i => [t .right i])

theorem blk_points {a b : Nat → List (Term K T) → Option (List (Term K T))} {t : Foot → Nat → Term K T} {C D : Nat → Prop}
    (ha : ∀ i, i < st.leftPointsPosition.length → Blk accepts (a i) (C i) [t .left i])
    (hb : ∀ i, i < st.rightPointsPosition.length → Blk accepts (b i) (D i) [t .right i]) (active : Bool) :
    Blk accepts (fun p => if active then do
        let p ← forPoints a st.leftPointsPosition.length p
        forPoints b st.rightPointsPosition.length p
      else some p)
      (active → (∀ i, i < st.leftPointsPosition.length → C i) ∧ ∀ i, i < st.rightPointsPosition.length → D i)
      (if active then pointTerms st t else []) :=
  Blk.ite _ ((Blk.loop _ ha).seq (Blk.loop _ hb))

theorem blk_forceMean : Blk accepts (addForceMean accepts st) True
    (if st.forceMeanCostActive then pointTerms st fun f i => ⟨.forceMean f i, st.forceMeanCostOverallWeight, none, .forceMean⟩ else []) := by
  unfold addForceMean
  refine (blk_points (st := st) (t := fun f i => ⟨.forceMean f i, st.forceMeanCostOverallWeight, none, .forceMean⟩) (fun i _ => Blk.push _) (fun i _ => Blk.push _) _).cond ?_ rfl
  simp

theorem blk_forceRatio : Blk accepts (addForceRatio accepts st)
    (st.forceRatioCostActive → st.leftPointsPosition.length ≤ st.desiredLeftRatios.length ∧ st.rightPointsPosition.length ≤ st.desiredRightRatios.length)
    (if st.forceRatioCostActive then pointTerms st fun f i => ⟨.forceRatio f i, st.forceMeanCostOverallWeight, none,
      .forceRatio ((Spec.ratios st f).getD i 0)⟩ else []) := by
  unfold addForceRatio
  have h : ∀ (f : Foot) (i : Nat), Blk accepts (fun p => do
      let ratio ← (Spec.ratios st f)[i]?
      push accepts ⟨.forceRatio f i, st.forceMeanCostOverallWeight, none, .forceRatio ratio⟩ p) (i < (Spec.ratios st f).length)
      [⟨.forceRatio f i, st.forceMeanCostOverallWeight, none, .forceRatio ((Spec.ratios st f).getD i 0)⟩] := by
    intro f i
    refine (Blk.lookupD (C := fun _ => True) (l := fun x => [(⟨.forceRatio f i, st.forceMeanCostOverallWeight, none, .forceRatio x⟩ : Term K T)])
      0 fun x => Blk.push _).cond ?_ ?_
    · simp
    · simp
  refine (blk_points (fun i _ => h .left i) (fun i _ => h .right i) _).cond ?_ rfl
  refine forall_congr' fun _ => and_congr ?_ ?_
  · exact ⟨fun h => by by_contra hc; exact absurd (h st.desiredLeftRatios.length (by omega)) (by simp [Spec.ratios]), fun h i hi => lt_of_lt_of_le hi h⟩
  · exact ⟨fun h => by by_contra hc; exact absurd (h st.desiredRightRatios.length (by omega)) (by simp [Spec.ratios]), fun h i hi => lt_of_lt_of_le hi h⟩

theorem blk_regularization (F : Found s c r n) : Blk accepts (addJointsRegularization accepts st s)
    (st.jointsRegularizationCostActive → st.jointsRegularizationWeights.length = r.jointsPosition.size ∧ st.desiredJointsTrajectory.isSome)
    (if st.jointsRegularizationCostActive then [⟨.jointsRegularization, st.jointsRegularizationCostOverallWeight, none,
      .stateNorm r.jointsPosition (some st.jointsRegularizationWeights) st.desiredJointsTrajectory⟩] else []) := by
  unfold addJointsRegularization
  refine (Blk.ite _ (Blk.lookup F.jointsPosition (Blk.require _ (Blk.require _ (Blk.push _))))).cond ?_ rfl
  simp [weightsFit]

theorem blk_jointsVelocity (F : Found s c r n) : Blk accepts (addJointsVelocity accepts st c)
    (st.jointsVelocityCostActive → st.jointsVelocityCostWeights.length = r.jointsVelocity.size ∧ st.desiredJointsVelocityTrajectory.isSome)
    (if st.jointsVelocityCostActive then [⟨.jointsVelocity, st.jointsVelocityCostOverallWeight, none,
      .controlNorm r.jointsVelocity (some st.jointsVelocityCostWeights) st.desiredJointsVelocityTrajectory⟩] else []) := by
  unfold addJointsVelocity
  refine (Blk.ite _ (Blk.lookup F.jointsVelocity (Blk.require _ (Blk.require _ (Blk.push _))))).cond ?_ rfl
  simp [weightsFit]

theorem blk_torques (F : Found s c r n) : Blk accepts (addStaticTorques accepts st s)
    (st.staticTorquesCostActive → st.staticTorquesCostWeights.length = r.jointsPosition.size)
    (if st.staticTorquesCostActive then [⟨.staticTorques, st.staticTorquesCostOverallWeight, none,
      .staticTorques st.leftFrameName st.rightFrameName st.leftPointsPosition st.rightPointsPosition st.staticTorquesCostWeights⟩] else []) := by
  unfold addStaticTorques
  refine (Blk.ite _ (Blk.lookup F.jointsPosition (Blk.require _ (Blk.push _)))).cond ?_ rfl
  simp [weightsFit]

/-- The range of the control of the force of a point. -/
def forceControlRange (r : Ranges) : Foot → Nat → Range
  | .left, i => rangeAt r.left.forceControlPoints i
  | .right, i => rangeAt r.right.forceControlPoints i
/-- The range of the control of the velocity of a point. -/
def velocityControlRange (r : Ranges) : Foot → Nat → Range
  | .left, i => rangeAt r.left.velocityControlPoints i
  | .right, i => rangeAt r.right.velocityControlPoints i

theorem found_forceControl (F : Found s c r n) {i : Nat} (hi : i < n) :
    Labeller.getIndexRange c ("LeftForceControlPoint" ++ toString i) = some (forceControlRange r .left i) ∧
    Labeller.getIndexRange c ("RightForceControlPoint" ++ toString i) = some (forceControlRange r .right i) := by
  obtain ⟨x, h1, h2⟩ := F.left.forceControl i hi
  obtain ⟨y, h3, h4⟩ := F.right.forceControl i hi
  rw [forceControlRange, forceControlRange, rangeAt_some h1, rangeAt_some h3]
  exact ⟨h2, h4⟩

theorem found_velocityControl (F : Found s c r n) {i : Nat} (hi : i < n) :
    Labeller.getIndexRange c ("LeftVelocityControlPoint" ++ toString i) = some (velocityControlRange r .left i) ∧
    Labeller.getIndexRange c ("RightVelocityControlPoint" ++ toString i) = some (velocityControlRange r .right i) := by
  obtain ⟨x, h1, h2⟩ := F.left.velocityControl i hi
  obtain ⟨y, h3, h4⟩ := F.right.velocityControl i hi
  rw [velocityControlRange, velocityControlRange, rangeAt_some h1, rangeAt_some h3]
  exact ⟨h2, h4⟩

theorem blk_forceDerivative (F : Found s c r n) (hl : st.leftPointsPosition.length = n) (hr : st.rightPointsPosition.length = n) :
    Blk accepts (addForceDerivative accepts st c)
    (st.forceDerivativeCostActive →
      (∀ i, i < n → st.forceDerivativeWeights.length = (forceControlRange r .left i).size ∧ st.desiredForceDerivativeTrajectory.isSome) ∧
      ∀ i, i < n → st.forceDerivativeWeights.length = (forceControlRange r .right i).size ∧ st.desiredForceDerivativeTrajectory.isSome)
    (if st.forceDerivativeCostActive then pointTerms st fun f i => ⟨.forceDerivative f i, st.forceDerivativesCostOverallWeight, none,
      .controlNorm (forceControlRange r f i) (some st.forceDerivativeWeights) st.desiredForceDerivativeTrajectory⟩ else []) := by
  unfold addForceDerivative
  refine (blk_points
    (t := fun f i => ⟨.forceDerivative f i, st.forceDerivativesCostOverallWeight, none,
      .controlNorm (forceControlRange r f i) (some st.forceDerivativeWeights) st.desiredForceDerivativeTrajectory⟩)
    (fun i hi => Blk.lookup (found_forceControl F (by omega)).1 (Blk.require _ (Blk.require _ (Blk.push _))))
    (fun i hi => Blk.lookup (found_forceControl F (by omega)).2 (Blk.require _ (Blk.require _ (Blk.push _)))) _).cond ?_ rfl
  simp [weightsFit, hl, hr]

theorem blk_acceleration (F : Found s c r n) (hl : st.leftPointsPosition.length = n) (hr : st.rightPointsPosition.length = n) :
    Blk accepts (addPointAcceleration accepts st c)
    (st.pointAccelerationCostActive →
      (∀ i, i < n → st.pointAccelerationWeights.length = (velocityControlRange r .left i).size ∧ st.desiredPointAccelerationTrajectory.isSome) ∧
      ∀ i, i < n → st.pointAccelerationWeights.length = (velocityControlRange r .right i).size ∧ st.desiredPointAccelerationTrajectory.isSome)
    (if st.pointAccelerationCostActive then pointTerms st fun f i => ⟨.pointAcceleration f i, st.pointAccelerationCostOverallWeight, none,
      .controlNorm (velocityControlRange r f i) (some st.pointAccelerationWeights) st.desiredPointAccelerationTrajectory⟩ else []) := by
  unfold addPointAcceleration
  refine (blk_points
    (t := fun f i => ⟨.pointAcceleration f i, st.pointAccelerationCostOverallWeight, none,
      .controlNorm (velocityControlRange r f i) (some st.pointAccelerationWeights) st.desiredPointAccelerationTrajectory⟩)
    (fun i hi => Blk.lookup (found_velocityControl F (by omega)).1 (Blk.require _ (Blk.require _ (Blk.push _))))
    (fun i hi => Blk.lookup (found_velocityControl F (by omega)).2 (Blk.require _ (Blk.require _ (Blk.push _)))) _).cond ?_ rfl
  simp [weightsFit, hl, hr]

theorem blk_swing : Blk accepts (addSwing accepts st) True
    (if st.swingCostActive then pointTerms st fun f i => ⟨.swing f i, st.swingCostOverallWeight, none,
      .swing st.desiredSwingHeight st.swingCostWeights⟩ else []) := by
  unfold addSwing
  refine (blk_points (st := st) (t := fun f i => ⟨.swing f i, st.swingCostOverallWeight, none,
    .swing st.desiredSwingHeight st.swingCostWeights⟩) (fun i _ => Blk.push _) (fun i _ => Blk.push _) _).cond ?_ rfl
  simp

theorem blk_phantom : Blk accepts (addPhantomForces accepts st) True
    (if st.phantomForcesCostActive then pointTerms st fun f i => ⟨.phantomForces f i, st.phantomForcesCostOverallWeight, none,
      .phantomForces st.normalForceHyperbolicSecantScaling⟩ else []) := by
  unfold addPhantomForces
  refine (blk_points (st := st) (t := fun f i => ⟨.phantomForces f i, st.phantomForcesCostOverallWeight, none,
    .phantomForces st.normalForceHyperbolicSecantScaling⟩) (fun i _ => Blk.push _) (fun i _ => Blk.push _) _).cond ?_ rfl
  simp

theorem blk_mean : Blk accepts (addMeanPointPosition accepts st)
    (st.meanPointPositionCostActive → 0 < st.leftPointsPosition.length + st.rightPointsPosition.length ∧
      st.meanPointPositionCostTimeVaryingWeight.isSome)
    (if st.meanPointPositionCostActive then [⟨.meanPointPosition, st.meanPointPositionCostOverallWeight, some st.meanPointPositionCostActiveRange,
      .meanPointPosition st.desiredMeanPointPosition st.meanPointPositionCostTimeVaryingWeight⟩] else []) := by
  unfold addMeanPointPosition
  refine (Blk.ite _ (Blk.require _ (Blk.require _ (Blk.push _)))).cond ?_ rfl
  simp

theorem blk_leftYaw : Blk accepts (addLeftFootYaw accepts st) (st.leftFootYawCostActive → st.desiredLeftFootYaw.isSome)
    (if st.leftFootYawCostActive then [⟨.footYaw .left, st.leftFootYawCostOverallWeight, none,
      .footYaw st.leftPointsPosition st.desiredLeftFootYaw⟩] else []) := by
  unfold addLeftFootYaw
  refine (Blk.ite _ (Blk.require _ (Blk.push _))).cond ?_ rfl
  simp

theorem blk_rightYaw : Blk accepts (addRightFootYaw accepts st) (st.rightFootYawCostActive → st.desiredRightFootYaw.isSome)
    (if st.rightFootYawCostActive then [⟨.footYaw .right, st.rightFootYawCostOverallWeight, none,
      .footYaw st.rightPointsPosition st.desiredRightFootYaw⟩] else []) := by
  unfold addRightFootYaw
  refine (Blk.ite _ (Blk.require _ (Blk.push _))).cond ?_ rfl
  simp

theorem blk_feetDistance : Blk accepts (addFeetDistance accepts st)
    (st.feetDistanceCostActive → 0 < st.leftPointsPosition.length ∧ 0 < st.rightPointsPosition.length)
    (if st.feetDistanceCostActive then [⟨.feetDistance, st.feetDistanceCostOverallWeight, none, .feetDistance⟩] else []) := by
  unfold addFeetDistance
  refine (Blk.ite _ (Blk.require _ (Blk.push _))).cond ?_ rfl
  simp

theorem blk_postural (F : Found s c r n) : Blk accepts (addJointsVelocityForPostural accepts st s)
    (st.jointsVelocityForPosturalCostActive → st.jointsRegularizationWeights.length = r.jointsPosition.size ∧
      st.jointsVelocityCostWeights.length = r.jointsPosition.size ∧ st.desiredJointsTrajectory.isSome)
    (if st.jointsVelocityForPosturalCostActive then [⟨.jointsVelocityForPostural, st.jointsVelocityForPosturalCostOverallWeight, none,
      .jointsVelocityForPostural st.jointsVelocityCostWeights st.jointsRegularizationWeights st.desiredJointsTrajectory⟩] else []) := by
  unfold addJointsVelocityForPostural
  refine (Blk.ite _ (Blk.lookup F.jointsPosition (Blk.require _ (Blk.require _ (Blk.require _ (Blk.push _)))))).cond ?_ rfl
  simp [weightsFit]

theorem blk_complementarity : Blk accepts (addComplementarity accepts st) True
    (if st.complementarityCostActive then pointTerms st fun f i => ⟨.complementarity f i, st.complementarityCostOverallWeight, none,
      .complementarity⟩ else []) := by
  unfold addComplementarity
  refine (blk_points (st := st) (t := fun f i => ⟨.complementarity f i, st.complementarityCostOverallWeight, none, .complementarity⟩) (fun i _ => Blk.push _) (fun i _ => Blk.push _) _).cond ?_ rfl
  simp

theorem blk_basePosition (F : Found s c r n) : Blk accepts (addBasePosition accepts st s)
    (st.basePositionCostActive → st.basePositionCostWeights.length = r.basePosition.size ∧ st.desiredBasePositionTrajectory.isSome)
    (if st.basePositionCostActive then [⟨.basePosition, st.basePositionCostOverallWeight, some st.basePositionCostActiveRange,
      .stateNorm r.basePosition (some st.basePositionCostWeights) st.desiredBasePositionTrajectory⟩] else []) := by
  unfold addBasePosition
  refine (Blk.ite _ (Blk.lookup F.basePosition (Blk.require _ (Blk.require _ (Blk.push _))))).cond ?_ rfl
  simp [weightsFit]

theorem blk_baseQuaternion (F : Found s c r n) : Blk accepts (addBaseQuaternion accepts st s)
    (st.baseQuaternionCostActive → st.desiredBaseQuaternionTrajectory.isSome)
    (if st.baseQuaternionCostActive then [⟨.baseQuaternion, st.baseQuaternionCostOverallWeight, none,
      .stateNorm r.baseQuaternion none st.desiredBaseQuaternionTrajectory⟩] else []) := by
  unfold addBaseQuaternion
  refine (Blk.ite _ (Blk.lookup F.baseQuaternion (Blk.require _ (Blk.push _)))).cond ?_ rfl
  simp

theorem blk_frameAngularVelocity : Blk accepts (addFrameAngularVelocity accepts st) True
    (if st.frameAngularVelocityCostActive then [⟨.frameAngularVelocity, st.frameAngularVelocityCostOverallWeight, none,
      .frameAngularVelocity st.frameForOrientationCost st.rotationalPIDgain st.desiredRotationTrajectory⟩] else []) := by
  unfold addFrameAngularVelocity
  refine (Blk.ite _ (Blk.push _)).cond ?_ rfl
  simp

theorem blk_baseLinearVelocity (F : Found s c r n) : Blk accepts (addBaseLinearVelocity accepts st c)
    (st.baseLinearVelocityCostActive → st.baseLinearVelocityCostWeights.length = r.baseLinearVelocity.size ∧ st.desiredBaseLinearVelocityTrajectory.isSome)
    (if st.baseLinearVelocityCostActive then [⟨.baseLinearVelocity, st.baseLinearVelocityCostOverallWeight, none,
      .controlNorm r.baseLinearVelocity (some st.baseLinearVelocityCostWeights) st.desiredBaseLinearVelocityTrajectory⟩] else []) := by
  unfold addBaseLinearVelocity
  refine (Blk.ite _ (Blk.lookup F.baseLinearVelocity (Blk.require _ (Blk.require _ (Blk.push _))))).cond ?_ rfl
  simp [weightsFit]

theorem blk_baseQuaternionVelocity (F : Found s c r n) : Blk accepts (addBaseQuaternionVelocity accepts st c)
    (st.baseQuaternionVelocityCostActive → st.desiredBaseQuaternionVelocityTrajectory.isSome)
    (if st.baseQuaternionVelocityCostActive then [⟨.baseQuaternionVelocity, st.baseQuaternionVelocityCostOverallWeight, none,
      .controlNorm r.baseQuaternionDerivative none st.desiredBaseQuaternionVelocityTrajectory⟩] else []) := by
  unfold addBaseQuaternionVelocity
  refine (Blk.ite _ (Blk.lookup F.baseQuaternionDerivative (Blk.require _ (Blk.push _)))).cond ?_ rfl
  simp

theorem blk_angularMomentum (F : Found s c r n) : Blk accepts (addAngularMomentum accepts st s) True
    (if st.angularMomentumCostActive then [⟨.angularMomentum, st.angularMomentumCostOverallWeight, none,
      .stateNorm ⟨r.momentum.offset + 3, 3⟩ none none⟩] else []) := by
  unfold addAngularMomentum
  refine (Blk.ite _ (Blk.lookup (f := fun (m : Range) => push accepts ⟨.angularMomentum, st.angularMomentumCostOverallWeight, none,
    .stateNorm ⟨m.offset + 3, 3⟩ none none⟩) F.momentum (Blk.push _))).cond ?_ rfl
  simp

end Verif.SolverM
