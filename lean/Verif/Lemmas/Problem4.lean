import Verif.Lemmas.Problem3
/- The terms of the whole problem. -/
set_option linter.unusedSectionVars false
set_option linter.unusedSimpArgs false
namespace Verif.SolverM
open Labeller (Labeller Range)
open Spec (Ready footPoints)
variable {K T : Type} [Zero K] {accepts : List (Term K T) → Term K T → Bool} {st : ProblemSettings K T} {s c : Labeller K} {r : Ranges} {n : Nat}

/-- The terms of each block. -/
def costBlocks (st : ProblemSettings K T) (r : Ranges) : List (List (Term K T)) := [
  if st.comCostActive then [⟨.comPosition, st.comCostOverallWeight, some st.comCostActiveRange,
    .stateNorm r.comPosition (some st.comWeights) st.desiredCoMTrajectory⟩] else [],
  if st.comVelocityCostActive then [⟨.comVelocity, st.comVelocityCostOverallWeight, some st.comVelocityCostActiveRange,
    .linearMomentumNorm ⟨r.momentum.offset, 3⟩ (some st.comVelocityWeights) st.desiredCoMVelocityTrajectory⟩] else [],
  if st.frameCostActive then [⟨.frameOrientation, st.frameCostOverallWeight, none,
    .frameOrientation st.frameForOrientationCost st.desiredRotationTrajectory st.frameCostTimeVaryingWeight⟩] else [],
  if st.forceMeanCostActive then pointTerms st fun f i => ⟨.forceMean f i, st.forceMeanCostOverallWeight, none, .forceMean⟩ else [],
  if st.forceRatioCostActive then pointTerms st fun f i => ⟨.forceRatio f i, st.forceMeanCostOverallWeight, none,
    .forceRatio ((Spec.ratios st f).getD i 0)⟩ else [],
  if st.jointsRegularizationCostActive then [⟨.jointsRegularization, st.jointsRegularizationCostOverallWeight, none,
    .stateNorm r.jointsPosition (some st.jointsRegularizationWeights) st.desiredJointsTrajectory⟩] else [],
  if st.jointsVelocityCostActive then [⟨.jointsVelocity, st.jointsVelocityCostOverallWeight, none,
    .controlNorm r.jointsVelocity (some st.jointsVelocityCostWeights) st.desiredJointsVelocityTrajectory⟩] else [],
  if st.staticTorquesCostActive then [⟨.staticTorques, st.staticTorquesCostOverallWeight, none,
    .staticTorques st.leftFrameName st.rightFrameName st.leftPointsPosition st.rightPointsPosition st.staticTorquesCostWeights⟩] else [],
  if st.forceDerivativeCostActive then pointTerms st fun f i => ⟨.forceDerivative f i, st.forceDerivativesCostOverallWeight, none,
    .controlNorm (forceControlRange r f i) (some st.forceDerivativeWeights) st.desiredForceDerivativeTrajectory⟩ else [],
  if st.pointAccelerationCostActive then pointTerms st fun f i => ⟨.pointAcceleration f i, st.pointAccelerationCostOverallWeight, none,
    .controlNorm (velocityControlRange r f i) (some st.pointAccelerationWeights) st.desiredPointAccelerationTrajectory⟩ else [],
  if st.swingCostActive then pointTerms st fun f i => ⟨.swing f i, st.swingCostOverallWeight, none,
    .swing st.desiredSwingHeight st.swingCostWeights⟩ else [],
  if st.phantomForcesCostActive then pointTerms st fun f i => ⟨.phantomForces f i, st.phantomForcesCostOverallWeight, none,
    .phantomForces st.normalForceHyperbolicSecantScaling⟩ else [],
  if st.meanPointPositionCostActive then [⟨.meanPointPosition, st.meanPointPositionCostOverallWeight, some st.meanPointPositionCostActiveRange,
    .meanPointPosition st.desiredMeanPointPosition st.meanPointPositionCostTimeVaryingWeight⟩] else [],
  if st.leftFootYawCostActive then [⟨.footYaw .left, st.leftFootYawCostOverallWeight, none,
    .footYaw st.leftPointsPosition st.desiredLeftFootYaw⟩] else [],
  if st.rightFootYawCostActive then [⟨.footYaw .right, st.rightFootYawCostOverallWeight, none,
    .footYaw st.rightPointsPosition st.desiredRightFootYaw⟩] else [],
  if st.feetDistanceCostActive then [⟨.feetDistance, st.feetDistanceCostOverallWeight, none, .feetDistance⟩] else [],
  if st.jointsVelocityForPosturalCostActive then [⟨.jointsVelocityForPostural, st.jointsVelocityForPosturalCostOverallWeight, none,
    .jointsVelocityForPostural st.jointsVelocityCostWeights st.jointsRegularizationWeights st.desiredJointsTrajectory⟩] else [],
  if st.complementarityCostActive then pointTerms st fun f i => ⟨.complementarity f i, st.complementarityCostOverallWeight, none,
    .complementarity⟩ else [],
  if st.basePositionCostActive then [⟨.basePosition, st.basePositionCostOverallWeight, some st.basePositionCostActiveRange,
    .stateNorm r.basePosition (some st.basePositionCostWeights) st.desiredBasePositionTrajectory⟩] else [],
  if st.baseQuaternionCostActive then [⟨.baseQuaternion, st.baseQuaternionCostOverallWeight, none,
    .stateNorm r.baseQuaternion none st.desiredBaseQuaternionTrajectory⟩] else [],
  if st.frameAngularVelocityCostActive then [⟨.frameAngularVelocity, st.frameAngularVelocityCostOverallWeight, none,
    .frameAngularVelocity st.frameForOrientationCost st.rotationalPIDgain st.desiredRotationTrajectory⟩] else [],
  if st.baseLinearVelocityCostActive then [⟨.baseLinearVelocity, st.baseLinearVelocityCostOverallWeight, none,
    .controlNorm r.baseLinearVelocity (some st.baseLinearVelocityCostWeights) st.desiredBaseLinearVelocityTrajectory⟩] else [],
  if st.baseQuaternionVelocityCostActive then [⟨.baseQuaternionVelocity, st.baseQuaternionVelocityCostOverallWeight, none,
    .controlNorm r.baseQuaternionDerivative none st.desiredBaseQuaternionVelocityTrajectory⟩] else [],
  if st.angularMomentumCostActive then [⟨.angularMomentum, st.angularMomentumCostOverallWeight, none,
    .stateNorm ⟨r.momentum.offset + 3, 3⟩ none none⟩] else []]

/-- All the terms. -/
def costTerms (st : ProblemSettings K T) (r : Ranges) : List (Term K T) := (costBlocks st r).flatten

/-- The sizes of the ranges. -/
structure RangeSizes (r : Ranges) (d n : Nat) : Prop where
  com : r.comPosition.size = 3
  base : r.basePosition.size = 3
  joints : r.jointsPosition.size = d
  jointsVelocity : r.jointsVelocity.size = d
  baseVelocity : r.baseLinearVelocity.size = 3
  forceControl : ∀ f i, i < n → (forceControlRange r f i).size = 3
  velocityControl : ∀ f i, i < n → (velocityControlRange r f i).size = 3

theorem sizes_at (d n : Nat) : RangeSizes (rangesAt d n) d n := by
  refine ⟨rfl, rfl, rfl, rfl, rfl, fun f i hi => ?_, fun f i hi => ?_⟩ <;>
  cases f <;> simp [forceControlRange, velocityControlRange, rangeAt, rangesAt, footAt, List.getD_eq_getElem?_getD, hi]

theorem setCosts_iff (F : Found s c r n) (hs : RangeSizes r st.dofs n) (hl : st.leftPointsPosition.length = n) (hr : st.rightPointsPosition.length = n)
    (hn : 0 < n) (terms : List (Term K T)) :
    setCosts accepts st s c = some terms ↔ Ready st ∧ AcceptAll accepts [] (costTerms st r) ∧ terms = costTerms st r := by
  have B := (blk_com (accepts := accepts) (st := st) F).seq ((blk_comVelocity (st := st) F).seq ((blk_frame (st := st)).seq ((blk_forceMean (st := st)).seq ((blk_forceRatio (st := st)).seq
    ((blk_regularization (st := st) F).seq ((blk_jointsVelocity (st := st) F).seq ((blk_torques (st := st) F).seq ((blk_forceDerivative (st := st) F hl hr).seq ((blk_acceleration (st := st) F hl hr).seq
    ((blk_swing (st := st)).seq ((blk_phantom (st := st)).seq ((blk_mean (st := st)).seq ((blk_leftYaw (st := st)).seq ((blk_rightYaw (st := st)).seq ((blk_feetDistance (st := st)).seq ((blk_postural (st := st) F).seq
    ((blk_complementarity (st := st)).seq ((blk_basePosition (st := st) F).seq ((blk_baseQuaternion (st := st) F).seq ((blk_frameAngularVelocity (st := st)).seq ((blk_baseLinearVelocity (st := st) F).seq
    ((blk_baseQuaternionVelocity (st := st) F).seq (blk_angularMomentum (st := st) F)))))))))))))))))))))))
  have B := B [] terms
  rw [show setCosts accepts st s c = _ from rfl]
  refine B.trans ?_
  rw [hs.com, hs.base, hs.joints, hs.jointsVelocity, hs.baseVelocity]
  refine and_congr ?_ (and_congr ?_ ?_)
  · constructor
    · rintro ⟨h1, h2, h3, -, h5, h6, h7, h8, h9, h10, -, -, h13, h14, h15, h16, h17, -, h19, h20, -, h22, h23, -⟩
      exact ⟨h1, h2, h3, h5, h6, h7, h8, fun a => by have := (h9 a).1 0 hn; rwa [hs.forceControl _ _ hn] at this,
        fun a => by have := (h10 a).1 0 hn; rwa [hs.velocityControl _ _ hn] at this, fun a => (h13 a).2, h14, h15, h17, h19, h20, h22, h23⟩
    · intro h
      refine ⟨h.com, h.comVelocity, h.frame, trivial, h.ratio, h.regularization, h.jointsVelocity, h.torques, ?_, ?_, trivial, trivial,
        fun a => ⟨by omega, h.mean a⟩, h.leftYaw, h.rightYaw, fun a => ⟨by omega, by omega⟩, h.postural, trivial, h.basePosition, h.baseQuaternion, trivial,
        h.baseVelocity, h.quaternionVelocity, trivial⟩
      · exact fun a => ⟨fun i hi => by rw [hs.forceControl _ _ hi]; exact h.forceDerivative a, fun i hi => by
          rw [hs.forceControl _ _ hi]; exact h.forceDerivative a⟩
      · exact fun a => ⟨fun i hi => by rw [hs.velocityControl _ _ hi]; exact h.acceleration a, fun i hi => by
          rw [hs.velocityControl _ _ hi]; exact h.acceleration a⟩
  · simp only [costTerms, costBlocks, List.flatten_cons, List.flatten_nil, List.append_nil]
  · simp only [costTerms, costBlocks, List.flatten_cons, List.flatten_nil, List.append_nil, List.nil_append]

theorem filter_range (n j : Nat) (t : Nat → Term K T) (P : Term K T → Bool) (h : ∀ i, P (t i) = decide (i = j)) :
    ((List.range n).flatMap fun i => [t i]).filter P = if j < n then [t j] else [] := by
  induction n with
  | zero => simp
  | succ n ih =>
    rw [List.range_succ, List.flatMap_append, List.filter_append, ih]
    by_cases h1 : j < n
    · have : ¬ n = j := by omega
      simp [h, this, h1, show j < n + 1 by omega]
    · by_cases h2 : n = j
      · subst h2; simp [h]
      · simp [h, h1, h2, show ¬ j < n + 1 by omega]

theorem filter_range_ne (n : Nat) (t : Nat → Term K T) (P : Term K T → Bool) (h : ∀ i, P (t i) = false) :
    ((List.range n).flatMap fun i => [t i]).filter P = [] := by
  rw [List.filter_eq_nil_iff]
  intro x hx
  simp only [List.mem_flatMap, List.mem_singleton] at hx
  obtain ⟨i, -, rfl⟩ := hx
  simp [h]

theorem filter_points_ne (t : Foot → Nat → Term K T) (k : Cost) (h : ∀ f i, (t f i).cost ≠ k) (active : Bool) :
    (if active then pointTerms st t else []).filter (fun t => t.cost = k) = [] := by
  cases active
  · rfl
  · rw [if_pos rfl, pointTerms, List.filter_append, filter_range_ne _ _ _ (by simp [h]), filter_range_ne _ _ _ (by simp [h])]; rfl

theorem filter_points (t : Foot → Nat → Term K T) (C : Foot → Nat → Cost) (hc : ∀ f i, (t f i).cost = C f i) (hi : ∀ f i g j, C f i = C g j ↔ f = g ∧ i = j)
    (f : Foot) (i : Nat) (active : Bool) :
    (if active then pointTerms st t else []).filter (fun t => t.cost = C f i) = if active = true ∧ i < (footPoints st f).length then [t f i] else [] := by
  cases active
  · simp
  · rw [if_pos rfl, pointTerms, List.filter_append]
    cases f with
    | left =>
      rw [filter_range _ i _ _ (by simp [hc, hi]), filter_range_ne _ _ _ (by simp [hc, hi]), List.append_nil]
      simp [footPoints]
    | right =>
      rw [filter_range_ne _ _ _ (by simp [hc, hi]), filter_range _ i _ _ (by simp [hc, hi]), List.nil_append]
      simp [footPoints]

theorem filter_one (t : Term K T) (k : Cost) (active : Bool) :
    (if active then [t] else []).filter (fun t => t.cost = k) = if active = true ∧ t.cost = k then [t] else [] := by
  cases active
  · simp
  · by_cases h : t.cost = k <;> simp [h]

end Verif.SolverM
