import Verif.Lemmas.Plan4
import Verif.Lemmas.Joints
import Mathlib.Tactic.IntervalCases
/- A robot with two legs, standing or jumping, that meets the hypotheses of C83, C84 and C85. -/
set_option linter.unusedSectionVars false
set_option linter.unusedSimpArgs false
namespace Verif.Plan.Sample
open NLP NLP.Kin SolverM StateM Rigid Matrix Filter Topology Set
open SolverM.Spec (stateVector controlVector StateSize ControlSize footPoints footFrame)
noncomputable section

/-- Two links of one kilogram, connected by a hinge with a vertical axis. -/
def biped : Model (Fin 2) (Fin 1) where
  links := [0, 1]
  nodup := by decide
  complete := by decide
  first := ![0]
  second := ![1]
  T := fun _ => rotZ
  S := fun _ => (0, ![0, 0, 1])
  inertia := fun _ => ⟨1, 0, 1⟩

theorem biped_regular : biped.Regular := fun _ x => hasTangent_rotZ x

def fromLeft : Traversal biped where
  root := 0
  parent := ![0, 0]
  joint := ![0, 0]
  child := ![1]
  order := [0, 1]
  depth := ![0, 1]
  depth_lt := by decide
  connects := by simp only [biped]; decide
  child_joint := by decide
  child_ne := by decide
  joint_child := by decide
  order_nodup := by decide
  order_complete := by decide
  order_head := rfl
  order_parent := by
    intro a l b h
    rcases a with _ | ⟨x, _ | ⟨y, a⟩⟩ <;> simp at h
    · obtain ⟨rfl, _⟩ := h; simp
    · obtain ⟨rfl, rfl, _⟩ := h; simp

def fromRight : Traversal biped where
  root := 1
  parent := ![1, 1]
  joint := ![0, 0]
  child := ![0]
  order := [1, 0]
  depth := ![1, 0]
  depth_lt := by decide
  connects := by simp only [biped]; decide
  child_joint := by decide
  child_ne := by decide
  joint_child := by decide
  order_nodup := by decide
  order_complete := by decide
  order_head := rfl
  order_parent := by
    intro a l b h
    rcases a with _ | ⟨x, _ | ⟨y, a⟩⟩ <;> simp at h
    · obtain ⟨rfl, _⟩ := h; simp
    · obtain ⟨rfl, rfl, _⟩ := h; simp

/-- The sole of the right leg is a frame 20 cm to the right of the origin of its link. -/
def server : Server biped (Option (Fin 2)) where
  frames :=
    { link := fun f => f.getD 1
      offset := fun f => match f with
        | none => translation ![0, -1 / 5, 0]
        | some _ => 1
      ofLink := some
      link_ofLink := fun _ => rfl
      offset_ofLink := fun _ => rfl }
  base := 0
  tree := ![fromLeft, fromRight]
  root_tree := by intro l; fin_cases l <;> rfl

variable (rot : RotExprs) (norm : NormExprs) (order : List StateTask) (order' : List MixedTask) (leftover : Leftover 1) (stored : V3 ℝ)

def objects : Objects biped (Option (Fin 2)) where
  server := server
  frame := fun f => if f = "r_sole" then none else some 0
  rot := rot
  norm := norm
  fuel := 3
  order := order
  order' := order'
  leftover := leftover
  stored := stored

/-- Exact constraints, for each choice of the mechanisms. -/
def settings (k : Settings.ComplementarityType) (pk : Settings.PlanarComplementarityType) : ProblemSettings ℝ Unit :=
  { dofs := 1, gravity := ⟨0, 0, -981/100⟩, updateTolerance := 1, floatingBaseName := "root_link",
    leftPointsPosition := [⟨0, 1/10, -1⟩], rightPointsPosition := [⟨0, 1/10, -1⟩], leftFrameName := "l_sole", rightFrameName := "r_sole",
    complementarity := k, forceMaximumDerivative := ⟨1, 1, 1⟩, normalForceDissipationRatio := 1, normalForceHyperbolicSecantScaling := 1,
    complementarityDissipation := 1, dynamicComplementarityUpperBound := 10, classicalComplementarityTolerance := 0, frictionCoefficient := 1 / 3,
    planarComplementarity := pk, velocityMaximumDerivative := ⟨20, 20, 20⟩, planarVelocityHyperbolicTangentScaling := 1, classicalPlanarComplementarityTolerance := 0,
    indexOfLateralDirection := 1, minimumFeetDistance := 1 / 10, referenceFrameNameForFeetDistance := "r_sole", otherFrameNameForFeetDistance := "l_sole",
    feetMaximumRelativeHeight := 1, comPositionConstraintTolerance := 0, centroidalMomentumConstraintTolerance := 0, quaternionModulusConstraintTolerance := 0,
    pointPositionConstraintTolerance := 0, comCostActive := false, comCostOverallWeight := 1, comCostActiveRange := ⟨0, 1⟩,
    comWeights := [1, 2, 3], desiredCoMTrajectory := some (), comVelocityCostActive := false, comVelocityCostOverallWeight := 1,
    comVelocityWeights := [1, 1, 1], comVelocityCostActiveRange := ⟨0, 1⟩, desiredCoMVelocityTrajectory := some (), frameCostActive := false,
    frameCostOverallWeight := 1, frameForOrientationCost := "chest", desiredRotationTrajectory := some (), frameCostTimeVaryingWeight := some (),
    forceMeanCostActive := false, forceMeanCostOverallWeight := 1, forceRatioCostActive := false, forceRatioCostOverallWeight := 10,
    desiredLeftRatios := [1], desiredRightRatios := [1], jointsRegularizationCostActive := false, jointsRegularizationCostOverallWeight := 1,
    desiredJointsTrajectory := some (), jointsRegularizationWeights := [1], jointsVelocityCostActive := false, jointsVelocityCostOverallWeight := 1,
    desiredJointsVelocityTrajectory := some (), jointsVelocityCostWeights := [3], staticTorquesCostActive := false, staticTorquesCostOverallWeight := 1,
    staticTorquesCostWeights := [1], forceDerivativeCostActive := false, forceDerivativesCostOverallWeight := 1, desiredForceDerivativeTrajectory := some (),
    forceDerivativeWeights := [1, 1, 1], pointAccelerationCostActive := false, pointAccelerationCostOverallWeight := 1, desiredPointAccelerationTrajectory := some (),
    pointAccelerationWeights := [1, 1, 1], swingCostActive := false, swingCostOverallWeight := 1, desiredSwingHeight := 1,
    swingCostWeights := ⟨1, 1, 1⟩, phantomForcesCostActive := false, phantomForcesCostOverallWeight := 1, meanPointPositionCostActive := false,
    meanPointPositionCostOverallWeight := 1, meanPointPositionCostTimeVaryingWeight := some (), meanPointPositionCostActiveRange := ⟨0, 1⟩, desiredMeanPointPosition := some (),
    leftFootYawCostActive := false, leftFootYawCostOverallWeight := 1, desiredLeftFootYaw := some (), rightFootYawCostActive := false,
    rightFootYawCostOverallWeight := 1, desiredRightFootYaw := some (), feetDistanceCostActive := false, feetDistanceCostOverallWeight := 1,
    jointsVelocityForPosturalCostActive := false, jointsVelocityForPosturalCostOverallWeight := 1, complementarityCostActive := false, complementarityCostOverallWeight := 1,
    basePositionCostActive := false, basePositionCostOverallWeight := 1, basePositionCostActiveRange := ⟨0, 1⟩, basePositionCostWeights := [0, 0, 1],
    desiredBasePositionTrajectory := some (), baseQuaternionCostActive := false, baseQuaternionCostOverallWeight := 1, desiredBaseQuaternionTrajectory := some (),
    frameAngularVelocityCostActive := false, frameAngularVelocityCostOverallWeight := 1, rotationalPIDgain := 1, baseLinearVelocityCostActive := false,
    baseLinearVelocityCostOverallWeight := 1, baseLinearVelocityCostWeights := [1, 1, 1], desiredBaseLinearVelocityTrajectory := some (), baseQuaternionVelocityCostActive := false,
    baseQuaternionVelocityCostOverallWeight := 1, desiredBaseQuaternionVelocityTrajectory := some (), angularMomentumCostActive := false, angularMomentumCostOverallWeight := 1 }

/-- Upright, with the origin of the base at height `z` that moves up with velocity `w`, and a vertical force `φ` at each foot. -/
def state (z w φ : ℝ) : State ℝ where
  left := [⟨⟨0, 0, φ⟩, ⟨0, 1 / 10, z - 1⟩⟩]
  right := [⟨⟨0, 0, φ⟩, ⟨0, -1 / 10, z - 1⟩⟩]
  linearMomentum := ⟨0, 0, 2 * w⟩
  angularMomentum := ⟨0, 0, 0⟩
  com := ⟨0, 0, z⟩
  base := ⟨⟨⟨1, 0, 0⟩, ⟨0, 1, 0⟩, ⟨0, 0, 1⟩⟩, ⟨0, 0, z⟩⟩
  joints := [0]
  time := 0

def control (w ψ : ℝ) : Control ℝ where
  left := [⟨⟨0, 0, ψ⟩, ⟨0, 0, w⟩⟩]
  right := [⟨⟨0, 0, ψ⟩, ⟨0, 0, w⟩⟩]
  baseLinearVelocity := ⟨0, 0, w⟩
  baseQuaternionDerivative := ⟨0, 0, 0, 0⟩
  jointsVelocity := [0]
  time := 0

def upright : V4 ℝ := ⟨1, 0, 0, 0⟩

theorem state_size (z w φ : ℝ) : StateSize 1 1 (state z w φ) := ⟨rfl, rfl, rfl⟩
theorem control_size (w ψ : ℝ) : ControlSize 1 1 (control w ψ) := ⟨rfl, rfl, rfl⟩
theorem mass_ne : Spec.mass biped ≠ 0 := by simp [Spec.mass, biped]

theorem pose_eq (z w φ : ℝ) : Spec.pose (state z w φ) upright = translation ![0, 0, z] := by
  refine SE3.ext ?_ rfl
  show Quaternion.rotationFromQuaternion (Quaternion.normalized Real.sqrt (Spec.quat upright)) = 1
  rw [normalized_unit (by rw [unit_iff]; simp [upright]), Quaternion.rotation_entry]
  ext i j; fin_cases i <;> fin_cases j <;> simp [Spec.quat, upright]

theorem rotZ_zero : rotZ 0 = 1 := by
  refine SE3.ext ?_ rfl
  ext i j; fin_cases i <;> fin_cases j <;> simp [rotZ]

theorem joints_eq (z w φ : ℝ) : (Spec.joints (state z w φ) : Fin 1 → ℝ) = 0 := by funext j; fin_cases j; rfl
theorem jointVelocities_eq (w ψ : ℝ) : (Spec.jointVelocities (control w ψ) : Fin 1 → ℝ) = 0 := by funext j; fin_cases j; rfl

theorem joint_zero (l : Fin 2) : server.kin.jointTransform 0 l = 1 := by
  show fromLeft.jointTransform 0 l = 1
  unfold Traversal.jointTransform
  split_ifs
  · exact rotZ_zero
  · show (rotZ 0)⁻¹ = 1
    rw [rotZ_zero, inv_one]

theorem world_eq (H : SE3) (l : Fin 2) : server.kin.world H 0 l = H := by
  have h0 : server.kin.world H 0 0 = H := Traversal.world_root server.kin H 0
  fin_cases l
  · exact h0
  · show server.kin.world H 0 1 = H
    rw [server.kin.world_step H 0 (show (1 : Fin 2) ≠ server.kin.root by decide), joint_zero, mul_one]
    exact h0

theorem vel_eq (v : Spatial) (l : Fin 2) : server.kin.vel v 0 0 l = v := by
  have h0 : server.kin.vel v 0 0 0 = v := Traversal.vel_root server.kin v 0 0
  fin_cases l
  · exact h0
  · show server.kin.vel v 0 0 1 = v
    rw [server.kin.vel_step v 0 0 (show (1 : Fin 2) ≠ server.kin.root by decide), joint_zero, inv_one, SE3.act_one]
    have : server.kin.parent 1 = 0 := rfl
    rw [this, h0]
    simp

theorem twist_eq (w ψ : ℝ) : Spec.twist upright (control w ψ) = (![0, 0, w], 0) := by
  refine Prod.ext rfl ?_
  show Quaternion.leftTrivializedDerivativeInverse _ *ᵥ Spec.quat ⟨0, 0, 0, 0⟩ = 0
  have : Spec.quat (⟨0, 0, 0, 0⟩ : V4 ℝ) = 0 := by funext i; fin_cases i <;> rfl
  rw [this, mulVec_zero]

local notation "Rob" => objects rot norm order order' leftover stored

theorem centre_eq (z w φ : ℝ) : Spec.centre Rob (state z w φ) upright = ![0, 0, z] := by
  unfold Spec.centre
  rw [joints_eq, pose_eq]
  have h1 : ∀ l, (objects rot norm order order' leftover stored).server.kin.world (translation ![0, 0, z]) 0 l = translation ![0, 0, z] := world_eq _
  simp only [h1]
  show (Spec.mass biped)⁻¹ • ([0, 1].map fun _ : Fin 2 => (1 : ℝ) • (translation ![0, 0, z]).point 0).sum = _
  have hm : Spec.mass biped = 2 := by simp [Spec.mass, biped]; norm_num
  rw [hm]
  ext i; fin_cases i <;> simp [translation, SE3.point]
  ring

theorem angular_eq (z w φ ψ : ℝ) : Spec.angularMomentum Rob (state z w φ) upright (control w ψ) = 0 := by
  unfold Spec.angularMomentum
  rw [joints_eq, pose_eq, jointVelocities_eq, twist_eq, centre_eq]
  have h1 : ∀ l, (objects rot norm order order' leftover stored).server.kin.world (translation ![0, 0, z]) 0 l = translation ![0, 0, z] := world_eq _
  have h2 : ∀ v l, (objects rot norm order order' leftover stored).server.kin.vel v 0 0 l = v := vel_eq
  simp only [h1, h2]
  have : ∀ l, (biped.inertia l).mul (![0, 0, w], 0) = (![0, 0, w], 0) := by
    intro l
    simp [Inertia.mul, biped]
  simp only [this]
  simp [translation]

theorem frame_eq (z w φ : ℝ) (f : String) :
    Spec.framePose Rob (state z w φ) upright f = translation ![0, 0, z] * (if f = "r_sole" then translation ![0, -1 / 5, 0] else 1) := by
  unfold Spec.framePose
  rw [joints_eq, pose_eq]
  have h1 : ∀ l, (objects rot norm order order' leftover stored).server.kin.world (translation ![0, 0, z]) 0 l = translation ![0, 0, z] := world_eq _
  rw [h1]
  congr 1
  show server.frames.offset (if f = "r_sole" then none else some 0) = _
  split_ifs <;> rfl

/-- The mechanism for the normal force, for these motions. -/
def Unloads (k : Settings.ComplementarityType) (z w φ ψ : ℝ) : Prop :=
  match k with
  | .dynamical => ψ * (z - 1) + φ * w ≤ 10 - (z - 1) * φ
  | .hyperbolicSecantInequality => ψ ≤ 1 / Real.cosh (z - 1) - (1 - 1 / Real.cosh (z - 1)) * φ
  | .classical => (z - 1) * φ ≤ 0
  | .hyperbolicSecantInDynamics => True

variable (k : Settings.ComplementarityType) (pk : Settings.PlanarComplementarityType)

theorem consistent_sample (z w φ ψ : ℝ) (h0 : 0 ≤ φ) (hz : 1 ≤ z) (h1 : Unloads k z w φ ψ) :
    Spec.Consistent Rob (settings k pk) (state z w φ) upright (control w ψ) where
  momentum := by
    rw [angular_eq]
    intro i; fin_cases i <;> simp [settings, state, toVec]
  com := by
    rw [centre_eq]
    intro i; fin_cases i <;> simp [settings, state, toVec]
  distance := by
    intro i hi
    have : i = 1 := Fin.ext hi
    subst this
    rw [frame_eq, frame_eq]
    simp [settings, translation, SE3.point, SE3.inv_R, SE3.inv_p]
    norm_num
  quaternion := by simp [upright, settings]
  height := by simp [state, settings]
  friction := by
    intro f p hp
    cases f <;> simp [Spec.points, state] at hp <;> subst hp <;> simp [settings]
  contact := by
    intro f i p b hp hb
    have hi : i = 0 := by
      have := (List.getElem?_eq_some_iff.1 hp).1
      cases f <;> simp [Spec.points, state] at this <;> exact this
    subst hi
    cases f
    all_goals
      simp [Spec.points, state] at hp
      simp [footPoints, settings] at hb
      subst hp
      subst hb
      rw [frame_eq]
      intro k; fin_cases k <;> simp [settings, footFrame, translation, SE3.point, toVec] <;> norm_num
  slip := by
    intro f i p v hp hv
    have hi : i = 0 := by
      have := (List.getElem?_eq_some_iff.1 hp).1
      cases f <;> simp [Spec.points, state] at this <;> exact this
    subst hi
    cases f
    all_goals
      simp [Spec.inputs, control] at hv
      simp [Spec.points, state] at hp
      subst hv
      subst hp
      have ht : 0 ≤ Real.tanh (z - 1) := by
        rw [Real.tanh_eq_sinh_div_cosh]
        exact div_nonneg (Real.sinh_nonneg_iff.2 (by linarith)) (Real.cosh_pos _).le
      cases pk <;> simp [Spec.NoSlip, settings, ht]
  normal := by
    intro f i p v hp hv
    have hi : i = 0 := by
      have := (List.getElem?_eq_some_iff.1 hp).1
      cases f <;> simp [Spec.points, state] at this <;> exact this
    subst hi
    cases f
    all_goals
      simp [Spec.points, state] at hp
      simp [Spec.inputs, control] at hv
      subst hv
      subst hp
      cases k <;> simpa [Spec.NoForceAbove, settings, Unloads] using h1

/-! ### The dynamics -/

def masses : List ℝ := biped.links.map fun k => (biped.inertia k).mass
def params : Dynamics.Params := dynamicsParams 1 masses (dynamicsSetup (settings k pk))

theorem params_mass : (params k pk).mass = 2 := by
  show Dynamics.totalMass masses = 2
  rw [Dynamics.C15_total_mass]
  simp [masses, biped]; norm_num
theorem params_z (hk : k ≠ .hyperbolicSecantInDynamics) (h : ℝ) : (params k pk).δz.eval h = 1 := by
  simp [params, dynamicsParams, dynamicsSetup, settings, hk, dynamicsActivation, Dynamics.Params.δz, Smooth.Fn.eval, Smooth.Params.disable]
theorem params_xy (hpk : pk ≠ .hyperbolicTangentInDynamics) (h : ℝ) : (params k pk).δxy.eval h = 1 := by
  simp [params, dynamicsParams, dynamicsSetup, settings, hpk, dynamicsActivation, Dynamics.Params.δxy, Smooth.Fn.eval, Smooth.Params.disable]

theorem sum_pt (g : Dynamics.Pt 1 → ℝ) : ∑ a, g a = g (.left, 0) + g (.right, 0) := by
  rw [Fintype.sum_prod_type]
  rw [show (Finset.univ : Finset Side) = {.left, .right} from rfl, Finset.sum_pair (by decide)]
  simp

theorem follows_sample (hk' : k ≠ .hyperbolicSecantInDynamics) (hpk : pk ≠ .hyperbolicTangentInDynamics) {z w φ ψ : ℝ → ℝ} {t : ℝ} (h1 : HasDerivAt z (w t) t) (h2 : HasDerivAt w (φ t - 981 / 100) t) (h3 : HasDerivAt φ (ψ t) t) :
    Follows (n := 1) 1 (params k pk) (rangesAt 1 1) (fun τ => state (z τ) (w τ) (φ τ)) (fun _ => upright) (fun τ => control (w τ) (ψ τ)) t := by
  intro buffer p hp
  simp only [NLP.Spec.stateEntries, List.mem_flatMap, List.mem_map, List.mem_range] at hp
  obtain ⟨b, -, j, hj, rfl⟩ := hp
  have zero : HasDerivAt (fun _ : ℝ => (0 : ℝ)) 0 t := hasDerivAt_const _ _
  have const : ∀ a : ℝ, HasDerivAt (fun _ : ℝ => a) 0 t := fun a => hasDerivAt_const _ _
  rcases b with ⟨f, i⟩ | ⟨f, i⟩ | _ | _ | _ | _ | _
  · obtain rfl : i = 0 := Subsingleton.elim _ _
    rw [Dynamics.dyn_force, params_z k pk hk']
    simp only [NLP.Spec.stateSize] at hj
    interval_cases j
    · cases f <;> exact zero
    · cases f <;> exact zero
    · rw [if_neg (by omega), if_pos rfl]
      cases f
      all_goals
        refine h3.congr_deriv ?_
        rw [one_mul, sub_self, mul_zero, zero_mul, add_zero]
        rfl
  · obtain rfl : i = 0 := Subsingleton.elim _ _
    rw [Dynamics.dyn_pos, params_xy k pk hpk]
    simp only [NLP.Spec.stateSize] at hj
    interval_cases j
    · rw [if_pos (by omega), one_mul]
      cases f <;> exact zero
    · rw [if_pos (by omega), one_mul]
      cases f <;> exact const _
    · rw [if_neg (by omega), if_pos rfl]
      cases f <;> exact h1.sub_const 1
  · rw [Dynamics.dyn_momentum, params_mass k pk, sum_pt, sum_pt]
    simp only [NLP.Spec.stateSize] at hj
    have hl : vec3 (readState (n := 1) (rangesAt 1 1) (stateVector (state (z t) (w t) (φ t)) upright)) (.force .left 0) = ⟨0, 0, φ t⟩ := rfl
    have hr : vec3 (readState (n := 1) (rangesAt 1 1) (stateVector (state (z t) (w t) (φ t)) upright)) (.force .right 0) = ⟨0, 0, φ t⟩ := rfl
    have dl : Dynamics.distance (readState (n := 1) (rangesAt 1 1) (stateVector (state (z t) (w t) (φ t)) upright)) .left 0 = ⟨0 - 0, 1 / 10 - 0, z t - 1 - z t⟩ := rfl
    have dr : Dynamics.distance (readState (n := 1) (rangesAt 1 1) (stateVector (state (z t) (w t) (φ t)) upright)) .right 0 = ⟨0 - 0, -1 / 10 - 0, z t - 1 - z t⟩ := rfl
    rw [hl, hr, dl, dr]
    interval_cases j
    · refine zero.congr_deriv ?_
      show (0 : ℝ) = 2 * Dynamics.gravity 0 + (0 + 0)
      simp [Dynamics.gravity]
    · refine zero.congr_deriv ?_
      show (0 : ℝ) = 2 * Dynamics.gravity 1 + (0 + 0)
      simp [Dynamics.gravity]
    · refine (h2.const_mul 2).congr_deriv ?_
      show 2 * (φ t - 981 / 100) = 2 * Dynamics.gravity 2 + (φ t + φ t)
      simp [Dynamics.gravity]; ring
    all_goals
      refine zero.congr_deriv ?_
      simp [Dynamics.gravity, Dynamics.comp, V3.cross]
      try ring
  · rw [Dynamics.dyn_com, params_mass k pk]
    simp only [NLP.Spec.stateSize] at hj
    rw [if_pos hj]
    interval_cases j
    · refine zero.congr_deriv ?_
      exact (zero_div _).symm
    · refine zero.congr_deriv ?_
      exact (zero_div _).symm
    · refine h1.congr_deriv ?_
      exact (mul_div_cancel_left₀ (w t) (two_ne_zero)).symm
  · simp only [NLP.Spec.stateSize] at hj
    rw [Dynamics.dyn_basePos, dif_pos hj, read_vel (control_size _ _)]
    have : Dynamics.baseRotation (readState (n := 1) (rangesAt 1 1) (stateVector (state (z t) (w t) (φ t)) upright)) = 1 := by
      have := congrArg SE3.R (pose_eq (z t) (w t) (φ t))
      rw [← read_pose upright (state_size (z t) (w t) (φ t))] at this
      exact this
    rw [this, one_mulVec]
    interval_cases j
    · exact zero
    · exact zero
    · exact h1
  · simp only [NLP.Spec.stateSize] at hj
    rw [Dynamics.dyn_quat, if_pos hj]
    interval_cases j <;> exact const _
  · simp only [NLP.Spec.stateSize] at hj
    rw [Dynamics.dyn_joints, if_pos (show j < (params k pk).joints from hj)]
    interval_cases j
    exact zero

end
end Verif.Plan.Sample
