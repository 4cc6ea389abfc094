import Verif.Spec.Objective
/-
Specification for the sign of what the optimiser minimises: the weights that the user gives are not negative, the desired orientation is a rotation.
-/
namespace Verif.Plan.Spec
open NLP NLP.Kin SolverM StateM Rigid Matrix
noncomputable section
variable {T : Type}

/-- The weights of the costs that are active at the time `t` are not negative, and the desired orientation at that time is a rotation matrix. -/
structure NonnegativeWeights (Q : Readings T) (st : ProblemSettings ℝ T) (t : ℝ) : Prop where
  overall : ∀ k a, ActiveAt st t k a → 0 ≤ a.weight
  com : st.comCostActive = true → ∀ x ∈ st.comWeights, 0 ≤ x
  comVelocity : st.comVelocityCostActive = true → ∀ x ∈ st.comVelocityWeights, 0 ≤ x
  jointsRegularization : st.jointsRegularizationCostActive = true → ∀ x ∈ st.jointsRegularizationWeights, 0 ≤ x
  jointsVelocity : st.jointsVelocityCostActive = true → ∀ x ∈ st.jointsVelocityCostWeights, 0 ≤ x
  staticTorques : st.staticTorquesCostActive = true → ∀ x ∈ st.staticTorquesCostWeights, 0 ≤ x
  forceDerivative : st.forceDerivativeCostActive = true → ∀ x ∈ st.forceDerivativeWeights, 0 ≤ x
  pointAcceleration : st.pointAccelerationCostActive = true → ∀ x ∈ st.pointAccelerationWeights, 0 ≤ x
  swing : st.swingCostActive = true → 0 ≤ st.swingCostWeights.x ∧ 0 ≤ st.swingCostWeights.y ∧ 0 ≤ st.swingCostWeights.z
  basePosition : st.basePositionCostActive = true → ∀ x ∈ st.basePositionCostWeights, 0 ≤ x
  baseLinearVelocity : st.baseLinearVelocityCostActive = true → ∀ x ∈ st.baseLinearVelocityCostWeights, 0 ≤ x
  frame : st.frameCostActive = true → ∀ w, st.frameCostTimeVaryingWeight = some w → ∀ x, Q.number w t = some x → 0 ≤ x
  meanPoint : st.meanPointPositionCostActive = true → ∀ w, st.meanPointPositionCostTimeVaryingWeight = some w → ∀ v, Q.vector w t = some v → ∀ x ∈ v, 0 ≤ x
  rotation : st.frameCostActive = true → ∀ r, st.desiredRotationTrajectory = some r → ∀ A, Q.rotation r t = some A → A * Aᵀ = 1

end
end Verif.Plan.Spec
