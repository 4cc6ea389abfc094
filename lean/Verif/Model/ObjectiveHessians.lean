import Verif.Model.ObjectiveGradient
import Verif.Model.ConstraintHessians
/-
The second derivatives of the objective handed to the optimiser: `costSecondPartialDerivativeWRTState`, `...WRTControl`, `...WRTStateControl` of the costs that `setCosts`
(src/Solver.cpp:384-878) creates, and the entries that they declare, put together as the gradients are in Model/ObjectiveGradient.lean.

External, and modelled here: the second derivatives of `iDynTree::optimalcontrol::L2NormCost` (the weights, on the diagonal of the segment), the ones of a cost that does not define
them (`iDynTree::optimalcontrol::Cost` returns false: this is the case of `StaticTorquesCost`, include/DynamicalPlannerPrivate/Costs/StaticTorquesCost.h), and
`OptimalControlProblem::costsSecondPartialDerivativeWRTState` (`...WRTControl`, `...WRTStateControl`): the weighted sum for the Lagrange terms whose range contains the time, each
cost being given a matrix of zeros.
-/
namespace Verif.Plan
open NLP NLP.Kin SolverM Rigid
open Labeller (Range)
noncomputable section
variable {n nj : ℕ} {L F : Type} [DecidableEq L] [DecidableEq F] {m : Model L (Fin nj)} {T : Type}

/-- A diagonal matrix on a segment. -/
def segmentHessian (rg : Range) (w : List ℝ) : ℕ → ℕ → ℝ := fun i j => if i = j ∧ rg.offset ≤ i ∧ i < rg.offset + rg.size then w.getD (i - rg.offset) 0 else 0

/-- The pairs of entries of a segment. -/
def segmentDeclared (rg : Range) (i j : ℕ) : Prop := (rg.offset ≤ i ∧ i < rg.offset + rg.size) ∧ rg.offset ≤ j ∧ j < rg.offset + rg.size

/-- `L2NormCost` on the state. -/
def stateNormHessians (rg : Range) (w : List ℝ) : Hessians :=
  ⟨segmentHessian rg w, fun _ _ => 0, fun _ _ => 0, segmentDeclared rg, fun _ _ => False, fun _ _ => False⟩
/-- `L2NormCost` on the control. -/
def controlNormHessians (rg : Range) (w : List ℝ) : Hessians :=
  ⟨fun _ _ => 0, segmentHessian rg w, fun _ _ => 0, fun _ _ => False, segmentDeclared rg, fun _ _ => False⟩

/-- What a cost object returns, in the vectors of the optimiser. -/
def costHessians (r : Ranges) (c : NLP.Cost (Idx (SBlk n)) (Idx (CBlk n))) (x : SVec n) (u : CVec n) : Hessians where
  state := stateMatrixOf r (c.stateHess x u fun _ _ => 0)
  control := controlMatrixOf r (c.ctrlHess x u fun _ _ => 0)
  mixed := mixedMatrixOf r (c.mixedHess x u fun _ _ => 0)
  stateDeclared i j := ∃ p q, (p, q) ∈ c.stateHessPat ∧ StateColumn r p i ∧ StateColumn r q j
  controlDeclared i j := ∃ p q, (p, q) ∈ c.ctrlHessPat ∧ ControlColumn r p i ∧ ControlColumn r q j
  mixedDeclared i j := ∃ p q, (p, q) ∈ c.mixedHessPat ∧ StateColumn r p i ∧ ControlColumn r q j

/-- The second derivatives of the cost object (`none`: one of the calls returns false). Unlike the value and the gradient, they do not read the reference of `L2NormCost`, of
`MeanPointPositionCost` (src/private/MeanPointPositionCost.cpp:186-216) and of `JointsVelocityForPosturalCost` (src/private/JointsVelocityForPosturalCost.cpp:150-174): the model
gives them the reference zero, on which the matrices do not depend. -/
def hessBody (R : CostObjects m F) (Q : Readings T) (r : Ranges) (x : SVec n) (u : CVec n) (t : ℝ) : SolverM.Cost → Body ℝ T → Option Hessians
  | _, .stateNorm rg w _ => some (stateNormHessians rg (normWeights rg.size w))
  | _, .controlNorm rg w _ => some (controlNormHessians rg (normWeights rg.size w))
  | _, .linearMomentumNorm rg w _ => some (stateNormHessians rg (normWeights rg.size w))
  | .frameOrientation, .frameOrientation frame reference weight => do
    let Rd ← setOr Q.rotation 1 reference t
    let w ← setOr Q.number 1 weight t
    some (costHessians r ((⟨R.server, R.frame frame, R.asQuaternion⟩ : Orientation m F).cost R.norm R.leftover w Rd) x u)
  | .forceMean f i, .forceMean => if h : i < n then some (costHessians r (forceMean (side f) ⟨i, h⟩) x u) else none
  | .forceRatio f i, .forceRatio ratio => if h : i < n then some (costHessians r (forceRatio (side f) ⟨i, h⟩ ratio) x u) else none
  | .swing f i, .swing height weights => if h : i < n then some (costHessians r (swing (side f) ⟨i, h⟩ height weights) x u) else none
  | .phantomForces f i, .phantomForces scaling =>
    if h : i < n then some (costHessians r (phantomForces (side f) ⟨i, h⟩ (activation scaling)) x u) else none
  | .meanPointPosition, .meanPointPosition _ weight => do
    let w ← setOr Q.vector [1, 1, 1] weight t
    match w with
    | [a, b, c] => some (costHessians r (meanPointPosition ⟨0, 0, 0⟩ ⟨a, b, c⟩) x u)
    | _ => none
  | .footYaw f, .footYaw points reference =>
    match (corners points).bottomRight, (corners points).topRight, (corners points).topLeft with
    | some br, some tr, some tl =>
      if h : br < n ∧ tr < n ∧ tl < n then do
        let yaw ← setOr Q.number 0 reference t
        some (costHessians r (footYaw (side f) ⟨br, h.1⟩ ⟨tr, h.2.1⟩ ⟨tl, h.2.2⟩
          (initialYaw (points.getD tr ⟨0, 0, 0⟩) (points.getD br ⟨0, 0, 0⟩)) yaw) x u)
      else none
    | _, _, _ => none
  | .feetDistance, .feetDistance => some (costHessians r feetDistance x u)
  | .jointsVelocityForPostural, .jointsVelocityForPostural weights gains _ =>
    some (costHessians r (jointsPostural nj (fun k => weights.getD k 0) (fun k => gains.getD k 0) fun _ => 0) x u)
  | .complementarity f i, .complementarity => if h : i < n then some (costHessians r (complementarityCost (side f) ⟨i, h⟩) x u) else none
  | .frameAngularVelocity, .frameAngularVelocity frame gain reference => do
    let Rd ← setOr Q.rotation 1 reference t
    some (costHessians r ((⟨R.server, R.frame frame, gain⟩ : AngularVelocity m F).cost R.rot R.norm R.held.velocities Rd) x u)
  | _, _ => none

open Classical in
/-- `OptimalControlProblem::costsSecondPartialDerivativeWRTState` and the two others at a time. -/
def objectiveHessians (R : CostObjects m F) (Q : Readings T) (r : Ranges) (x : SVec n) (u : CVec n) (t : ℝ) : List (Term ℝ T) → Option Hessians
  | [] => some ⟨fun _ _ => 0, fun _ _ => 0, fun _ _ => 0, fun _ _ => False, fun _ _ => False, fun _ _ => False⟩
  | term :: l =>
    if isActive term.range t then do
      let a ← hessBody R Q r x u t term.cost term.body
      let b ← objectiveHessians R Q r x u t l
      some
        { state := fun i j => term.weight * a.state i j + b.state i j
          control := fun i j => term.weight * a.control i j + b.control i j
          mixed := fun i j => term.weight * a.mixed i j + b.mixed i j
          stateDeclared := fun i j => a.stateDeclared i j ∨ b.stateDeclared i j
          controlDeclared := fun i j => a.controlDeclared i j ∨ b.controlDeclared i j
          mixedDeclared := fun i j => a.mixedDeclared i j ∨ b.mixedDeclared i j }
    else objectiveHessians R Q r x u t l

/-- The matrices that the optimiser sees, for its two vectors. -/
def hessiansOn (R : CostObjects m F) (Q : Readings T) (r : Ranges) (n : ℕ) (terms : List (Term ℝ T)) (t : ℝ) (v w : List ℝ) : Option Hessians :=
  objectiveHessians R Q r (readState (n := n) r v) (readControl (n := n) r w) t terms

end
end Verif.Plan
