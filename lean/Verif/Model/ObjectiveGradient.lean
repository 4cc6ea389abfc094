import Verif.Model.Objective
/-
The gradient of the objective handed to the optimiser: `costFirstPartialDerivativeWRTState` and `costFirstPartialDerivativeWRTControl` of the costs that `setCosts`
(src/Solver.cpp:384-878) creates, put together as the objective is in Model/Objective.lean.

External, and modelled here: the gradient of `iDynTree::optimalcontrol::L2NormCost` and `OptimalControlProblem::costsFirstPartialDerivativeWRTState` (`...WRTControl`):
the weighted sum of the gradients of the Lagrange terms whose range contains the time, each cost being given a vector of zeros.
-/
namespace Verif.Plan
open NLP NLP.Kin SolverM Rigid
open Labeller (Range)
noncomputable section
variable {n nj : ℕ} {L F : Type} [DecidableEq L] [DecidableEq F] {m : Model L (Fin nj)} {T : Type}

/-- The gradients with respect to the two vectors of the optimiser, entry by entry. -/
structure Gradients where
  state : ℕ → ℝ
  control : ℕ → ℝ

/-- The entry of the vector where an entry of a labelled range is (`range.offset + k`, Solver.cpp:330-382). -/
def StatePlace (r : Ranges) (p : Idx (SBlk n)) (i : ℕ) : Prop := ∃ rg, stateRange r p.1 = some rg ∧ p.2 < rg.size ∧ rg.offset + p.2 = i
def ControlPlace (r : Ranges) (p : Idx (CBlk n)) (i : ℕ) : Prop := ∃ rg, controlRange r p.1 = some rg ∧ p.2 < rg.size ∧ rg.offset + p.2 = i

open Classical in
/-- The vector that is written range by range. -/
def stateVectorOf (r : Ranges) (g : SVec n) : ℕ → ℝ := fun i => if h : ∃ p, StatePlace r p i then g h.choose else 0
open Classical in
/-- The vector that is written range by range. -/
def controlVectorOf (r : Ranges) (g : CVec n) : ℕ → ℝ := fun i => if h : ∃ p, ControlPlace r p i then g h.choose else 0

/-- The gradient of `L2NormCost` on its segment: `W (x - r)`. -/
def normGradient (w x r : List ℝ) : List ℝ := List.zipWith (fun a b => a * (b.1 - b.2)) w (List.zip x r)

/-- A vector that is zero but for a segment. -/
def segmentGradient (rg : Range) (g : List ℝ) : ℕ → ℝ := fun i => if rg.offset ≤ i ∧ i < rg.offset + rg.size then g.getD (i - rg.offset) 0 else 0

/-- What a cost object returns, in the vectors of the optimiser. -/
def costGradients (r : Ranges) (c : NLP.Cost (Idx (SBlk n)) (Idx (CBlk n))) (x : SVec n) (u : CVec n) : Gradients where
  state := stateVectorOf r (c.stateGrad x u fun _ => 0)
  control := controlVectorOf r (c.ctrlGrad x u fun _ => 0)

/-- `costFirstPartialDerivativeWRTState` and `...WRTControl` of the cost object; `calls` are the calls of the static torques cost before this one, `left` what the shared
computations hold when the orientation error is differentiated. -/
def gradBody (R : CostObjects m F) (Q : Readings T) (r : Ranges) (calls : List (StaticTorques.Call n nj)) (x : SVec n) (u : CVec n) (sv cv : List ℝ) (t : ℝ) :
    SolverM.Cost → Body ℝ T → Option Gradients
  | _, .stateNorm rg w ref =>
    (normReference Q rg.size t ref).map fun v => ⟨segmentGradient rg (normGradient (normWeights rg.size w) (segmentOf rg sv) v), fun _ => 0⟩
  | _, .controlNorm rg w ref =>
    (normReference Q rg.size t ref).map fun v => ⟨fun _ => 0, segmentGradient rg (normGradient (normWeights rg.size w) (segmentOf rg cv) v)⟩
  | _, .linearMomentumNorm rg w ref =>
    (momentumReference Q (Dynamics.totalMass (m.links.map fun k => (m.inertia k).mass)) rg.size t ref).map fun v =>
      ⟨segmentGradient rg (normGradient (normWeights rg.size w) (segmentOf rg sv) v), fun _ => 0⟩
  | .frameOrientation, .frameOrientation frame reference weight => do
    let Rd ← setOr Q.rotation 1 reference t
    let w ← setOr Q.number 1 weight t
    some (costGradients r ((⟨R.server, R.frame frame, R.asQuaternion⟩ : Orientation m F).cost R.norm R.leftover w Rd) x u)
  | .forceMean f i, .forceMean => if h : i < n then some (costGradients r (forceMean (side f) ⟨i, h⟩) x u) else none
  | .forceRatio f i, .forceRatio ratio => if h : i < n then some (costGradients r (forceRatio (side f) ⟨i, h⟩ ratio) x u) else none
  | .staticTorques, .staticTorques leftFrame rightFrame leftPoints rightPoints weights =>
    let object : StaticTorques m F n :=
      { server := R.server
        gravity := ![0, 0, -R.gravity]
        frame := fun s => R.frame (match s with | .left => leftFrame | .right => rightFrame)
        point := fun s p => toVec ((match s with | .left => leftPoints | .right => rightPoints).getD p ⟨0, 0, 0⟩)
        asQuaternion := R.asQuaternion }
    some ⟨stateVectorOf r (object.stateGradient (fun j => weights.getD j 0) (object.after calls) x).gradient,
      controlVectorOf (n := n) r StaticTorques.controlGradient⟩
  | .swing f i, .swing height weights => if h : i < n then some (costGradients r (swing (side f) ⟨i, h⟩ height weights) x u) else none
  | .phantomForces f i, .phantomForces scaling =>
    if h : i < n then some (costGradients r (phantomForces (side f) ⟨i, h⟩ (activation scaling)) x u) else none
  | .meanPointPosition, .meanPointPosition reference weight => do
    let d ← setOr Q.position ⟨0, 0, 0⟩ reference t
    let w ← setOr Q.vector [1, 1, 1] weight t
    match w with
    | [a, b, c] => some (costGradients r (meanPointPosition d ⟨a, b, c⟩) x u)
    | _ => none
  | .footYaw f, .footYaw points reference =>
    match (corners points).bottomRight, (corners points).topRight, (corners points).topLeft with
    | some br, some tr, some tl =>
      if h : br < n ∧ tr < n ∧ tl < n then do
        let yaw ← setOr Q.number 0 reference t
        some (costGradients r (footYaw (side f) ⟨br, h.1⟩ ⟨tr, h.2.1⟩ ⟨tl, h.2.2⟩
          (initialYaw (points.getD tr ⟨0, 0, 0⟩) (points.getD br ⟨0, 0, 0⟩)) yaw) x u)
      else none
    | _, _, _ => none
  | .feetDistance, .feetDistance => some (costGradients r feetDistance x u)
  | .jointsVelocityForPostural, .jointsVelocityForPostural weights gains reference => do
    let d ← (match reference with | some r => Q.vector r t | none => none)
    if d.length = nj then
      some (costGradients r (jointsPostural nj (fun k => weights.getD k 0) (fun k => gains.getD k 0) (fun k => d.getD k 0)) x u)
    else none
  | .complementarity f i, .complementarity => if h : i < n then some (costGradients r (complementarityCost (side f) ⟨i, h⟩) x u) else none
  | .frameAngularVelocity, .frameAngularVelocity frame gain reference => do
    let Rd ← setOr Q.rotation 1 reference t
    some (costGradients r ((⟨R.server, R.frame frame, gain⟩ : AngularVelocity m F).cost R.rot R.norm R.held.velocities Rd) x u)
  | _, _ => none

open Classical in
/-- `OptimalControlProblem::costsFirstPartialDerivativeWRTState` and `...WRTControl` at a time. -/
def objectiveGradients (R : CostObjects m F) (Q : Readings T) (r : Ranges) (calls : List (StaticTorques.Call n nj)) (x : SVec n) (u : CVec n) (sv cv : List ℝ) (t : ℝ) :
    List (Term ℝ T) → Option Gradients
  | [] => some ⟨fun _ => 0, fun _ => 0⟩
  | term :: l =>
    if isActive term.range t then do
      let g ← gradBody R Q r calls x u sv cv t term.cost term.body
      let rest ← objectiveGradients R Q r calls x u sv cv t l
      some ⟨fun i => term.weight * g.state i + rest.state i, fun i => term.weight * g.control i + rest.control i⟩
    else objectiveGradients R Q r calls x u sv cv t l

/-- The value that the optimiser sees, of its two vectors. -/
def objectiveOn (R : CostObjects m F) (Q : Readings T) (r : Ranges) (n : ℕ) (terms : List (Term ℝ T)) (t : ℝ) (v w : List ℝ) : Option ℝ :=
  objective R Q (readState (n := n) r v) (readControl (n := n) r w) v w t terms

/-- The gradients that the optimiser sees, of its two vectors. -/
def gradientsOn (R : CostObjects m F) (Q : Readings T) (r : Ranges) (n : ℕ) (calls : List (StaticTorques.Call n nj)) (terms : List (Term ℝ T)) (t : ℝ) (v w : List ℝ) :
    Option Gradients :=
  objectiveGradients R Q r calls (readState (n := n) r v) (readControl (n := n) r w) v w t terms

end
end Verif.Plan
