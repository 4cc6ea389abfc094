import Verif.Model.Plan
import Verif.Model.Costs
import Verif.Model.FrameVelocityCost
/-
The objective handed to the optimiser, put together: the costs that `setCosts` (src/Solver.cpp:384-878) creates are the objects of Model/Costs.lean,
Model/StaticTorquesCost.lean, Model/FrameOrientationCost.lean and Model/FrameVelocityCost.lean with the parameters they are given, evaluated on the
vectors of the optimiser.

External, and modelled here: `iDynTree::optimalcontrol::L2NormCost` (a quadratic function of a segment, with or without its constant part) and
`OptimalControlProblem::costsEvaluation` (the weighted sum of the Lagrange terms whose range contains the time).  A failed assertion and a method
that returns `false` are `none`.
-/
namespace Verif.Plan
open NLP NLP.Kin SolverM Rigid
open Labeller (Range)
noncomputable section
variable {n nj : ℕ} {L F : Type} [DecidableEq L] [DecidableEq F] {m : Model L (Fin nj)} {T : Type}

/-- What the time-varying objects of the settings answer: `none` if the answer is not valid.  The same object has one of these types. -/
structure Readings (T : Type) where
  vector : T → TimeVarying (List ℝ)
  position : T → TimeVarying (V3 ℝ)
  rotation : T → TimeVarying (Matrix (Fin 3) (Fin 3) ℝ)
  number : T → TimeVarying ℝ

/-- The velocities that the shared computations hold: `FrameAngularVelocityCost` does not replace them (FrameAngularVelocityCost.cpp:46-61). -/
structure Held (nj : ℕ) where
  linear : Vec
  quaternion : Fin 4 → ℝ
  joints : Fin nj → ℝ

/-- The same, by label. -/
def Held.velocities (h : Held nj) : Velocities n := fun p =>
  match p.1 with
  | .baseVel => if l : p.2 < 3 then h.linear ⟨p.2, l⟩ else 0
  | .quatDer => if l : p.2 < 4 then h.quaternion ⟨p.2, l⟩ else 0
  | .jointVel => if l : p.2 < nj then h.joints ⟨p.2, l⟩ else 0
  | _ => 0

/-- What the costs share, besides what they share with the constraints: `Rotation::asQuaternion`, the acceleration of gravity, the velocities held,
whether `L2NormCost` adds its constant part. -/
structure CostObjects (m : Model L (Fin nj)) (F : Type) extends Objects m F where
  asQuaternion : Matrix (Fin 3) (Fin 3) ℝ → Fin 4 → ℝ
  gravity : ℝ
  held : Held nj
  constantPart : Bool

/-- `L2NormCost` on a segment: `0.5 x'Wx - r'Wx`, and `0.5 r'Wr` if it is added. -/
def normValue (constantPart : Bool) (w x r : List ℝ) : ℝ :=
  let each (f : ℝ → ℝ → ℝ → ℝ) : ℝ := (List.zipWith (fun a b => f a b.1 b.2) w (List.zip x r)).sum
  (1 / 2 * each fun a x _ => a * x * x) - (each fun a x r => a * x * r) + if constantPart then 1 / 2 * each fun a _ r => a * r * r else 0

/-- The weights of `L2NormCost`: the identity if they are not set. -/
def normWeights (size : ℕ) : Option (List ℝ) → List ℝ
  | some w => w
  | none => List.replicate size 1

/-- The reference of `L2NormCost`: zero if it is not set; a vector of another size is an error. -/
def normReference (Q : Readings T) (size : ℕ) (t : ℝ) : Option T → Option (List ℝ)
  | none => some (List.replicate size 0)
  | some r => do
    let v ← Q.vector r t
    if v.length = size then some v else none

/-- The reference of `CoMVelocityCost`, CoMVelocityCost.cpp:37-58, 92-96. -/
def momentumReference (Q : Readings T) (totalMass : ℝ) (size : ℕ) (t : ℝ) : Option T → Option (List ℝ)
  | none => some (List.replicate size 0)
  | some r =>
    let answer := linearMomentumReference totalMass (((Q.vector r t).getD []), (Q.vector r t).isSome)
    if answer.2 then some answer.1 else none

/-- What the object that was set answers, or the value that the constructor puts: FrameOrientationCost.cpp:122-123, FrameAngularVelocityCost.cpp:134,
MeanPointPositionCost.cpp:39, 54-56, FootYawCost.cpp:39. -/
def setOr {α : Type} (answers : T → TimeVarying α) (initial : α) (object : Option T) : TimeVarying α :=
  match object with
  | some r => answers r
  | none => fun _ => some initial

/-- The elements of a range of a vector. -/
def segmentOf (r : Range) (v : List ℝ) : List ℝ := (v.drop r.offset).take r.size

/-- `costEvaluation` of the cost object: `x`, `u` are the vectors `sv`, `cv` read by label. -/
def evalBody (R : CostObjects m F) (Q : Readings T) (x : SVec n) (u : CVec n) (sv cv : List ℝ) (t : ℝ) : SolverM.Cost → Body ℝ T → Option ℝ
  | _, .stateNorm rg w ref =>
    (normReference Q rg.size t ref).map fun r => normValue R.constantPart (normWeights rg.size w) (segmentOf rg sv) r
  | _, .controlNorm rg w ref =>
    (normReference Q rg.size t ref).map fun r => normValue R.constantPart (normWeights rg.size w) (segmentOf rg cv) r
  | _, .linearMomentumNorm rg w ref =>
    (momentumReference Q (Dynamics.totalMass (m.links.map fun k => (m.inertia k).mass)) rg.size t ref).map fun r =>
      normValue R.constantPart (normWeights rg.size w) (segmentOf rg sv) r
  | .frameOrientation, .frameOrientation frame reference weight => do
    let Rd ← setOr Q.rotation 1 reference t
    let w ← setOr Q.number 1 weight t
    some ((⟨R.server, R.frame frame, R.asQuaternion⟩ : Orientation m F).value w Rd x)
  | .forceMean f i, .forceMean => if h : i < n then some ((forceMean (side f) ⟨i, h⟩).value x u) else none
  | .forceRatio f i, .forceRatio ratio => if h : i < n then some ((forceRatio (side f) ⟨i, h⟩ ratio).value x u) else none
  | .staticTorques, .staticTorques leftFrame rightFrame leftPoints rightPoints weights =>
    let object : StaticTorques m F n :=
      { server := R.server
        gravity := ![0, 0, -R.gravity]
        frame := fun s => R.frame (match s with | .left => leftFrame | .right => rightFrame)
        point := fun s p => toVec ((match s with | .left => leftPoints | .right => rightPoints).getD p ⟨0, 0, 0⟩)
        asQuaternion := R.asQuaternion }
    some (object.value (fun j => weights.getD j 0) x)
  | .swing f i, .swing height weights => if h : i < n then some ((swing (side f) ⟨i, h⟩ height weights).value x u) else none
  | .phantomForces f i, .phantomForces scaling => if h : i < n then some ((phantomForces (side f) ⟨i, h⟩ (activation scaling)).value x u) else none
  | .meanPointPosition, .meanPointPosition reference weight => do
    let d ← setOr Q.position ⟨0, 0, 0⟩ reference t
    let w ← setOr Q.vector [1, 1, 1] weight t
    match w with
    | [a, b, c] => some ((meanPointPosition d ⟨a, b, c⟩).value x u)
    | _ => none
  | .footYaw f, .footYaw points reference =>
    match (corners points).bottomRight, (corners points).topRight, (corners points).topLeft with
    | some br, some tr, some tl =>
      if h : br < n ∧ tr < n ∧ tl < n then do
        let yaw ← setOr Q.number 0 reference t
        some ((footYaw (side f) ⟨br, h.1⟩ ⟨tr, h.2.1⟩ ⟨tl, h.2.2⟩ (initialYaw (points.getD tr ⟨0, 0, 0⟩) (points.getD br ⟨0, 0, 0⟩)) yaw).value x u)
      else none
    | _, _, _ => none
  | .feetDistance, .feetDistance => some (feetDistance.value x u)
  | .jointsVelocityForPostural, .jointsVelocityForPostural weights gains reference => do
    let d ← (match reference with | some r => Q.vector r t | none => none)
    if d.length = nj then
      some ((jointsPostural nj (fun k => weights.getD k 0) (fun k => gains.getD k 0) (fun k => d.getD k 0)).value x u)
    else none
  | .complementarity f i, .complementarity => if h : i < n then some ((complementarityCost (side f) ⟨i, h⟩).value x u) else none
  | .frameAngularVelocity, .frameAngularVelocity frame gain reference => do
    let Rd ← setOr Q.rotation 1 reference t
    some (((⟨R.server, R.frame frame, gain⟩ : AngularVelocity m F).cost R.rot R.norm R.held.velocities Rd).value x u)
  | _, _ => none

/-- `TimeRange::isInRange`; `addLagrangeTerm` without a range is for every time. -/
def isActive (range : Option (Reference.TimeRange ℝ)) (t : ℝ) : Prop :=
  match range with
  | none => True
  | some r => r.initTime ≤ t ∧ t ≤ r.endTime

open Classical in
/-- `OptimalControlProblem::costsEvaluation` at a time: the terms in range, each times its weight. -/
def objective (R : CostObjects m F) (Q : Readings T) (x : SVec n) (u : CVec n) (sv cv : List ℝ) (t : ℝ) : List (Term ℝ T) → Option ℝ
  | [] => some 0
  | term :: l =>
    if isActive term.range t then do
      let v ← evalBody R Q x u sv cv t term.cost term.body
      let rest ← objective R Q x u sv cv t l
      some (term.weight * v + rest)
    else objective R Q x u sv cv t l

/-- The value that the optimiser sees for a state and a control, given as vectors. -/
def objectiveAt (R : CostObjects m F) (Q : Readings T) (r : Ranges) (n : ℕ) (terms : List (Term ℝ T)) (t : ℝ) (s : StateM.State ℝ) (q : StateM.V4 ℝ)
    (c : StateM.Control ℝ) : Option ℝ :=
  objective R Q (readState (n := n) r (SolverM.Spec.stateVector s q)) (readControl (n := n) r (SolverM.Spec.controlVector c))
    (SolverM.Spec.stateVector s q) (SolverM.Spec.controlVector c) t terms

end
end Verif.Plan
