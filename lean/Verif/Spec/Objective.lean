import Verif.Model.Objective
import Verif.Spec.Plan
import Mathlib.LinearAlgebra.Matrix.Trace
/-
What each cost measures, in terms of the fields of `State`, `Control` and of the settings: no vectors of the optimiser, no cost objects.  The table of
the costs that the settings ask for is `asked` (Spec/Problem.lean).
-/
namespace Verif.Plan.Spec
open NLP NLP.Kin SolverM StateM Rigid Matrix
open SolverM.Spec (Aim asked Asked)
noncomputable section
variable {nj : ℕ} {L F : Type} [DecidableEq L] [DecidableEq F] {m : Model L (Fin nj)} {T : Type}

/-- Half of the weighted squared distance. -/
def halfDistance (w x r : List ℝ) : ℝ := (List.zipWith (fun a b => 1 / 2 * a * (b.1 - b.2) ^ 2) w (List.zip x r)).sum
/-- The weights: ones if they are not given. -/
def weights (x : List ℝ) (w : Option (List ℝ)) : List ℝ := w.getD (x.map fun _ => 1)
/-- The reference at a time: zeros if it is not given; it must have the size of what is compared with it. -/
def reference (Q : Readings T) (x : List ℝ) (t : ℝ) (ref : Option T) : Option (List ℝ) :=
  match ref with
  | none => some (x.map fun _ => 0)
  | some r => (Q.vector r t).filter fun v => v.length = x.length

/-- The mean of some vectors. -/
def mean (l : List Vec) : Vec := (l.length : ℝ)⁻¹ • l.sum
/-- Half of the squared norm with three weights. -/
def halfSquare (w e : Vec) : ℝ := (w 0 * e 0 ^ 2 + w 1 * e 1 ^ 2 + w 2 * e 2 ^ 2) / 2

/-- The energy of the weight minus the work of the contact forces (fixed in the world), when the joints are at `θ`: the points of the feet are
`left` and `right`, in the frames of the feet. -/
def restEnergy (R : CostObjects m F) (s : State ℝ) (q : V4 ℝ) (leftFrame rightFrame : String) (left right : List (V3 ℝ)) (θ : Fin nj → ℝ) : ℝ :=
  let place (frame : String) (b : V3 ℝ) : Vec :=
    (R.server.kin.world (pose s q) θ (R.server.frames.link (R.frame frame)) * R.server.frames.offset (R.frame frame)).point (toVec b)
  (m.links.map fun l => R.gravity * (m.inertia l).mass * (R.server.kin.world (pose s q) θ l).point (m.inertia l).com 2).sum -
    (List.zipWith (fun b p => toVec p.force ⬝ᵥ place leftFrame b) left s.left).sum -
    (List.zipWith (fun b p => toVec p.force ⬝ᵥ place rightFrame b) right s.right).sum

/-- The torques that hold the robot at rest under its weight and the contact forces: the derivatives of the energy. -/
def restTorque (R : CostObjects m F) (s : State ℝ) (q : V4 ℝ) (leftFrame rightFrame : String) (left right : List (V3 ℝ)) (j : Fin nj) : ℝ :=
  deriv (fun a => restEnergy R s q leftFrame rightFrame left right (Function.update (joints s) j a)) (joints s j)

/-- The angular velocity of a frame that the frame angular velocity cost uses (C70): the base moves with the velocities held by the shared
computations, the angular one written with the expression of the server (C49), not with the ones of the control. -/
def usedVelocity (R : CostObjects m F) (s : State ℝ) (q : V4 ℝ) (frame : String) : Vec :=
  let e := Quaternion.normalized Real.sqrt (quat q)
  let v : Vec := ![e 1, e 2, e 3]
  let w : Vec := ![R.held.quaternion 1, R.held.quaternion 2, R.held.quaternion 3]
  let angular : Vec := (2 : ℝ) • ((e 0) • w - (R.held.quaternion 0) • v + v ⨯₃ w)
  (R.server.kin.frameVel (R.held.linear, angular) (joints s) R.held.joints (R.server.frames.link (R.frame frame)) (R.server.frames.offset (R.frame frame))).2

/-- The orientation error: the vector of the skew symmetric part. -/
def orientationError (A Rd : Matrix (Fin 3) (Fin 3) ℝ) : Vec :=
  let E := A * Rdᵀ
  ![(E 2 1 - E 1 2) / 2, (E 0 2 - E 2 0) / 2, (E 1 0 - E 0 1) / 2]

/-- The value of a cost with a class of its own; `none` when a reference is not valid. -/
def dedicated (R : CostObjects m F) (Q : Readings T) (t : ℝ) (s : State ℝ) (q : V4 ℝ) (c : Control ℝ) : SolverM.Cost → Body ℝ T → Option ℝ
  | .frameOrientation, .frameOrientation frame ref weight => do
    let Rd ← ((ref.map Q.rotation).getD fun _ => some 1) t
    let w ← ((weight.map Q.number).getD fun _ => some 1) t
    -- one minus the cosine of half of the angle between the two rotations
    some (w * (1 - Real.sqrt (1 + Matrix.trace (Rdᵀ * (framePose R.toObjects s q frame).R)) / 2))
  | .forceMean foot i, .forceMean => do
    let p ← (points s foot)[i]?
    let d := toVec p.force - mean ((points s foot).map fun p => toVec p.force)
    some (halfSquare ![1, 1, 0] d)
  | .forceRatio foot i, .forceRatio ratio => do
    let p ← (points s foot)[i]?
    some ((p.force.z - ratio * ((points s foot).map fun p => p.force.z).sum) ^ 2 / 2)
  | .staticTorques, .staticTorques leftFrame rightFrame left right weights =>
    some (1 / 2 * ∑ j : Fin nj, weights.getD j 0 * restTorque R s q leftFrame rightFrame left right j ^ 2)
  | .swing foot i, .swing height weights => do
    let p ← (points s foot)[i]?
    let v ← (inputs c foot)[i]?
    some (halfSquare (toVec weights) ((p.position.z - height) • toVec v.velocityControl))
  | .phantomForces foot i, .phantomForces scaling => do
    let p ← (points s foot)[i]?
    some (((1 - 1 / Real.cosh (scaling * p.position.z)) * p.force.z) ^ 2 / 2)
  | .meanPointPosition, .meanPointPosition ref weight => do
    let d ← ((ref.map Q.position).getD fun _ => some ⟨0, 0, 0⟩) t
    let w ← ((weight.map Q.vector).getD fun _ => some [1, 1, 1]) t
    let w ← (match w with | [a, b, c] => some ![a, b, c] | _ => none)
    some (halfSquare w (mean ((s.left ++ s.right).map fun p => toVec p.position) - toVec d))
  | .footYaw foot, .footYaw corner ref => do
    let br ← (corners corner).bottomRight
    let tr ← (corners corner).topRight
    let tl ← (corners corner).topLeft
    let b ← (points s foot)[br]?
    let a ← (points s foot)[tr]?
    let l ← (points s foot)[tl]?
    let yaw ← ((ref.map Q.number).getD fun _ => some 0) t
    let turn := yaw - initialYaw (corner.getD tr ⟨0, 0, 0⟩) (corner.getD br ⟨0, 0, 0⟩)
    -- the side is compared with the direction `turn`, the front with the orthogonal one
    some ((((a.position.y - b.position.y) * Real.cos turn - (a.position.x - b.position.x) * Real.sin turn) ^ 2 +
      ((l.position.x - a.position.x) * Real.cos turn + (l.position.y - a.position.y) * Real.sin turn) ^ 2) / 2)
  | .feetDistance, .feetDistance =>
    some (halfSquare ![1, 1, 1] (mean (s.left.map fun p => toVec p.position) - mean (s.right.map fun p => toVec p.position)))
  | .jointsVelocityForPostural, .jointsVelocityForPostural weights gains ref => do
    let r ← ref
    let d ← Q.vector r t
    if d.length = nj then
      some (∑ j : Fin nj, (weights.getD j 0 * (jointVelocities c j + gains.getD j 0 * (joints s j - d.getD j 0))) ^ 2 / 2)
    else none
  | .complementarity foot i, .complementarity => do
    let p ← (points s foot)[i]?
    let v ← (inputs c foot)[i]?
    some ((v.velocityControl.z * p.force.z) ^ 2 / 2)
  | .frameAngularVelocity, .frameAngularVelocity frame gain ref => do
    let Rd ← ((ref.map Q.rotation).getD fun _ => some 1) t
    some (halfSquare ![1, 1, 1] (usedVelocity R s q frame + gain • orientationError (framePose R.toObjects s q frame).R Rd))
  | _, _ => none

/-- The value of a cost of the table. -/
def aimValue (R : CostObjects m F) (Q : Readings T) (t : ℝ) (s : State ℝ) (q : V4 ℝ) (c : Control ℝ) : SolverM.Cost → Aim ℝ T → Option ℝ
  | _, .state quantity w ref => (reference Q (quantity s q) t ref).map fun r => halfDistance (weights (quantity s q) w) (quantity s q) r
  | _, .control quantity w ref => (reference Q (quantity c) t ref).map fun r => halfDistance (weights (quantity c) w) (quantity c) r
  | _, .linearMomentum w ref =>
    let p := SolverM.Spec.three s.linearMomentum
    -- the momentum of the velocity reference
    (reference Q p t ref).map fun v => halfDistance (weights p w) p (v.map fun x => mass m * x)
  | k, .dedicated body => dedicated R Q t s q c k body

/-- The settings, with the weight that the force ratio costs have in the problem (C53). -/
def ratioWeighted (st : ProblemSettings ℝ T) : ProblemSettings ℝ T := { st with forceRatioCostOverallWeight := st.forceMeanCostOverallWeight }

/-- The cost is asked by the settings, with `a`, at the time `t`: it has no range of times, or `t` is in it, ends included. -/
def ActiveAt (st : ProblemSettings ℝ T) (t : ℝ) (k : SolverM.Cost) (a : Asked ℝ T) : Prop :=
  asked (ratioWeighted st) k = some a ∧ ∀ r, a.range = some r → r.initTime ≤ t ∧ t ≤ r.endTime

end
end Verif.Plan.Spec
