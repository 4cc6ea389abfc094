import Verif.Model.PointConstraints
import Verif.Model.StaticForces
/-
Model of `src/private/StaticTorquesCost.cpp`.  The second derivatives are not implemented (the header declares none): the cost has none here.
Matrices with one row per joint are functions from the column to the vector of the joints.  Assertions hold.
-/
namespace Verif.NLP.Kin
open Matrix Verif.Rigid
open Verif.Quaternion (normalizedDerivative rotatedVectorJacobian inverse inverseDerivative leftTrivializedDerivative)
open Verif.NLP.Dynamics (quatOf)
noncomputable section
variable {n nj : ℕ} {L F : Type} [DecidableEq L] [DecidableEq F] {m : Model L (Fin nj)}

/-- What the constructor is given: for each foot the frame and the points in it; the gravity is `sharedKinDyn->gravity()`;
`asQuaternion` is the (external) method of `iDynTree::Rotation`. -/
structure StaticTorques (m : Model L (Fin nj)) (F : Type) (n : ℕ) where
  server : Server m F
  gravity : Vec
  frame : Side → F
  point : Side → Fin n → Vec
  asQuaternion : Matrix (Fin 3) (Fin 3) ℝ → Fin 4 → ℝ

namespace StaticTorques
variable (c : StaticTorques m F n)

/-- `foot.pointForces[p].getLinearVec3()`, StaticTorquesCost.cpp:144-150. -/
def pointForce (x : SVec n) (side : Side) (p : Fin n) : Vec := fun k => x (.force side p, (k : ℕ))

/-- `sharedKinDyn->getWorldTransform(robotState, foot.footFrame)`. -/
def footTransform (x : SVec n) (side : Side) : SE3 :=
  c.server.kin.world (baseTransform x) (jointsOf x) (c.server.frames.link (c.frame side)) * c.server.frames.offset (c.frame side)

/-- A transform with the given rotation and the origin in zero: `mixedToBodyTransform`. -/
def turn (T : SE3) : SE3 := ⟨T.R, 0, T.orthogonal, T.det⟩
/-- A transform without rotation: the elements of `tranformsInFoot`, StaticTorquesCost.cpp:175-178. -/
def shift (p : Vec) : SE3 := ⟨1, p, by simp, by simp⟩

/-- `foot.totalWrenchInFrame`, StaticTorquesCost.cpp:192-199. -/
def totalWrenchInFrame (x : SVec n) (side : Side) : Spatial :=
  (List.finRange n).foldl (fun w p => w + (shift (c.point side p)).actF ((turn (c.footTransform x side)⁻¹).actF (pointForce x side p, 0))) 0

/-- `contactWrenches` after `computeFootLinkWrench` on one foot, StaticTorquesCost.cpp:201. -/
def putWrench (x : SVec n) (side : Side) (W : L → Spatial) : L → Spatial :=
  Function.update W (c.server.frames.link (c.frame side)) ((c.server.frames.offset (c.frame side)).actF (c.totalWrenchInFrame x side))

/-- `contactWrenches` after `updateVariables`, StaticTorquesCost.cpp:58-64: the other links have the null wrench since the constructor. -/
def contactWrenches (x : SVec n) : L → Spatial := c.putWrench x .right (c.putWrench x .left fun _ => 0)

/-- `computeStaticTorques`, StaticTorquesCost.cpp:267-279. -/
def staticTorques (x : SVec n) (j : Fin nj) : ℝ :=
  c.server.kin.staticTorque (baseTransform x) (Traversal.baseAcc (baseTransform x) c.gravity) (c.contactWrenches x) (jointsOf x) j

/-- `costEvaluation`, StaticTorquesCost.cpp:281-291. -/
def value (w : Fin nj → ℝ) (x : SVec n) : ℝ := 0.5 * ∑ j, c.staticTorques x j * w j * c.staticTorques x j

/-- The column of a joint of `getFrameFreeFloatingJacobian(robotState, foot.footFrame, ..., BODY_FIXED_REPRESENTATION)` (external): the velocity
of the frame when that joint moves with unit velocity. -/
def frameJacobian (x : SVec n) (side : Side) (j : Fin nj) : Spatial :=
  c.server.kin.frameVel 0 (jointsOf x) (Pi.single j 1) (c.server.frames.link (c.frame side)) (c.server.frames.offset (c.frame side))

/-- The row of a joint, among the first three columns, of `getFreeFloatingMassMatrix(robotState, ..., BODY_FIXED_REPRESENTATION)` (external): the
inertial force on the joint for a unit linear acceleration of the base. -/
def massMatrix (x : SVec n) (j : Fin nj) (k : Fin 3) : ℝ :=
  (m.links.map fun l => power (c.server.kin.vel 0 (jointsOf x) (Pi.single j 1) l)
    ((m.inertia l).mul (c.server.kin.vel (unit3 k, 0) (jointsOf x) 0 l))).sum

/-- `pointToLeftJacMap` with `A` in the first rows and `skew(p) * A` in the others, times a vector. -/
def pointMap (A : Matrix (Fin 3) (Fin 3) ℝ) (p : Vec) (v : Vec) : Spatial := (A *ᵥ v, p ⨯₃ (A *ᵥ v))

/-- StaticTorquesCost.cpp:102-103: `quatDerMap`. -/
def quatDer (x : SVec n) (f : Vec) : Matrix (Fin 3) (Fin 4) ℝ :=
  rotatedVectorJacobian Real.sqrt f (inverse (quatN x)) * inverseDerivative * normalizedDerivative Real.sqrt (quatOf x)

/-- StaticTorquesCost.cpp:114-118: how the force seen from the foot changes with the joint. -/
def turnDer (x : SVec n) (side : Side) (f : Vec) (z : Fin nj) : Vec :=
  let f_T_a := (c.footTransform x side)⁻¹
  (rotatedVectorJacobian Real.sqrt f (c.asQuaternion f_T_a.R) * inverseDerivative * leftTrivializedDerivative (c.asQuaternion f_T_a⁻¹.R)) *ᵥ
    (c.frameJacobian x side z).2

/-- `computeFootRelatedJacobians`, StaticTorquesCost.cpp:73-120. -/
def footJacobian (x : SVec n) (side : Side) (J : Idx (SBlk n) → Fin nj → ℝ) : Idx (SBlk n) → Fin nj → ℝ :=
  let f_T_a := (c.footTransform x side)⁻¹
  let J := (List.finRange n).foldl (fun J p => putCols J (.force side p) 3 fun k j =>
    -power (c.frameJacobian x side j) (pointMap f_T_a.R (c.point side p) (unit3 k))) J
  let f_T_b := f_T_a * baseTransform x
  let J := (List.finRange n).foldl (fun J p => addCols J .baseQuat 4 fun k j =>
    -power (c.frameJacobian x side j) (pointMap f_T_b.R (c.point side p) fun i => quatDer x (pointForce x side p) i k)) J
  (List.finRange n).foldl (fun J p => addCols J .joints nj fun z j =>
    -power (c.frameJacobian x side j) (pointMap 1 (c.point side p) (c.turnDer x side (pointForce x side p) z))) J

/-- `computeStaticTorquesJacobian`, StaticTorquesCost.cpp:293-323: `fullJacobianBuffer` after the call, from the one before. -/
def torquesJacobian (J : Idx (SBlk n) → Fin nj → ℝ) (x : SVec n) : Idx (SBlk n) → Fin nj → ℝ :=
  let J := putCols J .joints nj fun z j =>
    c.server.kin.staticTorquesDerivative (baseTransform x) (Traversal.baseAcc (baseTransform x) c.gravity) (c.contactWrenches x) (jointsOf x) j z
  let J := putCols J .baseQuat 4 fun k j => -∑ i, c.massMatrix x j i * quatDer x c.gravity i k
  c.footJacobian x .right (c.footJacobian x .left J)

/-- The buffers of the object. -/
structure Buffers (n nj : ℕ) where
  jacobian : Idx (SBlk n) → Fin nj → ℝ
  gradient : Idx (SBlk n) → ℝ

/-- The buffers after the constructor, StaticTorquesCost.cpp:241-250. -/
def Buffers.initial : Buffers n nj := ⟨fun _ _ => 0, fun _ => 0⟩

/-- The torques by the weights by a column of the Jacobian. -/
def weightedColumn (w : Fin nj → ℝ) (τ : Fin nj → ℝ) (column : Fin nj → ℝ) : ℝ := ∑ j, τ j * w j * column j

/-- `costFirstPartialDerivativeWRTState`, StaticTorquesCost.cpp:325-358: the buffers after the call; the answer is `gradient`. -/
def stateGradient (w : Fin nj → ℝ) (B : Buffers n nj) (x : SVec n) : Buffers n nj :=
  let τ := c.staticTorques x
  let J := c.torquesJacobian B.jacobian x
  let g := putCols B.gradient .joints nj fun z => weightedColumn w τ (J (.joints, (z : ℕ)))
  let g := putCols g .baseQuat 4 fun k => weightedColumn w τ (J (.baseQuat, (k : ℕ)))
  let g := (List.finRange n).foldl (fun g p => putCols g (.force .left p) 3 fun k => weightedColumn w τ (J (.force .left p, (k : ℕ)))) g
  let g := (List.finRange n).foldl (fun g p => putCols g (.force .right p) 3 fun k => weightedColumn w τ (J (.force .right p, (k : ℕ)))) g
  ⟨J, g⟩

/-- `costFirstPartialDerivativeWRTControl`, StaticTorquesCost.cpp:360-364: a buffer of zeros. -/
def controlGradient : Idx (CBlk n) → ℝ := fun _ => 0

/-- The calls of the object that compute derivatives. -/
inductive Call (n nj : ℕ)
  | jacobian (x : SVec n)
  | gradient (w : Fin nj → ℝ) (x : SVec n)

/-- The buffers after a call. -/
def step (B : Buffers n nj) : Call n nj → Buffers n nj
  | .jacobian x => ⟨c.torquesJacobian B.jacobian x, B.gradient⟩
  | .gradient w x => c.stateGradient w B x

/-- The buffers after a sequence of calls. -/
def after (calls : List (Call n nj)) : Buffers n nj := calls.foldl c.step Buffers.initial

/-- `setWeights`, StaticTorquesCost.cpp:257-265: the weights and the answer. -/
def setWeights (old new : List ℝ) : List ℝ × Bool := if new.length ≠ old.length then (old, false) else (new, true)

end StaticTorques
end
end Verif.NLP.Kin
