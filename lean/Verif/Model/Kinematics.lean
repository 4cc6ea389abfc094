import Verif.Model.Rigid
import Mathlib.Algebra.BigOperators.Group.List.Basic
/-
Kinematic trees and the derivatives computed on them by src/private/SharedKinDynComputations.cpp.  The model of the robot, its traversals,
the forward kinematics and the static inverse dynamics are iDynTree (external): they are described here by their equations.
Simplifications: links and joints are elements of the types `L` and `J`; every joint has one degree of freedom (asserted at
SharedKinDynComputations.cpp:99); `double` is the real numbers.
-/
namespace Verif.Rigid
variable {L J : Type} [DecidableEq L] [DecidableEq J]

/-- `iDynTree::Model`: for each joint the two links it connects, the transform `first_H_second` as a function of the position of the
joint, and the direction `S` of the motion of `second` with respect to `first`, expressed in `second`; the inertia of each link. -/
structure Model (L J : Type) where
  links : List L
  nodup : links.Nodup
  complete : ∀ l, l ∈ links
  first : J → L
  second : J → L
  T : J → ℝ → SE3
  S : J → Spatial
  inertia : L → Inertia

/-- `iDynTree::Traversal` of the whole tree: `parent l` and `joint l` are `getParentLinkFromLinkIndex`, `getParentJointFromLinkIndex`
(meaningless on the root), `child j` is `getChildLinkIndexFromJointIndex`; `order` is the order of visit. -/
structure Traversal (m : Model L J) where
  root : L
  parent : L → L
  joint : L → J
  child : J → L
  order : List L
  depth : L → ℕ
  depth_lt : ∀ l, l ≠ root → depth (parent l) < depth l
  connects : ∀ l, l ≠ root →
    (m.first (joint l) = parent l ∧ m.second (joint l) = l) ∨ (m.second (joint l) = parent l ∧ m.first (joint l) = l)
  child_joint : ∀ l, l ≠ root → child (joint l) = l
  child_ne : ∀ j, child j ≠ root
  joint_child : ∀ j, joint (child j) = j
  order_nodup : order.Nodup
  order_complete : ∀ l, l ∈ order
  order_head : order.head? = some root
  order_parent : ∀ a l b, order = a ++ l :: b → l ≠ root → parent l ∈ a

namespace Traversal
variable {m : Model L J} (t : Traversal m)

/-- `IJoint::getTransform(q, parent, child)`, for the joint above `l`. -/
noncomputable def jointTransform (q : J → ℝ) (l : L) : SE3 :=
  if m.second (t.joint l) = l then m.T (t.joint l) (q (t.joint l)) else (m.T (t.joint l) (q (t.joint l)))⁻¹

/-- `IJoint::getMotionSubspaceVector(0, child, parent)`, for the joint above `l`: for a joint travelled backwards, the opposite direction
seen from the other link (it does not depend on the position of the joint). -/
noncomputable def subspace (l : L) : Spatial :=
  if m.second (t.joint l) = l then m.S (t.joint l) else -(m.T (t.joint l) 0).act (m.S (t.joint l))

/-- The links visited by the loops `while (visitedLink != baseIndex)` starting from `l`. -/
def up (l : L) : List L := if h : l = t.root then [] else l :: up (t.parent l)
termination_by t.depth l
decreasing_by exact t.depth_lt l h

/-- `KinDynComputations::getWorldTransform(l)`: `H` is the transform of the floating base, the root of the traversal. -/
noncomputable def world (H : SE3) (q : J → ℝ) (l : L) : SE3 :=
  if h : l = t.root then H else world H q (t.parent l) * t.jointTransform q l
termination_by t.depth l
decreasing_by exact t.depth_lt l h

/-- `KinDynComputations::getRelativeTransform(a, b)`. -/
noncomputable def rel (H : SE3) (q : J → ℝ) (a b : L) : SE3 := (t.world H q a)⁻¹ * t.world H q b

/-- `KinDynComputations::getFrameVel(l)` in body fixed representation: `v` is the velocity of the base, `dq` the velocities of the joints. -/
noncomputable def vel (v : Spatial) (q dq : J → ℝ) (l : L) : Spatial :=
  if h : l = t.root then v else (t.jointTransform q l)⁻¹.act (vel v q dq (t.parent l)) + dq (t.joint l) • t.subspace l
termination_by t.depth l
decreasing_by exact t.depth_lt l h

/-- `KinDynComputations::getFrameVel(frame)`, for the frame attached to `l` at `offset`. -/
noncomputable def frameVel (v : Spatial) (q dq : J → ℝ) (l : L) (offset : SE3) : Spatial := offset⁻¹.act (t.vel v q dq l)

/-- `KinDynComputations::getLinearAngularMomentum()` in body fixed representation: the momentum of all the links, in the base. -/
noncomputable def momentum (H : SE3) (v : Spatial) (q dq : J → ℝ) : Spatial :=
  (m.links.map fun l => (t.rel H q t.root l).actF ((m.inertia l).mul (t.vel v q dq l))).sum

/-- SharedKinDynComputations.cpp:497-542 (`getFrameVelJointsDerivative`), from the resize to the end: the column of each joint. -/
noncomputable def frameVelJointsDerivative (H : SE3) (v : Spatial) (q dq : J → ℝ) (l : L) (offset : SE3) : J → Spatial :=
  (t.up l).foldl (fun D visited =>
    let j := t.joint visited
    let c := t.child j
    Function.update D j ((offset⁻¹ * t.rel H q l c).act (crossM (t.subspace c) (-t.vel v q dq c)))) (fun _ => 0)

/-- SharedKinDynComputations.cpp:108-125 (`updateChildBuffersForMomentumDerivative`): `motionVectorTimesChildVelocity`. -/
noncomputable def motionVectorTimesChildVelocity (v : Spatial) (q dq : J → ℝ) (j : J) : Spatial :=
  crossM (t.subspace (t.child j)) (-t.vel v q dq (t.child j))

/-- SharedKinDynComputations.cpp:612-627: the derivative of the momentum of `l` with respect to the joint `j` above it. -/
noncomputable def linkMomentumDerivative (H : SE3) (v : Spatial) (q dq : J → ℝ) (l : L) (j : J) : Spatial :=
  let linkMomentum := (m.inertia l).mul (t.vel v q dq l)
  let c := t.child j
  let linkMomentumInChildFrame := (t.rel H q c l).actF linkMomentum
  let transformDerivative := (t.rel H q t.root c).actF (crossF (t.subspace c) linkMomentumInChildFrame)
  let velocityDerivative := (t.rel H q t.root l).actF ((m.inertia l).mul ((t.rel H q l c).act (t.motionVectorTimesChildVelocity v q dq j)))
  transformDerivative + velocityDerivative

/-- SharedKinDynComputations.cpp:568-636 (`getLinearAngularMomentumJointsDerivative`): the column of each joint. -/
noncomputable def momentumJointsDerivative (H : SE3) (v : Spatial) (q dq : J → ℝ) : J → Spatial :=
  m.links.foldl (fun D l =>
    (t.up l).foldl (fun D visited =>
      let j := t.joint visited
      Function.update D j (D j + t.linkMomentumDerivative H v q dq l j)) D) (fun _ => 0)

end Traversal
end Verif.Rigid
