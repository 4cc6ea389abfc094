import Verif.Model.State
/- Layout of the optimisation vector: what its elements mean, in order.  No offsets. -/
namespace Verif.SolverM.Spec
open StateM
variable {K : Type}

/-- One contact point of the state. -/
def pointState (p : PointState K) : List K := [p.force.x, p.force.y, p.force.z, p.position.x, p.position.y, p.position.z]

/-- One contact point of the control. -/
def pointControl (p : PointControl K) : List K :=
  [p.velocityControl.x, p.velocityControl.y, p.velocityControl.z, p.forceControl.x, p.forceControl.y, p.forceControl.z]

/-- A state whose base rotation is described by the quaternion `q`. -/
def stateVector (s : State K) (q : V4 K) : List K :=
  s.left.flatMap pointState ++ s.right.flatMap pointState ++
  [s.linearMomentum.x, s.linearMomentum.y, s.linearMomentum.z, s.angularMomentum.x, s.angularMomentum.y, s.angularMomentum.z] ++
  [s.com.x, s.com.y, s.com.z] ++ [s.base.pos.x, s.base.pos.y, s.base.pos.z] ++ [q.w, q.x, q.y, q.z] ++ s.joints

/-- A control. -/
def controlVector (s : Control K) : List K :=
  s.left.flatMap pointControl ++ s.right.flatMap pointControl ++
  [s.baseLinearVelocity.x, s.baseLinearVelocity.y, s.baseLinearVelocity.z] ++
  [s.baseQuaternionDerivative.w, s.baseQuaternionDerivative.x, s.baseQuaternionDerivative.y, s.baseQuaternionDerivative.z] ++ s.jointsVelocity

/-- The state has `n` points per foot and `d` joints. -/
structure StateSize (d n : Nat) (s : State K) : Prop where
  left : s.left.length = n
  right : s.right.length = n
  joints : s.joints.length = d

/-- The control has `n` points per foot and `d` joints. -/
structure ControlSize (d n : Nat) (s : Control K) : Prop where
  left : s.left.length = n
  right : s.right.length = n
  joints : s.jointsVelocity.length = d

end Verif.SolverM.Spec
