import Verif.Model.TreeExpr
import Mathlib.Algebra.BigOperators.Group.Finset.Basic
/-
The expressions of the Jacobians and of the velocities, src/private/RelativeJacobianExpression.cpp, RelativeVelocityExpression.cpp,
AbsoluteVelocityExpression.cpp and src/private/ExpressionsServer.cpp.  The memoization of the server is left out; the base twist is an
independent variable.
-/
namespace Verif.Rigid
variable {L J F : Type} [DecidableEq L] [DecidableEq J] [DecidableEq F]

/-- The values the expressions are evaluated with: the velocity of the base in the state given to `KinDynComputations`, the variable
`baseTwist`, the positions and the velocities of the joints. -/
structure KState (J : Type) where
  stateVel : Spatial
  twist : Spatial
  q : J → ℝ
  dq : J → ℝ

/-- Something to differentiate with respect to: the position or the velocity of a joint, the base twist in a direction. -/
inductive KVar (J : Type)
  | position (j : J)
  | velocity (j : J)
  | twist (e : Spatial)

/-- The expressions of spatial vectors. -/
inductive VExp (J F : Type)
  | zero
  | const (x : Spatial)
  | twist
  | comb (X : J → VExp J F)
  | relVel (a b : F)
  | absVel (b : F)
  | app (A : Op F) (X : VExp J F)
  | add (X Y : VExp J F)
  | sub (X Y : VExp J F)
  | neg (X : VExp J F)

namespace Server
variable {m : Model L J} (s : Server m F)

/-- The frame of the floating base. -/
abbrev baseFrame : F := s.frames.ofLink s.base

/-- RelativeJacobianExpression.cpp:39-77 and ExpressionsServer.cpp:437-441: for each joint the matrix and the vector whose product is the
column of the Jacobian. -/
noncomputable def jacobian (a b : F) : J → Op F × Spatial :=
  if a = b then fun _ => (.zero, 0)
  else
    let t := s.tree (s.frames.link a)
    (t.up (s.frames.link b)).foldl (fun D visited =>
      let j := t.joint visited
      let c := t.child j
      Function.update D j (.adj b (s.frames.ofLink c), t.subspace c)) (fun _ => (.zero, 0))

/-- The column of a joint. -/
noncomputable def jacobianColumn (a b : F) (j : J) : VExp J F := .app (s.jacobian a b j).1 (.const (s.jacobian a b j).2)

/-- The velocity of a frame, `getFrameVel(state, frame, BODY_FIXED)`. -/
noncomputable def stateFrameVel (st : KState J) (b : F) : Spatial := s.kin.frameVel st.stateVel st.q st.dq (s.frames.link b) (s.frames.offset b)

/-- RelativeVelocityExpression.cpp:59-68 and ExpressionsServer.cpp:456-460. -/
noncomputable def relativeVelocity (st : KState J) (a b : F) : Spatial :=
  if a = b then 0 else s.stateFrameVel st b - (s.transform st.q b a).act (s.stateFrameVel st a)

/-- AbsoluteVelocityExpression.cpp:132-161 and ExpressionsServer.cpp:503-508: for each joint the column of the derivative. -/
noncomputable def absoluteVelocityJointsDerivative (b : F) : J → VExp J F :=
  if b = s.baseFrame then fun _ => .zero
  else
    (s.kin.up (s.frames.link b)).foldl (fun D visited =>
      Function.update D (s.kin.joint visited)
        (.app (.mul (.adj b (s.frames.ofLink visited)) (.neg (.const (crossM (s.kin.subspace visited))))) (.absVel (s.frames.ofLink visited)))) (fun _ => .zero)

variable [Fintype J]

/-- The evaluation: AbsoluteVelocityExpression.cpp:45-46, 56-61 and ExpressionsServer.cpp:474-478; the others as in levi. -/
noncomputable def veval (st : KState J) : VExp J F → Spatial
  | .zero => 0
  | .const x => x
  | .twist => st.twist
  | .comb X => ∑ k, st.dq k • veval st (X k)
  | .relVel a b => s.relativeVelocity st a b
  | .absVel b => if b = s.baseFrame then st.twist else s.relativeVelocity st s.baseFrame b + s.eval st.q (.adj b s.baseFrame) st.twist
  | .app A X => s.eval st.q A (veval st X)
  | .add X Y => veval st X + veval st Y
  | .sub X Y => veval st X - veval st Y
  | .neg X => -veval st X

/-- `getColumnDerivative(0, variable)`, one column.  RelativeVelocityExpression.cpp:51-52, 77-81 (the derivative of the product of the Jacobian
with the velocities of the joints), AbsoluteVelocityExpression.cpp:75-88; the others as in levi. -/
noncomputable def vderiv : KVar J → VExp J F → VExp J F
  | _, .zero => .zero
  | _, .const _ => .zero
  | .twist e, .twist => .const e
  | _, .twist => .zero
  | .velocity j, .comb X => .add (X j) (.comb fun k => vderiv (.velocity j) (X k))
  | d, .comb X => .comb fun k => vderiv d (X k)
  | .position j, .relVel a b => .comb fun k => .add (.app (s.deriv j (s.jacobian a b k).1) (.const (s.jacobian a b k).2)) (.app (s.jacobian a b k).1 .zero)
  | .velocity j, .relVel a b => s.jacobianColumn a b j
  | .twist _, .relVel _ _ => .zero
  | .position j, .absVel b => s.absoluteVelocityJointsDerivative b j
  | .velocity j, .absVel b => if b = s.baseFrame then .zero else s.jacobianColumn s.baseFrame b j
  | .twist e, .absVel b => if b = s.baseFrame then .const e else .app (.adj b s.baseFrame) (.const e)
  | .position j, .app A X => .add (.app (s.deriv j A) X) (.app A (vderiv (.position j) X))
  | d, .app A X => .app A (vderiv d X)
  | d, .add X Y => .add (vderiv d X) (vderiv d Y)
  | d, .sub X Y => .sub (vderiv d X) (vderiv d Y)
  | d, .neg X => .neg (vderiv d X)

/-- The derivatives with respect to several variables, one after the other. -/
noncomputable def vderivs (X : VExp J F) (ds : List (KVar J)) : VExp J F := ds.foldl (fun X d => s.vderiv d X) X

/-- RelativePositionExpression.cpp:58-65 and ExpressionsServer.cpp:360-364: the position of a frame in another. -/
noncomputable def relativePosition (st : KState J) (a b : F) : Vec := if a = b then 0 else (s.transform st.q a b).p

/-- RelativePositionExpression.cpp:50-51 and ExpressionsServer.cpp:399-403: the column of a joint of the derivative, the product of the
rotation (the first block of the adjoint transform) with the first three rows of the Jacobian. -/
noncomputable def relativePositionJacobian (st : KState J) (a b : F) (j : J) : Vec :=
  if a = b then 0 else (s.eval st.q (.adj a b) ((s.veval st (s.jacobianColumn a b j)).1, 0)).1

/-- The derivative of the column `j` with respect to the joint `k`, RelativePositionExpression.cpp:87 then the rule of the product of levi. -/
noncomputable def relativePositionHessian (st : KState J) (a b : F) (j k : J) : Vec :=
  if a = b then 0
  else (s.eval st.q (s.deriv k (.adj a b)) ((s.veval st (s.jacobianColumn a b j)).1, 0)).1 +
    (s.eval st.q (.adj a b) ((s.veval st (s.vderiv (.position k) (s.jacobianColumn a b j))).1, 0)).1

end Server
end Verif.Rigid
