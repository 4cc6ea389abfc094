import Verif.Model.VecExpr
/-
The expression of the momentum in the base and its derivatives, src/private/MomentumInBaseExpression.cpp, and the inertias of
src/private/ExpressionsServer.cpp.  The base twist is an independent variable; the columns of the matrices are functions of the joint.
-/
namespace Verif.Rigid
variable {L J F : Type} [DecidableEq L] [DecidableEq J] [DecidableEq F]
namespace Server
variable {m : Model L J} (s : Server m F)

/-- `linkInertia(l)`, ExpressionsServer.cpp:590-606. -/
def linkInertia (l : L) : Op F := .const (m.inertia l).mul

/-- `linkInertiaInBase(l)`, ExpressionsServer.cpp:608-624. -/
def linkInertiaInBase (l : L) : Op F := .mul (.adjWrench s.baseFrame (s.frames.ofLink l)) (linkInertia (m := m) l)

/-- `compositeRigidBodyInertia()`, ExpressionsServer.cpp:93-97. -/
def crbi : Op F := m.links.foldl (fun e l => .add e (.mul (s.linkInertiaInBase l) (.adj (s.frames.ofLink l) s.baseFrame))) .zero

/-- The momentum, MomentumInBaseExpression.cpp:57-69. -/
def momentumExpr : VExp J F :=
  m.links.foldl (fun e l => if l ≠ s.base then .add e (.app (s.linkInertiaInBase l) (.absVel (s.frames.ofLink l))) else e)
    (.app (linkInertia (m := m) s.base) .twist)

/-- The columns `m_cols` of the derivative with respect to the positions of the joints, MomentumInBaseExpression.cpp:161-198. -/
noncomputable def momentumJointsCols : J → VExp J F :=
  m.links.foldl (fun D l =>
    let linkMomentum : VExp J F := .app (linkInertia (m := m) l) (.absVel (s.frames.ofLink l))
    (s.kin.up l).foldl (fun D visited =>
      let j := s.kin.joint visited
      let c := s.kin.child j
      let motionVectorTimesChildVelocity : VExp J F := .app (.const (crossM (s.kin.subspace c))) (.absVel (s.frames.ofLink c))
      let adjointWrenchTimesMotionVector : Op F := .mul (.adjWrench s.baseFrame (s.frames.ofLink c)) (.const (crossF (s.kin.subspace c)))
      let adjointWrenchDerivative : VExp J F :=
        .app (.mul adjointWrenchTimesMotionVector (.adjWrench (s.frames.ofLink c) (s.frames.ofLink l))) linkMomentum
      let velocityDerivative : VExp J F :=
        .app (.mul (s.linkInertiaInBase l) (.adj (s.frames.ofLink l) (s.frames.ofLink c))) motionVectorTimesChildVelocity
      Function.update D j (.sub (.add (D j) adjointWrenchDerivative) velocityDerivative)) D) (fun _ => .zero)

/-- The columns of the derivative with respect to the velocities of the joints, MomentumInBaseExpression.cpp:342-361. -/
noncomputable def momentumVelocityCols : J → VExp J F :=
  m.links.foldl (fun D l =>
    (s.kin.up l).foldl (fun D visited =>
      let j := s.kin.joint visited
      let c := s.kin.child j
      Function.update D j
        (.add (D j) (.app (.mul (s.linkInertiaInBase l) (.adj (s.frames.ofLink l) (s.frames.ofLink c))) (.const (s.kin.subspace c))))) D) (fun _ => .zero)

/-- The derivative with respect to the base twist, in the direction `e`, MomentumInBaseExpression.cpp:271. -/
def momentumTwist (e : Spatial) : VExp J F := .app s.crbi (.const e)

/-- `adjointDerivatives`, MomentumInBaseExpression.cpp:446-473. -/
noncomputable def crbiJointsDerivative : J → Op F :=
  m.links.foldl (fun D l =>
    (s.kin.up l).foldl (fun D visited =>
      let j := s.kin.joint visited
      let c := s.kin.child j
      Function.update D j
        (.sub
          (.add (D j)
            (.mul (.mul (.mul (.mul (.adjWrench s.baseFrame (s.frames.ofLink c)) (.const (crossF (s.kin.subspace c))))
              (.adjWrench (s.frames.ofLink c) (s.frames.ofLink l))) (linkInertia (m := m) l)) (.adj (s.frames.ofLink l) s.baseFrame)))
          (.mul (.mul (.mul (.mul (.adjWrench s.baseFrame (s.frames.ofLink l)) (linkInertia (m := m) l))
              (.adj (s.frames.ofLink l) (s.frames.ofLink c))) (.const (crossM (s.kin.subspace c)))) (.adj (s.frames.ofLink c) s.baseFrame)))) D) (fun _ => .zero)

/-- The columns of the derivative of `momentumTwist` with respect to the positions of the joints, MomentumInBaseExpression.cpp:475-477. -/
noncomputable def momentumTwistJointsCols (e : Spatial) (j : J) : VExp J F := .app (s.crbiJointsDerivative j) (.const e)

/-- What the loop of MomentumInBaseExpression.cpp:577-616 knows: `thisColumnExpressedInC`, the columns, the joints in `m_nonZeros` and in
`otherJointsInSameBranch`. -/
structure DoubleLoop (J F : Type) where
  thisColumn : VExp J F
  cols : J → VExp J F
  nonZeros : List J
  others : List J

/-- `inertiaInC`, line 583. -/
def inertiaInC (c l : L) : Op F := .mul (.adjWrench (s.frames.ofLink c) (s.frames.ofLink l)) (linkInertia (m := m) l)

/-- `motionSubspaceInC`, lines 585-587. -/
noncomputable def motionSubspaceInC (c l : L) : Op F :=
  .mul (.mul (.adj (s.frames.ofLink l) (s.frames.ofLink c)) (.const (crossM (s.kin.subspace c)))) (.adj (s.frames.ofLink c) (s.frames.ofLink l))

/-- One link, MomentumInBaseExpression.cpp:577-617: the joints between the link and the column are visited first (`below`), then, if the
column is met, all those from the column to the base (`above`). -/
noncomputable def doubleLink (column : J) (l : L) (D : DoubleLoop J F) : DoubleLoop J F :=
  let c := s.kin.child column
  let below := (s.kin.up l).takeWhile fun visited => s.kin.joint visited ≠ column
  let above := (s.kin.up l).dropWhile fun visited => s.kin.joint visited ≠ column
  if above = [] then D
  else
    let thisSWrench : Op F := .const (crossF (s.kin.subspace c))
    let linkVel : VExp J F := .absVel (s.frames.ofLink l)
    { thisColumn := .add (.add D.thisColumn (.app (.mul thisSWrench (s.inertiaInC c l)) linkVel))
        (.app (s.inertiaInC c l) (s.absoluteVelocityJointsDerivative (s.frames.ofLink l) column))
      cols := above.foldl (fun E visited =>
        let j := s.kin.joint visited
        Function.update E j (.add (E j)
          (.app (.sub (.mul thisSWrench (s.inertiaInC c l)) (.mul (s.inertiaInC c l) (s.motionSubspaceInC c l)))
            (s.absoluteVelocityJointsDerivative (s.frames.ofLink l) j)))) D.cols
      nonZeros := D.nonZeros ++ above.map s.kin.joint
      others := D.others ++ below.map s.kin.joint }

/-- The loop on all the links, line 569. -/
noncomputable def doubleLoop (column : J) : DoubleLoop J F :=
  m.links.foldl (fun D l => s.doubleLink column l D) ⟨.zero, fun _ => .zero, [], []⟩

/-- The columns computed directly, MomentumInBaseExpression.cpp:618-631. -/
noncomputable def doubleDirect (column : J) : J → VExp J F := fun j =>
  let D := s.doubleLoop column
  let c := s.kin.child column
  if j ∈ D.nonZeros then
    let k := s.kin.child j
    let b_X_c_derivative : Op F :=
      .mul (.mul (.adjWrench s.baseFrame (s.frames.ofLink k)) (.const (crossF (s.kin.subspace k)))) (.adjWrench (s.frames.ofLink k) (s.frames.ofLink c))
    .add (.app b_X_c_derivative D.thisColumn) (.app (.adjWrench s.baseFrame (s.frames.ofLink c)) (D.cols j))
  else D.cols j

/-- The second derivative with respect to the positions of the joints, MomentumInBaseExpression.cpp:531-643: the columns of the joints that
are below are taken from the matrices of those joints (line 636); `fuel` bounds the depth of this recursion (it is at most the depth of the tree). -/
noncomputable def momentumDoubleCols (fuel : ℕ) (column : J) : J → VExp J F := fun j =>
  match fuel with
  | 0 => s.doubleDirect column j
  | fuel + 1 => if j ∈ (s.doubleLoop column).others then momentumDoubleCols fuel j column else s.doubleDirect column j

/-- What `evaluate` of the derivative with respect to the positions of the joints returns, MomentumInBaseExpression.cpp:212-222: the state is
the one of the server, not the variable `baseTwist`. -/
noncomputable def stateMomentumJointsDerivative (st : KState J) (j : J) : Spatial := s.kin.momentumJointsDerivative 1 st.stateVel st.q st.dq j

/-- `getColumnDerivative` of the momentum, MomentumInBaseExpression.cpp:92-106 (the base twist is independent). -/
noncomputable def momentumDeriv : KVar J → VExp J F
  | .position j => s.momentumJointsCols j
  | .velocity j => s.momentumVelocityCols j
  | .twist e => s.momentumTwist e

variable [Fintype J]

/-- The derivative of a derivative, MomentumInBaseExpression.cpp:240-250, 291-301, 391-395. -/
noncomputable def momentumDeriv2 (fuel : ℕ) : KVar J → KVar J → VExp J F
  | .position c, .position j => s.momentumDoubleCols fuel c j
  | .position c, d => s.vderiv d (s.momentumJointsCols c)
  | .twist e, .position j => s.momentumTwistJointsCols e j
  | .twist e, d => s.vderiv d (s.momentumTwist e)
  | .velocity c, d => s.vderiv d (s.momentumVelocityCols c)

/-- The derivatives of the third order and more, MomentumInBaseExpression.cpp:509-512, 673-676: the rules of levi on the columns. -/
noncomputable def momentumDerivs (fuel : ℕ) (d1 d2 : KVar J) (ds : List (KVar J)) : VExp J F := s.vderivs (s.momentumDeriv2 fuel d1 d2) ds

end Server
end Verif.Rigid
