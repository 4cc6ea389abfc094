import Verif.Model.KinState
import Verif.Model.ScalarExpr
import Verif.Model.Constraints
/-
Model of `src/private/CentroidalMomentumConstraint.cpp`.  A matrix with six rows is a function from the columns to spatial vectors.
The caches of the class (`updateDoneOnce...`) are never enabled (the assignments are commented out, lines 324, 349, 432), so every call computes
again.  The buffers of the Jacobians are zeroed in the constructor and always written at the same entries: they are zero matrices here.
-/
namespace Verif.NLP.Kin
open Matrix Verif.Rigid
open Verif.Quaternion (rotatedVectorJacobian normalizedDerivative leftTrivializedDerivativeInverse leftTrivializedDerivativeInverseTimesJacobian)
open Verif.NLP.Dynamics (quatOf rpow)
noncomputable section
variable {n nj : ℕ} {L F : Type} [DecidableEq L] [DecidableEq F] {m : Model L (Fin nj)}

/-- `comTransform`, lines 131-132. -/
def translation (p : Vec) : SE3 := ⟨1, p, by simp, by simp⟩

/-- `getLinearAngularMomentum(robotState, BODY_FIXED)` (external). -/
def momentumInBase (s : Server m F) (x : SVec n) (u : CVec n) : Spatial :=
  s.kin.momentum (baseTransform x) (baseTwist x u) (jointsOf x) (jointVelOf u)

/-- `comPosition`, line 130. -/
def comPos (s : Server m F) (x : SVec n) : Vec := s.kin.comPosition (baseTransform x) (jointsOf x)

/-- `G_T_B`, lines 352, 435. -/
def comToBase (s : Server m F) (x : SVec n) : SE3 := translation (0 - comPos s x) * baseTransform x

/-- The column `3 + i` of `getLinearAngularMomentumJacobian(robotState, ..., BODY_FIXED)` (external): the momentum when only the base moves, with
the angular velocity `i`. -/
def cmmAngular (s : Server m F) (x : SVec n) (i : Fin 3) : Spatial := s.kin.momentum (baseTransform x) (0, unit3 i) (jointsOf x) 0
/-- The columns of the linear velocity of the base. -/
def cmmLinear (s : Server m F) (x : SVec n) (i : Fin 3) : Spatial := s.kin.momentum (baseTransform x) (unit3 i, 0) (jointsOf x) 0
/-- The columns of the joints. -/
def cmmJoint (s : Server m F) (x : SVec n) (j : Fin nj) : Spatial := s.kin.momentum (baseTransform x) 0 (jointsOf x) (Pi.single j 1)

/-- `constraintValueBuffer`, lines 327-332. -/
def centroidalValue (s : Server m F) (x : SVec n) (u : CVec n) : Spatial :=
  (translation (0 - comPos s x)).actF ((baseTransform x).actF (momentumInBase s x u)) -
    ((fun k : Fin 3 => x (.momentum, (k : ℕ)), fun k : Fin 3 => x (.momentum, 3 + (k : ℕ))) : Spatial)

/-- `stateJacobianBuffer`, lines 352-409. -/
def centroidalStateJac (s : Server m F) (x : SVec n) (u : CVec n) : Idx (SBlk n) → Spatial :=
  let H := baseTransform x
  let momentumInBase := momentumInBase s x u
  let momentumInCoM := (comToBase s x).actF momentumInBase
  let J := putCols (fun _ => (0 : Spatial)) .joints nj fun j =>
    (comToBase s x).actF (s.kin.momentumJointsDerivative H (baseTwist x u) (jointsOf x) (jointVelOf u) j)
  let J := addCols J .joints nj fun j => (0, momentumInCoM.1 ⨯₃ s.kin.comJacobian H (jointsOf x) j)
  let J := putCols J .momentum 6 unit6
  let J := scaleCols J .momentum 6 (-1)
  let N := normalizedDerivative Real.sqrt (quatOf x)
  let comPositionInBase := H⁻¹.point (comPos s x)
  let comCrossMomentum := (-comPositionInBase) ⨯₃ momentumInBase.1
  let J := putCols J .baseQuat 4 fun k =>
    (fun i => (rotatedVectorJacobian Real.sqrt momentumInBase.1 (quatN x) * N) i k,
     fun i => ((rotatedVectorJacobian Real.sqrt momentumInBase.2 (quatN x) + rotatedVectorJacobian Real.sqrt comCrossMomentum (quatN x)) * N) i k)
  addCols J .baseQuat 4 fun k =>
    (comToBase s x).actF (∑ i, (leftTrivializedDerivativeInverseTimesJacobian (quatVelOf u) * N) i k • cmmAngular s x i)

/-- `controlJacobianBuffer`, lines 435-449. -/
def centroidalCtrlJac (s : Server m F) (x : SVec n) : Idx (CBlk n) → Spatial :=
  let J := putCols (fun _ => (0 : Spatial)) .baseVel 3 fun i => (comToBase s x).actF (cmmLinear s x i)
  let J := putCols J .quatDer 4 fun k => ∑ i, leftTrivializedDerivativeInverse (quatN x) i k • (comToBase s x).actF (cmmAngular s x i)
  putCols J .jointVel nj fun j => (comToBase s x).actF (cmmJoint s x j)

/-! ### Second derivatives: the expressions of lines 183-238 -/

/-- The entries of the variables and evaluables in the expressions: `normalizedQuaternion` (an independent variable, line 192),
`comPositionVariable` (line 193), the multipliers, the linear velocity and the derivative of the quaternion of the server,
`notNormalizedQuaternionMapExpr` (lines 208-209) and its derivative, `comJacobian` (line 213) and its derivative, the momentum in the base
(line 206) and its first and second derivatives (`.twist e`: the direction `e` of the base twist). -/
inductive CAtom (nj : ℕ) : Type
  | n (i : Fin 4)
  | c (i : Fin 3)
  | lam (i : Fin 3)
  | v (i : Fin 3)
  | qd (i : Fin 4)
  | N (i k : Fin 4)
  | NN (i k l : Fin 4)
  | cj (i : Fin 3) (j : Fin nj)
  | cjj (i : Fin 3) (j k : Fin nj)
  | mom (r : Fin 6)
  | mom1 (r : Fin 6) (d : KVar (Fin nj))
  | mom2 (r : Fin 6) (d d' : KVar (Fin nj))

/-- The variables the expressions are differentiated by. -/
inductive CVar (nj : ℕ) : Type
  | n (i : Fin 4)
  | c (i : Fin 3)
  | q (k : Fin 4)
  | joint (j : Fin nj)
  | v (i : Fin 3)
  | qd (k : Fin 4)
  | w (j : Fin nj)

/-- One or zero. -/
def one0 (b : Prop) [Decidable b] : SExp (CAtom nj) := .const (if b then 1 else 0)

/-- The derivatives of the atoms that do not depend on the base twist. -/
def leaf : CVar nj → CAtom nj → SExp (CAtom nj)
  | .n i, .n i' => one0 (i = i')
  | .c i, .c i' => one0 (i = i')
  | .v i, .v i' => one0 (i = i')
  | .qd k, .qd k' => one0 (k = k')
  | .q l, .N i k => .atom (.NN i k l)
  | .joint k, .cj i j => .atom (.cjj i j k)
  | _, _ => .const 0

/-- The quaternion as a column. -/
def nCol : SMat (CAtom nj) 4 1 := fun i _ => .atom (.n i)
/-- `normalizedQuaternion.block(1,0,3,1)`. -/
def imCol : SMat (CAtom nj) 3 1 := fun i _ => .atom (.n i.succ)

/-- `RotationExpression(normalizedQuaternion)`, line 199 and QuaternionExpressions.cpp:11-18. -/
def rotExpr : SMat (CAtom nj) 3 3 :=
  let twoSkew := SMat.smul (.const 2) (SMat.skew imCol)
  SMat.add (SMat.add (SMat.ident 3) (SMat.smul (.atom (.n 0)) twoSkew)) (SMat.mul twoSkew (SMat.skew imCol))

/-- `G_Expression(normalizedQuaternion)`, QuaternionExpressions.cpp:29-37. -/
def gExpr : SMat (CAtom nj) 3 4 :=
  SMat.hcat (c := 1) (SMat.neg imCol) (SMat.add (fun i j => .mul (SMat.ident 3 i j) (.atom (.n 0))) (SMat.skew (SMat.neg imCol)))

/-- The angular part of `baseTwistCMM`, lines 195-197 and QuaternionExpressions.cpp:47-52. -/
def angExpr : SMat (CAtom nj) 3 1 := SMat.mul (SMat.smul (.const 2) gExpr) fun k _ => .atom (.qd k)

/-- The derivative of the six rows of `baseTwistCMM`. -/
def twistDer (d : CVar nj) : Fin 6 → SExp (CAtom nj) :=
  Fin.append (m := 3) (n := 3) (fun i => leaf d (.v i)) (fun i => SExp.der (leaf d) (angExpr i 0))

/-- The derivatives of all the atoms: those of the momentum are in MomentumInBaseExpression.cpp:92-106, 240-250, 291-301, 391-395; the product with
the Jacobian of the base twist is written row by row. -/
def atomDer (d : CVar nj) : CAtom nj → SExp (CAtom nj)
  | .mom r =>
    match d with
    | .joint j => .atom (.mom1 r (.position j))
    | .w j => .atom (.mom1 r (.velocity j))
    | d => .sum fun k => .mul (twistDer d k) (.atom (.mom1 r (.twist (unit6 k))))
  | .mom1 r e =>
    match d with
    | .joint j => .atom (.mom2 r e (.position j))
    | .w j => .atom (.mom2 r e (.velocity j))
    | d => .sum fun k => .mul (twistDer d k) (.atom (.mom2 r e (.twist (unit6 k))))
  | a => leaf d a

/-- `getColumnDerivative(0, variable)`, one column. -/
def cder (d : CVar nj) (e : SExp (CAtom nj)) : SExp (CAtom nj) := e.der (atomDer d)

/-- `mixedAdjointBottomRows`, lines 203-204. -/
def adjointExpr : SMat (CAtom nj) 3 6 := SMat.mul rotExpr (SMat.hcat (SMat.skew (SMat.neg fun i _ => .atom (.c i))) (SMat.ident 3))

/-- `asExpression`, line 206. -/
def asExpr : SMat (CAtom nj) 3 1 := SMat.mul adjointExpr fun r _ => .atom (.mom r)

/-- `lagrangian`, line 218. -/
def lagrangian : SExp (CAtom nj) := SMat.mul (fun (_ : Fin 1) i => .atom (.lam i)) asExpr 0 0

/-- `jointsLagrangian`, lines 219-220. -/
def jointsLagrangian (j : Fin nj) : SExp (CAtom nj) :=
  .add (cder (.joint j) lagrangian) (.sum fun a => .mul (cder (.c a) lagrangian) (.atom (.cj a j)))

/-- `quaternionLagrangian`, line 221. -/
def quaternionLagrangian (k : Fin 4) : SExp (CAtom nj) := .sum fun i => .mul (cder (.n i) lagrangian) (.atom (.N i k))

/-- `quatQuatHessian`, lines 223-224. -/
def quatQuat (k l : Fin 4) : SExp (CAtom nj) :=
  .add (cder (.q l) (quaternionLagrangian k)) (.sum fun i => .mul (cder (.n i) (quaternionLagrangian k)) (.atom (.N i l)))
/-- `quatJointsHessian`, lines 225-226. -/
def quatJoints (k : Fin 4) (j : Fin nj) : SExp (CAtom nj) :=
  .add (cder (.joint j) (quaternionLagrangian k)) (.sum fun a => .mul (cder (.c a) (quaternionLagrangian k)) (.atom (.cj a j)))
/-- `jointsJointsHessian`, lines 228-229. -/
def jointsJoints (j k : Fin nj) : SExp (CAtom nj) :=
  .add (cder (.joint k) (jointsLagrangian j)) (.sum fun a => .mul (cder (.c a) (jointsLagrangian j)) (.atom (.cj a k)))

/-- What levi answers for `notNormalizedQuaternionMapExpr` (lines 208-209) and for the derivatives of its columns. -/
structure NormExprs where
  jac : Levi.Ex ℝ
  hess : Fin 4 → Levi.Ex ℝ

/-- `normalizedBaseQuaternion()` of the server. -/
def normE : Levi.Ex ℝ := Levi.Quat.normalized (.var Levi.Quat.q)

/-- The expressions are the ones levi answers. -/
def NormExprs.Made (cfg : Levi.Ex.Cfg ℝ) (E : NormExprs) : Prop :=
  (∃ m, Levi.Ex.D cfg m (Levi.Ex.build cfg normE) 0 Levi.Quat.q = some E.jac) ∧
  ∀ k : Fin 4, ∃ m, Levi.Ex.D cfg m E.jac k Levi.Quat.q = some (E.hess k)

/-- The components of a spatial vector. -/
def row (y : Spatial) (r : Fin 6) : ℝ := Fin.append (m := 3) (n := 3) y.1 y.2 r

/-- The state of the robot the evaluables of the momentum are evaluated with. -/
def kstate (x : SVec n) (u : CVec n) : KState (Fin nj) := ⟨baseTwist x u, baseTwist x u, jointsOf x, jointVelOf u⟩

/-- The values of the atoms, after `expressionsServer->updateRobotState(time)` (line 486) and `lagrangeMultipliers = lambdaMap` (line 491).
`fuel` bounds the recursion of the second derivatives of the momentum and of the centre of mass (C62, C63). -/
def atomVal (s : Server m F) (E : NormExprs) (fuel : ℕ) (x : SVec n) (u : CVec n) (lam : Fin 3 → ℝ) : CAtom nj → ℝ
  | .n i => quatN x i
  | .c i => s.comInBase (baseTransform x) (jointsOf x) i
  | .lam i => lam i
  | .v i => u (.baseVel, i)
  | .qd i => u (.quatDer, i)
  | .N i k => (E.jac.ev rpow (Dynamics.env x u 0)).f i k
  | .NN i k l => ((E.hess k).ev rpow (Dynamics.env x u 0)).f i l
  | .cj i j => s.comInBaseJacobian (baseTransform x) (jointsOf x) j i
  | .cjj i j k => (s.veval (kstate x u) (s.comHessianCols (fuel + 1) j k)).1 i
  | .mom r => row (s.veval (kstate x u) s.momentumExpr) r
  | .mom1 r (.position j) => row (s.stateMomentumJointsDerivative (kstate x u) j) r
  | .mom1 r d => row (s.veval (kstate x u) (s.momentumDeriv d)) r
  | .mom2 r d d' => row (s.veval (kstate x u) (s.momentumDeriv2 (fuel + 1) d d')) r

/-- A block of values, `hessianMap.block(...) = expression.evaluate()`. -/
def putExprs {B C : Type} [DecidableEq B] [DecidableEq C] {r k : ℕ} (H : Idx B → Idx C → ℝ) (b : B) (c : C) (A : Fin r → Fin k → ℝ) :
    Idx B → Idx C → ℝ :=
  fun p q => if h : (p.1 = b ∧ p.2 < r) ∧ q.1 = c ∧ q.2 < k then A ⟨p.2, h.1.2⟩ ⟨q.2, h.2.2⟩ else H p q

/-- The three evaluations running in parallel, lines 493-495. -/
inductive StateTask | quatQuat | quatJoints | jointsJoints
deriving DecidableEq

/-- What is written when an evaluation is ready, lines 506-530. -/
def writeState (s : Server m F) (E : NormExprs) (fuel : ℕ) (x : SVec n) (u : CVec n) (lam : Fin 3 → ℝ) (H : Idx (SBlk n) → Idx (SBlk n) → ℝ) :
    StateTask → Idx (SBlk n) → Idx (SBlk n) → ℝ
  | .quatQuat => putExprs H .baseQuat .baseQuat fun k l => (quatQuat k l).eval (atomVal s E fuel x u lam)
  | .quatJoints =>
    let H := putExprs H .joints .baseQuat fun j k => (quatJoints k j).eval (atomVal s E fuel x u lam)
    putExprs H .baseQuat .joints fun k j => (quatJoints k j).eval (atomVal s E fuel x u lam)
  | .jointsJoints => putExprs H .joints .joints fun j k => (jointsJoints j k).eval (atomVal s E fuel x u lam)

/-- `constraintSecondPartialDerivativeWRTState`, lines 478-534: `order` is the order in which the evaluations are found ready. -/
def centroidalStateHess (s : Server m F) (E : NormExprs) (fuel : ℕ) (order : List StateTask) (x : SVec n) (u : CVec n) (lam : Fin 3 → ℝ)
    (H : Idx (SBlk n) → Idx (SBlk n) → ℝ) : Idx (SBlk n) → Idx (SBlk n) → ℝ :=
  order.foldl (writeState s E fuel x u lam) H

/-- The six evaluations of lines 559-564. -/
inductive MixedTask | quatLinVel | quatQuatVel | quatJointsVel | jointsLinVel | jointsQuatVel | jointsJointsVel
deriving DecidableEq

/-- What is written when an evaluation is ready, lines 585-629; the expressions are in lines 231-237. -/
def writeMixed (s : Server m F) (E : NormExprs) (fuel : ℕ) (x : SVec n) (u : CVec n) (lam : Fin 3 → ℝ) (H : Idx (SBlk n) → Idx (CBlk n) → ℝ) :
    MixedTask → Idx (SBlk n) → Idx (CBlk n) → ℝ
  | .quatLinVel => putExprs H .baseQuat .baseVel fun k (i : Fin 3) => (cder (.v i) (quaternionLagrangian k)).eval (atomVal s E fuel x u lam)
  | .quatQuatVel => putExprs H .baseQuat .quatDer fun k (i : Fin 4) => (cder (.qd i) (quaternionLagrangian k)).eval (atomVal s E fuel x u lam)
  | .quatJointsVel => putExprs H .baseQuat .jointVel fun k (i : Fin nj) => (cder (.w i) (quaternionLagrangian k)).eval (atomVal s E fuel x u lam)
  | .jointsLinVel => putExprs H .joints .baseVel fun j (i : Fin 3) => (cder (.v i) (jointsLagrangian j)).eval (atomVal s E fuel x u lam)
  | .jointsQuatVel => putExprs H .joints .quatDer fun j (i : Fin 4) => (cder (.qd i) (jointsLagrangian j)).eval (atomVal s E fuel x u lam)
  | .jointsJointsVel => putExprs H .joints .jointVel fun j (i : Fin nj) => (cder (.w i) (jointsLagrangian j)).eval (atomVal s E fuel x u lam)

/-- `constraintSecondPartialDerivativeWRTStateControl`, lines 544-633. -/
def centroidalMixedHess (s : Server m F) (E : NormExprs) (fuel : ℕ) (order : List MixedTask) (x : SVec n) (u : CVec n) (lam : Fin 3 → ℝ)
    (H : Idx (SBlk n) → Idx (CBlk n) → ℝ) : Idx (SBlk n) → Idx (CBlk n) → ℝ :=
  order.foldl (writeMixed s E fuel x u lam) H

/-- The constraint: value lines 315-338, Jacobians 340-454, second derivatives 478-633, patterns 150-181, bounds 272-275 and 303-310 (`tol` is
the tolerance given to `setEqualityTolerance`, zero before).  Only the last three rows are returned. -/
def centroidalMomentum (s : Server m F) (E : NormExprs) (fuel : ℕ) (order : List StateTask) (order' : List MixedTask) (tol : ℝ) :
    Constraint (Idx (SBlk n)) (Idx (CBlk n)) 3 where
  value x u := (centroidalValue s x u).2
  stateJac x u _ := fun i p => (centroidalStateJac s x u p).2 i
  ctrlJac x _ _ := fun i p => (centroidalCtrlJac s x p).2 i
  stateHess x u lam H := centroidalStateHess s E fuel order x u lam H
  ctrlHess _ _ _ H := H
  mixedHess x u lam H := centroidalMixedHess s E fuel order' x u lam H
  stateJacPat := dense (List.finRange 3) (seg .joints 0 nj) ++ diag (List.finRange 3) (seg .momentum 3 3) ++ dense (List.finRange 3) (seg .baseQuat 0 4)
  ctrlJacPat := dense (List.finRange 3) (seg .quatDer 0 4) ++ dense (List.finRange 3) (seg .baseVel 0 3) ++ dense (List.finRange 3) (seg .jointVel 0 nj)
  stateHessPat := dense (seg .baseQuat 0 4) (seg .baseQuat 0 4) ++ dense (seg .baseQuat 0 4) (seg .joints 0 nj) ++
    dense (seg .joints 0 nj) (seg .baseQuat 0 4) ++ dense (seg .joints 0 nj) (seg .joints 0 nj)
  ctrlHessPat := []
  mixedHessPat := dense (seg .baseQuat 0 4) (seg .baseVel 0 3) ++ dense (seg .baseQuat 0 4) (seg .quatDer 0 4) ++
    dense (seg .baseQuat 0 4) (seg .jointVel 0 nj) ++ dense (seg .joints 0 nj) (seg .baseVel 0 3) ++
    dense (seg .joints 0 nj) (seg .quatDer 0 4) ++ dense (seg .joints 0 nj) (seg .jointVel 0 nj)
  lower := some fun _ => -tol / 2
  upper := some fun _ => tol / 2

end
end Verif.NLP.Kin
