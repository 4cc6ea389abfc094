import Verif.Model.Vars
import Verif.Model.Smoothing
import Verif.Model.QuaternionUtils
import Verif.Model.QuaternionExpressions
import Mathlib.Analysis.Real.Sqrt
import Mathlib.Analysis.SpecialFunctions.Pow.Real
/-
Model of `src/private/DynamicalConstraints.cpp` (the system dynamics of the optimal control problem).

Simplifications: `double` is ℝ; the matrices handed in by the optimiser are the argument `M` of each function, which returns the
matrix after the call; the values held by the symbolic variables after `expressionServer->updateRobotState(time)` are exactly the
ones of the state and control (they are read back from the robot state just stored, see C07/C10 for the tolerance of that cache);
assertions hold.  Out-of-line behaviour of `sharedKinDyn` is not used: the centre of mass is read from the state (line 249).
-/
namespace Verif.NLP.Dynamics
open Verif.Smooth Matrix
open Verif.Quaternion (rotationFromQuaternion normalized normalizedDerivative rotatedVectorJacobian)
noncomputable section
variable {n : Nat}

/-- Members of the implementation that do not change after construction: `totalMass`, the number of joints
(`jointsPositionRange.size`), `activationXY`, `normalForceActivation`, `normalForceDissipation` (lines 20-60). -/
structure Params where
  mass : ℝ
  joints : Nat
  xy : Smooth.Params
  z : Smooth.Params
  dissipation : ℝ

/-- `activationXY` is a `HyperbolicTangent`, `normalForceActivation` a `HyperbolicSecant` (lines 52-54). -/
def Params.δxy (P : Params) : Fn := ⟨.tangent, P.xy⟩
def Params.δz (P : Params) : Fn := ⟨.secant, P.z⟩

/-- The loop computing `totalMass` from the masses of the links, lines 341-347. -/
def totalMass (links : List ℝ) : ℝ := links.foldl (fun m l => m + l) 0

/-- `gravityVector`, set in the constructor (line 350: zero, then the third component is -9.81). -/
def gravity : Nat → ℝ := fun k => if k = 2 then -(981 / 100) else 0

/-- Components of a vector by position. -/
def comp (v : V3 ℝ) : Nat → ℝ := fun k => if k = 0 then v.x else if k = 1 then v.y else v.z

/-- `iDynTree::skew` (external). -/
def skew3 (v : V3 ℝ) : Nat → Nat → ℝ := fun k l =>
  if k = 0 then (if l = 0 then 0 else if l = 1 then -v.z else v.y)
  else if k = 1 then (if l = 0 then v.z else if l = 1 then 0 else -v.x)
  else (if l = 0 then -v.y else if l = 1 then v.x else 0)

/-- Entries of a fixed-size matrix. -/
def ent {a b : Nat} (M : Matrix (Fin a) (Fin b) ℝ) : Nat → Nat → ℝ := fun k l =>
  if h : k < a ∧ l < b then M ⟨k, h.1⟩ ⟨l, h.2⟩ else 0

/-- `vector.segment(...) += v`. -/
def addSeg {B : Type} [DecidableEq B] (M : Idx B → ℝ) (b : B) (k0 r : Nat) (v : Nat → ℝ) : Idx B → ℝ :=
  fun p => if p.1 = b ∧ k0 ≤ p.2 ∧ p.2 < k0 + r then M p + v (p.2 - k0) else M p

/-- `baseQuaternion`, line 233. -/
def quatOf (x : SVec n) : Fin 4 → ℝ := fun k => x (.baseQuat, k)
/-- `robotState.base_linearVelocity`, line 246. -/
def velOf (u : CVec n) : Fin 3 → ℝ := fun k => u (.baseVel, k)
/-- `baseRotation`, lines 234-236. -/
def baseRotation (x : SVec n) : Matrix (Fin 3) (Fin 3) ℝ := rotationFromQuaternion (normalized Real.sqrt (quatOf x))

/-- `distance`, lines 122, 134. -/
def distance (x : SVec n) (s : Side) (i : Fin n) : V3 ℝ := vec3 x (.pos s i) - vec3 x .com

/-! ### Dynamics, lines 428-458 -/

/-- Body of the loop of `computeFootRelatedDynamics`, lines 103-125. -/
def pointDynamics (P : Params) (x : SVec n) (u : CVec n) (s : Side) (d : SVec n) (i : Fin n) : SVec n :=
  let pz := (vec3 x (.pos s i)).z
  let deltaZ := P.δz.eval pz
  let fz := (vec3 x (.force s i)).z
  let uz := (vec3 u (.forceCtl s i)).z
  let d := putSeg d (.force s i) 0 2 (comp (vec3 u (.forceCtl s i)))
  let d := putV d (.force s i, 2) (deltaZ * uz + P.dissipation * (deltaZ - 1) * fz)
  let deltaXY := P.δxy.eval (vec3 x (.pos s i)).z
  let d := putSeg d (.pos s i) 0 2 (comp (V3.smul deltaXY (vec3 u (.velCtl s i))))
  let d := putV d (.pos s i, 2) (vec3 u (.velCtl s i)).z
  let d := addSeg d .momentum 0 3 (comp (vec3 x (.force s i)))
  addSeg d .momentum 3 3 (comp (V3.cross (distance x s i) (vec3 x (.force s i))))

/-- `computeFootRelatedDynamics`, lines 100-126. -/
def footDynamics (P : Params) (x : SVec n) (u : CVec n) (s : Side) (d : SVec n) : SVec n :=
  (List.finRange n).foldl (pointDynamics P x u s) d

/-- `dynamics`, lines 428-458; `d` is the buffer left by earlier calls. -/
def dynamics (P : Params) (x : SVec n) (u : CVec n) (d : SVec n) : SVec n :=
  let d := putSeg d .momentum 0 6 (fun k => P.mass * gravity k)
  let d := footDynamics P x u .left d
  let d := footDynamics P x u .right d
  let d := putSeg d .com 0 3 (fun k => x (.momentum, k) / P.mass)
  let d := putSeg d .basePos 0 3 (fun k => ent (Matrix.of fun i (_ : Fin 1) => (baseRotation x *ᵥ velOf u) i) k 0)
  let d := putSeg d .baseQuat 0 4 (fun k => u (.quatDer, k))
  putSeg d .joints 0 P.joints (fun k => u (.jointVel, k))

/-! ### Jacobians, lines 460-521 -/

/-- Body of the loop of `computeFootRelatedStateJacobian`, lines 131-151. -/
def pointStateJac (P : Params) (x : SVec n) (u : CVec n) (s : Side) (J : Idx (SBlk n) → Idx (SBlk n) → ℝ) (i : Fin n) :
    Idx (SBlk n) → Idx (SBlk n) → ℝ :=
  let pz := (vec3 x (.pos s i)).z
  let deltaXYDerivative := P.δxy.evalDerivative pz
  let f := vec3 x (.force s i)
  let J := putBlock J .momentum 0 (.force s i) 0 3 3 eye
  let J := putBlock J .momentum 3 (.force s i) 0 3 3 (skew3 (distance x s i))
  let J := putBlock J .momentum 3 (.pos s i) 0 3 3 (fun k l => -skew3 f k l)
  let J := addBlock J .momentum 3 .com 0 3 3 (skew3 f)
  let deltaZDerivative := P.δz.evalDerivative pz
  let deltaZ := P.δz.eval pz
  let fz := f.z
  let uz := (vec3 u (.forceCtl s i)).z
  let J := put J (.force s i, 2) (.pos s i, 2) (deltaZDerivative * (uz + P.dissipation * fz))
  let J := put J (.force s i, 2) (.force s i, 2) (P.dissipation * (deltaZ - 1))
  putBlock J (.pos s i) 0 (.pos s i) 2 2 1 (fun k _ => deltaXYDerivative * comp (vec3 u (.velCtl s i)) k)

/-- `computeFootRelatedStateJacobian`, lines 128-159. -/
def footStateJac (P : Params) (x : SVec n) (u : CVec n) (s : Side) (J : Idx (SBlk n) → Idx (SBlk n) → ℝ) :
    Idx (SBlk n) → Idx (SBlk n) → ℝ := (List.finRange n).foldl (pointStateJac P x u s) J

/-- `dynamicsStateFirstDerivative`, lines 460-494. -/
def stateJac (P : Params) (x : SVec n) (u : CVec n) (J : Idx (SBlk n) → Idx (SBlk n) → ℝ) : Idx (SBlk n) → Idx (SBlk n) → ℝ :=
  let J := putBlock J .momentum 3 .com 0 3 3 (fun _ _ => 0)
  let J := footStateJac P x u .left J
  let J := footStateJac P x u .right J
  let J := putBlock J .com 0 .momentum 0 3 3 eye
  let J := scaleBlock J .com 0 .momentum 0 3 3 (1 / P.mass)
  putBlock J .basePos 0 .baseQuat 0 3 4
    (ent (rotatedVectorJacobian Real.sqrt (velOf u) (normalized Real.sqrt (quatOf x)) * normalizedDerivative Real.sqrt (quatOf x)))

/-- Body of the loop of `computeFootRelatedControlJacobian`, lines 163-171. -/
def pointCtrlJac (P : Params) (x : SVec n) (s : Side) (J : Idx (SBlk n) → Idx (CBlk n) → ℝ) (i : Fin n) :
    Idx (SBlk n) → Idx (CBlk n) → ℝ :=
  let deltaXY := P.δxy.eval (vec3 x (.pos s i)).z
  let pz := (vec3 x (.pos s i)).z
  let deltaZ := P.δz.eval pz
  let J := putBlock J (.force s i) 0 (.forceCtl s i) 0 2 2 eye
  let J := put J (.force s i, 2) (.forceCtl s i, 2) deltaZ
  let J := putBlock J (.pos s i) 0 (.velCtl s i) 0 3 3 eye
  scaleBlock J (.pos s i) 0 (.velCtl s i) 0 2 2 deltaXY

/-- `dynamicsControlFirstDerivative`, lines 496-521. -/
def ctrlJac (P : Params) (x : SVec n) (J : Idx (SBlk n) → Idx (CBlk n) → ℝ) : Idx (SBlk n) → Idx (CBlk n) → ℝ :=
  let J := (List.finRange n).foldl (pointCtrlJac P x .left) J
  let J := (List.finRange n).foldl (pointCtrlJac P x .right) J
  let J := putBlock J .basePos 0 .baseVel 0 3 3 (ent (baseRotation x))
  let J := putBlock J .baseQuat 0 .quatDer 0 4 4 eye
  putBlock J .joints 0 .jointVel 0 P.joints P.joints eye

/-! ### Second derivatives, lines 535-594 -/
open Verif.Levi (Ex Var)
open Verif.Levi.Ex (Env Cfg)

/-- `m_pimpl->force`, line 410. -/
def fVar : Var := ⟨"f", 3⟩

/-- Symbolic expressions built by the constructor (lines 410-418) and the columns asked for in lines 180 and 582. -/
structure Exprs where
  hess : Fin 4 → Ex ℝ
  rot : Fin 3 → Ex ℝ
  skewForce : Fin 3 → Ex ℝ

/-- The base rotation of the server, see Model/QuaternionExpressions. -/
def rotE : Ex ℝ := Levi.Quat.rotation (Levi.Quat.normalized (.var Levi.Quat.q))

/-- Line 413. -/
def bpdE : Ex ℝ := Levi.Quat.basePositionDerivative (.var Levi.Quat.vBase) (Levi.Quat.normalized (.var Levi.Quat.q))

/-- Lines 410-418, 180, 582: `E` is what levi answers.  (The number given to `D` bounds the recursion of the model of
`getColumnDerivative`; with enough of it there is an answer, see `C17_expressions_exist`.) -/
def Exprs.Made (cfg : Cfg ℝ) (E : Exprs) : Prop :=
  (∃ m j, Ex.D cfg m (Ex.build cfg bpdE) 0 Levi.Quat.q = some j ∧
    ∀ i : Fin 4, ∃ m', Ex.D cfg m' j i Levi.Quat.q = some (E.hess i)) ∧
  (∀ i : Fin 3, ∃ m, Ex.D cfg m (Ex.build cfg rotE) i Levi.Quat.q = some (E.rot i)) ∧
  ∀ j : Fin 3, ∃ m, Ex.D cfg m (Ex.build cfg (.skew (.var fVar))) j fVar = some (E.skewForce j)

/-- Values of the variables of the server after `updateRobotState(time)` (ExpressionsServer.cpp:151-171), and of `force`,
line 178 (the expressions of lines 410-418 and 582 do not contain `force`, there its value is taken to be zero). -/
def env (x : SVec n) (u : CVec n) (f : V3 ℝ) : Env ℝ := fun v k =>
  if v = Levi.Quat.q then x (.baseQuat, k) else if v = Levi.Quat.vBase then u (.baseVel, k)
  else if v = fVar then comp f k else 0

/-- `std::pow` on the reals. -/
def rpow (x a : ℝ) : ℝ := x ^ a

/-- Three multipliers times a matrix with three rows: `λᵀ M`. -/
def times3 (l : V3 ℝ) (M : Nat → Nat → ℝ) (k : Nat) : ℝ := l.x * M 0 k + l.y * M 1 k + l.z * M 2 k

/-- `lambda(momentumRange).bottomRows<3>()`. -/
def angular (lam : SVec n) : V3 ℝ := ⟨lam (.momentum, 3), lam (.momentum, 4), lam (.momentum, 5)⟩

/-- Body of the inner loop of `computeFootRelatedStateHessian`, lines 179-191. -/
def pointForceHess (E : Exprs) (x : SVec n) (u : CVec n) (lam : SVec n) (s : Side) (i : Fin n)
    (H : Idx (SBlk n) → Idx (SBlk n) → ℝ) (j : Fin 3) : Idx (SBlk n) → Idx (SBlk n) → ℝ :=
  let forceHessian := times3 (angular lam) ((E.skewForce j).ev rpow (env x u (vec3 x (.force s i)))).f
  let H := putBlock H .com j (.force s i) 0 1 3 (fun _ l => forceHessian l)
  let H := putBlock H (.force s i) 0 .com j 3 1 (fun k _ => forceHessian k)
  let H := putBlock H (.pos s i) j (.force s i) 0 1 3 (fun _ l => -forceHessian l)
  putBlock H (.force s i) 0 (.pos s i) j 3 1 (fun k _ => -forceHessian k)

/-- Body of the loop of `computeFootRelatedStateHessian`, lines 177-208. -/
def pointStateHess (P : Params) (E : Exprs) (x : SVec n) (u : CVec n) (lam : SVec n) (s : Side)
    (H : Idx (SBlk n) → Idx (SBlk n) → ℝ) (i : Fin n) : Idx (SBlk n) → Idx (SBlk n) → ℝ :=
  let H := (List.finRange 3).foldl (pointForceHess E x u lam s i) H
  let pz := (vec3 x (.pos s i)).z
  let deltaXYDoubleDerivative := P.δxy.evalDoubleDerivative pz
  let deltaZDoubleDerivative := P.δz.evalDoubleDerivative pz
  let deltaZDerivative := P.δz.evalDerivative pz
  let fz := (vec3 x (.force s i)).z
  let uz := (vec3 u (.forceCtl s i)).z
  let H := put H (.pos s i, 2) (.pos s i, 2)
    (deltaXYDoubleDerivative * ((vec3 lam (.pos s i)).x * (vec3 u (.velCtl s i)).x + (vec3 lam (.pos s i)).y * (vec3 u (.velCtl s i)).y) +
      deltaZDoubleDerivative * (vec3 lam (.force s i)).z * (uz + P.dissipation * fz))
  let H := put H (.pos s i, 2) (.force s i, 2)
    (H (.pos s i, 2) (.force s i, 2) + deltaZDerivative * P.dissipation * (vec3 lam (.force s i)).z)
  put H (.force s i, 2) (.pos s i, 2) (H (.pos s i, 2) (.force s i, 2))

/-- `dynamicsSecondPartialDerivativeWRTState`, lines 535-562. -/
def stateHess (P : Params) (E : Exprs) (x : SVec n) (u : CVec n) (lam : SVec n) (H : Idx (SBlk n) → Idx (SBlk n) → ℝ) :
    Idx (SBlk n) → Idx (SBlk n) → ℝ :=
  let H := (List.finRange 4).foldl (fun H (i : Fin 4) =>
    putBlock H .baseQuat i .baseQuat 0 1 4 (fun _ l =>
      times3 (vec3 lam .basePos) ((E.hess i).ev rpow (env x u 0)).f l)) H
  let H := (List.finRange n).foldl (pointStateHess P E x u lam .left) H
  (List.finRange n).foldl (pointStateHess P E x u lam .right) H

/-- `dynamicsSecondPartialDerivativeWRTControl`, lines 564-567. -/
def ctrlHess (H : Idx (CBlk n) → Idx (CBlk n) → ℝ) : Idx (CBlk n) → Idx (CBlk n) → ℝ := H

/-- Body of the loop of `computeFootRelatedMixedHessian`, lines 214-225. -/
def pointMixedHess (P : Params) (x : SVec n) (lam : SVec n) (s : Side)
    (H : Idx (SBlk n) → Idx (CBlk n) → ℝ) (i : Fin n) : Idx (SBlk n) → Idx (CBlk n) → ℝ :=
  let pz := (vec3 x (.pos s i)).z
  let deltaXYDerivative := P.δxy.evalDerivative pz
  let deltaZDerivative := P.δz.evalDerivative pz
  let H := put H (.pos s i, 2) (.velCtl s i, 0) (deltaXYDerivative * (vec3 lam (.pos s i)).x)
  let H := put H (.pos s i, 2) (.velCtl s i, 1) (deltaXYDerivative * (vec3 lam (.pos s i)).y)
  put H (.pos s i, 2) (.forceCtl s i, 2) (deltaZDerivative * (vec3 lam (.force s i)).z)

/-- `dynamicsSecondPartialDerivativeWRTStateControl`, lines 569-594. -/
def mixedHess (P : Params) (E : Exprs) (x : SVec n) (u : CVec n) (lam : SVec n) (H : Idx (SBlk n) → Idx (CBlk n) → ℝ) :
    Idx (SBlk n) → Idx (CBlk n) → ℝ :=
  let H := (List.finRange 3).foldl (fun H (i : Fin 3) =>
    putBlock H .baseQuat 0 .baseVel i 4 1 (fun k _ =>
      times3 (vec3 lam .basePos) ((E.rot i).ev rpow (env x u 0)).f k)) H
  let H := (List.finRange n).foldl (pointMixedHess P x lam .left) H
  (List.finRange n).foldl (pointMixedHess P x lam .right) H

/-! ### Declared patterns, lines 256-319 -/

/-- `setFootRelatedStateSparsity`, Jacobian part, lines 258-267. -/
def footStateJacPat (s : Side) : Pattern (Idx (SBlk n)) (Idx (SBlk n)) :=
  (List.finRange n).flatMap fun i =>
    diag (seg .momentum 0 3) (seg (.force s i) 0 3) ++ dense (seg .momentum 3 3) (seg (.force s i) 0 3) ++
    dense (seg .momentum 3 3) (seg (.pos s i) 0 3) ++ dense (seg (.pos s i) 0 2) (seg (.pos s i) 2 1) ++
    [((.force s i, 2), (.pos s i, 2))]

/-- `stateJacobianSparsity`, lines 296-304. -/
def stateJacPat : Pattern (Idx (SBlk n)) (Idx (SBlk n)) :=
  footStateJacPat .left ++ footStateJacPat .right ++ dense (seg .momentum 3 3) (seg .com 0 3) ++
    diag (seg .com 0 3) (seg .momentum 0 3) ++ dense (seg .basePos 0 3) (seg .baseQuat 0 4) ++
    dense (seg .baseQuat 0 4) (seg .baseQuat 0 4)

/-- `setFootRelatedControlSparsity`, lines 284-291. -/
def footCtrlJacPat (s : Side) : Pattern (Idx (SBlk n)) (Idx (CBlk n)) :=
  (List.finRange n).flatMap fun i =>
    diag (seg (.force s i) 0 3) (seg (.forceCtl s i) 0 3) ++ diag (seg (.pos s i) 0 3) (seg (.velCtl s i) 0 3)

/-- `controlJacobianSparsity`, lines 306-313. -/
def ctrlJacPat (joints : Nat) : Pattern (Idx (SBlk n)) (Idx (CBlk n)) :=
  footCtrlJacPat .left ++ footCtrlJacPat .right ++ dense (seg .basePos 0 3) (seg .baseVel 0 3) ++
    diag (seg .baseQuat 0 4) (seg .quatDer 0 4) ++ diag (seg .joints 0 joints) (seg .jointVel 0 joints)

/-- `setFootRelatedStateSparsity`, Hessian part, lines 269-274. -/
def footStateHessPat (s : Side) : Pattern (Idx (SBlk n)) (Idx (SBlk n)) :=
  (List.finRange n).flatMap fun i =>
    dense (seg .com 0 3) (seg (.force s i) 0 3) ++ dense (seg (.force s i) 0 3) (seg .com 0 3) ++
    dense (seg (.pos s i) 0 3) (seg (.force s i) 0 3) ++ dense (seg (.force s i) 0 3) (seg (.pos s i) 0 3) ++
    [((.pos s i, 2), (.pos s i, 2))]

/-- `stateHessianSparsity`, lines 269-274, 315. -/
def stateHessPat : Pattern (Idx (SBlk n)) (Idx (SBlk n)) :=
  footStateHessPat .left ++ footStateHessPat .right ++ dense (seg .baseQuat 0 4) (seg .baseQuat 0 4)

/-- `mixedHessianSparsity` of a foot, lines 276-281. -/
def footMixedHessPat (s : Side) : Pattern (Idx (SBlk n)) (Idx (CBlk n)) :=
  (List.finRange n).flatMap fun i =>
    [((.pos s i, 2), (.velCtl s i, 0)), ((.pos s i, 2), (.velCtl s i, 1)), ((.pos s i, 2), (.forceCtl s i, 2))]

/-- `mixedHessianSparsity`, lines 276-281, 316. -/
def mixedHessPat : Pattern (Idx (SBlk n)) (Idx (CBlk n)) :=
  footMixedHessPat .left ++ footMixedHessPat .right ++ dense (seg .baseQuat 0 4) (seg .baseVel 0 3)

/-- `controlHessianSparsity.clear()`, line 319. -/
def ctrlHessPat : Pattern (Idx (CBlk n)) (Idx (CBlk n)) := []

end
end Verif.NLP.Dynamics
