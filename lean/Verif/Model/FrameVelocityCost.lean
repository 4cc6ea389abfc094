import Verif.Model.FrameOrientationCost
/-
Model of `src/private/FrameAngularVelocityCost.cpp`.  The buffers of the gradients are zeroed in the constructor and always written at the same
entries: they are zero vectors here.  The expressions of the server are evaluated after `expressionsServer->updateRobotState(time)`, with the state
that `updateRobotState()` (lines 46-61) has just given to the shared `KinDynComputations`.
-/
namespace Verif.NLP.Kin
open Matrix Verif.Rigid
open Verif.Quaternion (im skew)
open Verif.NLP.Dynamics (quatOf velOf rpow)
noncomputable section
variable {n nj : ℕ} {L F : Type} [DecidableEq L] [DecidableEq F] {m : Model L (Fin nj)}

/-- The robot state that is given to the shared computations: the configuration is the one of the state `x`, the velocities are the ones already
there (`robotState = sharedKinDyn->currentState()`, line 48; the control variables are not used), written here as a control vector. -/
abbrev Velocities (n : ℕ) := CVec n

/-- `baseTwist` of the server, ExpressionsServer.cpp:80-83. -/
def serverTwist (x : SVec n) (v : Velocities n) : Spatial :=
  (velOf v, (2 : ℝ) • ((-(quatVelOf v 0)) • im (quatN x) + ((quatN x 0) • (1 : Matrix (Fin 3) (Fin 3) ℝ) + skew (im (quatN x))) *ᵥ im (quatVelOf v)))

/-- The state the expressions are evaluated with. -/
def serverState (x : SVec n) (v : Velocities n) : KState (Fin nj) := ⟨baseTwist x v, serverTwist x v, jointsOf x, jointVelOf v⟩

/-! ### The expressions -/

/-- The entries of the variables and evaluables in the expressions: `p` are those of `baseRotation()` and of `relativeRotation(base, frame)` with
their derivatives, `a` the angular rows of `absoluteVelocity(frame)` with their derivatives, `n` the normalised quaternion with its derivatives,
`qd` the variable `baseQuaternionVelocity`. -/
inductive VAtom (nj : ℕ) : Type
  | p (a : PAtom nj)
  | a (b : Fin 3)
  | a1 (b : Fin 3) (d : KVar (Fin nj))
  | a2 (b : Fin 3) (d d' : KVar (Fin nj))
  | n (i : Fin 4)
  | N (i k : Fin 4)
  | NN (i k l : Fin 4)
  | qd (k : Fin 4)

/-- The variables the expressions are differentiated by: the quaternion of the base, the joints, the derivative of the quaternion, the velocities of
the joints. -/
inductive VVar (nj : ℕ) : Type
  | q (k : Fin 4)
  | joint (j : Fin nj)
  | qd (k : Fin 4)
  | w (j : Fin nj)

/-- An expression in the entries of the rotations. -/
def liftP : SExp (PAtom nj) → SExp (VAtom nj)
  | .const r => .const r
  | .atom a => .atom (.p a)
  | .add e f => .add (liftP e) (liftP f)
  | .mul e f => .mul (liftP e) (liftP f)
  | .neg e => .neg (liftP e)
  | .sum f => .sum fun i => liftP (f i)

/-- The derivatives of the atoms that do not depend on the base twist. -/
def vLeaf : VVar nj → VAtom nj → SExp (VAtom nj)
  | .q k, .p a => liftP (pAtomDer (.q k) a)
  | .joint j, .p a => liftP (pAtomDer (.joint j) a)
  | .q k, .n i => .atom (.N i k)
  | .q l, .N i k => .atom (.NN i k l)
  | .qd k, .qd k' => .const (if k = k' then 1 else 0)
  | _, _ => .const 0

/-- `angularVelocity`, ExpressionsServer.cpp:80-81. -/
def angularE : SMat (VAtom nj) 3 1 :=
  let minusQuaternion : SMat (VAtom nj) 3 1 := SMat.neg fun i _ => .atom (.n i.succ)
  SMat.smul (.const 2) (SMat.add (SMat.mul minusQuaternion fun (_ : Fin 1) _ => .atom (.qd 0))
    (SMat.mul (SMat.add (SMat.smul (.atom (.n 0)) (SMat.ident 3)) (SMat.neg (SMat.skew minusQuaternion))) fun k _ => .atom (.qd k.succ)))

/-- The angular rows of `baseTwist.getColumnDerivative(0, variable)` (the linear ones are null for these variables). -/
def angularDer (d : VVar nj) (i : Fin 3) : SExp (VAtom nj) := (angularE i 0).der (vLeaf d)

/-- The derivatives of all the atoms; for the absolute velocity AbsoluteVelocityExpression.cpp:75-88 (the product of the adjoint with the derivative
of the base twist is written row by row) and, for the derivative with respect to the joints, the rules of levi on its columns (lines 132-161). -/
def vAtomDer (d : VVar nj) : VAtom nj → SExp (VAtom nj)
  | .a b =>
    match d with
    | .joint j => .atom (.a1 b (.position j))
    | .w j => .atom (.a1 b (.velocity j))
    | d => .sum fun k : Fin 3 => .mul (angularDer d k) (.atom (.a1 b (.twist (0, unit3 k))))
  | .a1 b e =>
    match d with
    | .joint j => .atom (.a2 b e (.position j))
    | .w j => .atom (.a2 b e (.velocity j))
    | d => .sum fun k : Fin 3 => .mul (angularDer d k) (.atom (.a2 b e (.twist (0, unit3 k))))
  | a => vLeaf d a

/-- `getColumnDerivative(0, variable)`, one column. -/
def vder (d : VVar nj) (e : SExp (VAtom nj)) : SExp (VAtom nj) := e.der (vAtomDer d)

/-- `rotationErrorExpression`, lines 67-70: `Rd` is the value of `desiredRotation`, a `levi::Mutable`. -/
def rotationErrorE (Rd : Matrix (Fin 3) (Fin 3) ℝ) : SMat (VAtom nj) 3 3 :=
  SMat.mul (SMat.mul (fun a b => .atom (.p (.R a b))) fun b e => .atom (.p (.m b e))) (SMat.transpose fun i j => .const (Rd i j))

/-- `skewError`, line 72. -/
def skewErrorE (Rd : Matrix (Fin 3) (Fin 3) ℝ) : SMat (VAtom nj) 3 3 :=
  SMat.smul (.const 0.5) (SMat.add (rotationErrorE Rd) (SMat.neg (SMat.transpose (rotationErrorE Rd))))

/-- `vee`, levi OperatorsEvaluables.h:1030-1037. -/
def veeE (M : SMat (VAtom nj) 3 3) : Fin 3 → SExp (VAtom nj)
  | 0 => M 2 1
  | 1 => M 0 2
  | 2 => M 1 0

/-- `velocityError`, line 74. -/
def velocityErrorE (gain : ℝ) (Rd : Matrix (Fin 3) (Fin 3) ℝ) (i : Fin 3) : SExp (VAtom nj) :=
  .add (.atom (.a i)) (.mul (.const gain) (veeE (skewErrorE Rd) i))

/-- `asExpression`, line 76. -/
def velocityCostE (gain : ℝ) (Rd : Matrix (Fin 3) (Fin 3) ℝ) : SExp (VAtom nj) :=
  .sum fun i => .mul (.mul (.const 0.5) (velocityErrorE gain Rd i)) (velocityErrorE gain Rd i)

/-- `quaternionDerivative`, `jointsDerivative`, `baseQuaternionVelocityDerivative`, `jointsVelocityDerivative`, lines 78-81. -/
def velocityDerivativeE (gain : ℝ) (Rd : Matrix (Fin 3) (Fin 3) ℝ) (d : VVar nj) : SExp (VAtom nj) :=
  .sum fun i => .mul (velocityErrorE gain Rd i) (vder d (velocityErrorE gain Rd i))

/-- What the constructor is given (lines 97-150). -/
structure AngularVelocity (m : Model L (Fin nj)) (F : Type) where
  server : Server m F
  frame : F
  gain : ℝ

/-- No velocities: the entries of the rotations do not depend on them. -/
def Leftover.zero : Leftover nj := ⟨0, 0, 0⟩

namespace AngularVelocity
variable (c : AngularVelocity m F)

/-- The values of the atoms. -/
def vVal (RE : RotExprs) (E : NormExprs) (x : SVec n) (v : Velocities n) : VAtom nj → ℝ
  | .p a => pVal RE (contactInner c.server c.frame Leftover.zero) x v a
  | .a b => (c.server.veval (serverState x v) (.absVel c.frame)).2 b
  | .a1 b d => (c.server.veval (serverState x v) (c.server.vderiv d (.absVel c.frame))).2 b
  | .a2 b d d' => (c.server.veval (serverState x v) (c.server.vderiv d' (c.server.vderiv d (.absVel c.frame)))).2 b
  | .n i => quatN x i
  | .N i k => (E.jac.ev rpow (Dynamics.env x v 0)).f i k
  | .NN i k l => ((E.hess k).ev rpow (Dynamics.env x v 0)).f i l
  | .qd k => v (.quatDer, k)

/-- `stateGradientBuffer`, lines 224-230. -/
def stateGradient (Rd : Matrix (Fin 3) (Fin 3) ℝ) (v : VAtom nj → ℝ) : Idx (SBlk n) → ℝ :=
  let G := putCols (fun _ => (0 : ℝ)) .baseQuat 4 fun k => (velocityDerivativeE c.gain Rd (.q k)).eval v
  putCols G .joints nj fun j => (velocityDerivativeE c.gain Rd (.joint j)).eval v

/-- `controlGradientBuffer`, lines 257-263. -/
def controlGradient (Rd : Matrix (Fin 3) (Fin 3) ℝ) (v : VAtom nj → ℝ) : Idx (CBlk n) → ℝ :=
  let G := putCols (fun _ => (0 : ℝ)) .quatDer 4 fun k => (velocityDerivativeE c.gain Rd (.qd k)).eval v
  putCols G .jointVel nj fun j => (velocityDerivativeE c.gain Rd (.w j)).eval v

/-- `costSecondPartialDerivativeWRTState`, lines 291-305. -/
def stateHessian (Rd : Matrix (Fin 3) (Fin 3) ℝ) (v : VAtom nj → ℝ) (H : Idx (SBlk n) → Idx (SBlk n) → ℝ) : Idx (SBlk n) → Idx (SBlk n) → ℝ :=
  let H := Orientation.putBlock H .baseQuat .baseQuat fun k l : Fin 4 => (vder (.q l) (velocityDerivativeE c.gain Rd (.q k))).eval v
  let H := Orientation.putBlock H .joints .joints fun j k : Fin nj => (vder (.joint k) (velocityDerivativeE c.gain Rd (.joint j))).eval v
  let mixed : Fin 4 → Fin nj → ℝ := fun k j => (vder (.joint j) (velocityDerivativeE c.gain Rd (.q k))).eval v
  let H := Orientation.putBlock H .baseQuat .joints mixed
  Orientation.putBlock H .joints .baseQuat fun j k => mixed k j

/-- `costSecondPartialDerivativeWRTStateControl`, lines 337-351. -/
def mixedHessian (Rd : Matrix (Fin 3) (Fin 3) ℝ) (v : VAtom nj → ℝ) (H : Idx (SBlk n) → Idx (CBlk n) → ℝ) : Idx (SBlk n) → Idx (CBlk n) → ℝ :=
  let H := Orientation.putBlock H .baseQuat .quatDer fun k l : Fin 4 => (vder (.qd l) (velocityDerivativeE c.gain Rd (.q k))).eval v
  let H := Orientation.putBlock H .baseQuat .jointVel fun (k : Fin 4) (j : Fin nj) => (vder (.w j) (velocityDerivativeE c.gain Rd (.q k))).eval v
  let H := Orientation.putBlock H .joints .quatDer fun (j : Fin nj) (k : Fin 4) => (vder (.qd k) (velocityDerivativeE c.gain Rd (.joint j))).eval v
  Orientation.putBlock H .joints .jointVel fun j k : Fin nj => (vder (.w k) (velocityDerivativeE c.gain Rd (.joint j))).eval v

/-- The cost at a time at which the desired rotation is `Rd`: `velocities u` are the velocities the shared computations hold during a call with the
control `u`.  The declared second derivatives are in lines 138-148; the second derivatives with respect to the control are not written (lines
308-312). -/
def costWith (RE : RotExprs) (E : NormExprs) (velocities : CVec n → Velocities n) (Rd : Matrix (Fin 3) (Fin 3) ℝ) : Cost (Idx (SBlk n)) (Idx (CBlk n)) where
  value x u := (velocityCostE c.gain Rd).eval (c.vVal RE E x (velocities u))
  stateGrad x u _ := c.stateGradient Rd (c.vVal RE E x (velocities u))
  ctrlGrad x u _ := c.controlGradient Rd (c.vVal RE E x (velocities u))
  stateHess x u H := c.stateHessian Rd (c.vVal RE E x (velocities u)) H
  ctrlHess _ _ H := H
  mixedHess x u H := c.mixedHessian Rd (c.vVal RE E x (velocities u)) H
  stateHessPat := dense (seg .baseQuat 0 4) (seg .baseQuat 0 4) ++ dense (seg .baseQuat 0 4) (seg .joints 0 nj) ++
    dense (seg .joints 0 nj) (seg .baseQuat 0 4) ++ dense (seg .joints 0 nj) (seg .joints 0 nj)
  ctrlHessPat := []
  mixedHessPat := dense (seg .baseQuat 0 4) (seg .quatDer 0 4) ++ dense (seg .baseQuat 0 4) (seg .jointVel 0 nj) ++
    dense (seg .joints 0 nj) (seg .quatDer 0 4) ++ dense (seg .joints 0 nj) (seg .jointVel 0 nj)

/-- The cost as it is: the velocities are the ones left in the shared computations, whatever the control. -/
def cost (RE : RotExprs) (E : NormExprs) (left : Velocities n) (Rd : Matrix (Fin 3) (Fin 3) ℝ) : Cost (Idx (SBlk n)) (Idx (CBlk n)) :=
  c.costWith RE E (fun _ => left) Rd

end AngularVelocity

/-! ### The reference -/

/-- `desiredTrajectory`, line 134 for the default. -/
abbrev VelocityRef := TimeVarying (Matrix (Fin 3) (Fin 3) ℝ)

/-- The default, line 134. -/
def VelocityRef.initial : VelocityRef := fun _ => some 1

/-- `setDesiredRotationTrajectory`, lines 168-174: `none` is the null pointer. -/
def VelocityRef.set (r : VelocityRef) (d : Option (TimeVarying (Matrix (Fin 3) (Fin 3) ℝ))) : VelocityRef × Bool :=
  match d with
  | none => (r, false)
  | some d => (d, true)

/-- What the methods use at a time; they fail when the rotation is not valid (lines 189-193, 216-220, 249-253, 283-287, 329-333).  The method of the
second derivatives with respect to the control always succeeds. -/
def AngularVelocity.atTime (c : AngularVelocity m F) (RE : RotExprs) (E : NormExprs) (left : Velocities n) (r : VelocityRef) (t : ℝ) :
    Option (Cost (Idx (SBlk n)) (Idx (CBlk n))) :=
  (r t).map (c.cost RE E left)

end
end Verif.NLP.Kin
