import Verif.Model.StaticTorquesCost
/-
Model of `src/private/FrameOrientationCost.cpp` and `src/private/QuaternionErrorExpression.cpp`.  The caches of the class (`updateDoneOnce...`) are
never enabled (the assignments are commented out).  The buffers of the gradients are zeroed in the constructor and always written at the same
entries: they are zero vectors here.  The velocities left in the shared state by earlier calls do not enter the computations.
-/
namespace Verif.NLP.Kin
open Matrix Verif.Rigid
open Verif.Quaternion (normalizedDerivative errorQuaternion rotationFromQuaternion squaredNorm skew im rowRows)
open Verif.NLP.Dynamics (quatOf rpow)
noncomputable section
variable {n nj : ℕ} {L F : Type} [DecidableEq L] [DecidableEq F] {m : Model L (Fin nj)}

/-- What the constructor is given (lines 82-152); `asQuaternion` is the (external) method of `iDynTree::Rotation`. -/
structure Orientation (m : Model L (Fin nj)) (F : Type) where
  server : Server m F
  frame : F
  asQuaternion : Matrix (Fin 3) (Fin 3) ℝ → Fin 4 → ℝ

namespace Orientation
variable (c : Orientation m F)

/-- `frameTransform.getRotation()`, lines 212, 256. -/
def frameRotation (x : SVec n) : Matrix (Fin 3) (Fin 3) ℝ :=
  (c.server.kin.world (baseTransform x) (jointsOf x) (c.server.frames.link c.frame) * c.server.frames.offset c.frame).R

/-- `quaternionError`, lines 214, 258. -/
def error (Rd : Matrix (Fin 3) (Fin 3) ℝ) (x : SVec n) : Fin 4 → ℝ := errorQuaternion c.asQuaternion (c.frameRotation x) Rd

/-- `identityQuaternion`, line 124. -/
def identity : Fin 4 → ℝ := c.asQuaternion 1

/-- `quaternionDifference`, lines 216-217, 260-261. -/
def difference (Rd : Matrix (Fin 3) (Fin 3) ℝ) (x : SVec n) : Fin 4 → ℝ := c.error Rd x - c.identity

/-- `costBuffer`, line 218: `w` is the weight and `Rd` the desired rotation at the time of the call. -/
def value (w : ℝ) (Rd : Matrix (Fin 3) (Fin 3) ℝ) (x : SVec n) : ℝ := 0.5 * w * squaredNorm (c.difference Rd x)

/-- `iDynTree::Rotation::QuaternionRightTrivializedDerivative` (external): from the angular velocity in the world to the derivative of the
quaternion. -/
def rightTrivialized (q : Fin 4 → ℝ) : Matrix (Fin 4) (Fin 3) ℝ := (1 / 2 : ℝ) • rowRows (-im q) ((q 0) • (1 : Matrix (Fin 3) (Fin 3) ℝ) - skew (im q))

/-- The angular rows of the column of a joint of `getFrameFreeFloatingJacobian(robotState, frame, ..., MIXED_REPRESENTATION)` (external): the angular
velocity of the frame, in the world, when that joint moves with unit velocity.  The columns of the linear velocity of the base are zero and the
ones of its angular velocity are the identity. -/
def angularColumn (x : SVec n) (j : Fin nj) : Vec :=
  c.frameRotation x *ᵥ (c.server.kin.frameVel 0 (jointsOf x) (Pi.single j 1) (c.server.frames.link c.frame) (c.server.frames.offset c.frame)).2

/-- `notNormalizedQuaternionMap`, lines 267-269. -/
def quaternionMap (x : SVec n) : Matrix (Fin 3) (Fin 4) ℝ := rightTrivializedInverse (quatN x) * normalizedDerivative Real.sqrt (quatOf x)

/-- A column of `quaternionErrorPartialDerivative`, lines 280-281, for a column `v` of `frameJacobianTimesMap`. -/
def errorColumn (Rd : Matrix (Fin 3) (Fin 3) ℝ) (x : SVec n) (v : Vec) : Fin 4 → ℝ := (rightTrivialized (c.error Rd x) * Rdᵀ) *ᵥ v

/-- `reducedGradientBuffer`, line 286. -/
def reduced (w : ℝ) (Rd : Matrix (Fin 3) (Fin 3) ℝ) (x : SVec n) (v : Vec) : ℝ := w * (c.errorColumn Rd x v ⬝ᵥ c.difference Rd x)

/-- `stateGradientBuffer`, lines 274-293 (the entries of the position of the base are not written). -/
def gradient (w : ℝ) (Rd : Matrix (Fin 3) (Fin 3) ℝ) (x : SVec n) : Idx (SBlk n) → ℝ :=
  let G := putCols (fun _ => (0 : ℝ)) .baseQuat 4 fun k => c.reduced w Rd x ((1 : Matrix (Fin 3) (Fin 3) ℝ) *ᵥ fun i => quaternionMap x i k)
  putCols G .joints nj fun j => c.reduced w Rd x (c.angularColumn x j)

end Orientation

/-! ### The expressions of the second derivatives -/

/-- The entries of the variables and evaluables in the expressions: the error quaternion, the angular rows of `relativeLeftJacobian(base, frame)`
with their derivatives, `relativeRotation(frame, base)` with its derivatives, the normalised quaternion of the base with its derivatives. -/
inductive OAtom (nj : ℕ) : Type
  | e (i : Fin 4)
  | w (b : Fin 3) (j : Fin nj)
  | w1 (b : Fin 3) (j k : Fin nj)
  | m (b d : Fin 3)
  | m1 (b d : Fin 3) (j : Fin nj)
  | n (i : Fin 4)
  | N (i k : Fin 4)
  | NN (i k l : Fin 4)

/-- The variables the expressions are differentiated by. -/
inductive OVar (nj : ℕ) : Type
  | q (k : Fin 4)
  | joint (j : Fin nj)

/-- `G_Expression`, QuaternionExpressions.cpp:29-37. -/
def oG (q : Fin 4 → OAtom nj) : SMat (OAtom nj) 3 4 :=
  SMat.hcat (c := 1) (SMat.neg fun i _ => .atom (q i.succ))
    (SMat.add (fun i j => .mul (SMat.ident 3 i j) (.atom (q 0))) (SMat.skew (SMat.neg fun i _ => .atom (q i.succ))))

/-- QuaternionErrorExpression.cpp:73-74: the column of a joint of the derivative of the error. -/
def errorByJoint (j : Fin nj) : SMat (OAtom nj) 4 1 := SMat.mul (SMat.smul (.const 0.5) (SMat.transpose (oG .e))) fun b _ => .atom (.w b j)

/-- QuaternionErrorExpression.cpp:78-80: the derivative of the error by the quaternion of the base. -/
def errorByQuaternion : SMat (OAtom nj) 4 4 :=
  SMat.mul (SMat.mul (SMat.mul (SMat.transpose (oG .e)) fun b d => .atom (.m b d)) (oG .n)) fun i k => .atom (.N i k)

/-- The derivatives of the atoms. -/
def oAtomDer : OVar nj → OAtom nj → SExp (OAtom nj)
  | .joint j, .e i => errorByJoint j i 0
  | .q k, .e i => errorByQuaternion i k
  | .joint k, .w b j => .atom (.w1 b j k)
  | .joint j, .m b d => .atom (.m1 b d j)
  | .q k, .n i => .atom (.N i k)
  | .q l, .N i k => .atom (.NN i k l)
  | _, _ => .const 0

/-- `getColumnDerivative(0, variable)`, one column. -/
def oder (d : OVar nj) (e : SExp (OAtom nj)) : SExp (OAtom nj) := e.der (oAtomDer d)

namespace Orientation
variable (c : Orientation m F)

/-- `quaternionDifference`, line 134. -/
def differenceE (i : Fin 4) : SExp (OAtom nj) := .add (.atom (.e i)) (.neg (.const (c.identity i)))

/-- `quaternionDerivative` and `jointsDerivative`, lines 137-138: `w` is the value of `timeWeightVariable`. -/
def derivativeE (w : ℝ) (d : OVar nj) : SExp (OAtom nj) := .mul (.const w) (.sum fun i => .mul (c.differenceE i) (oder d (c.differenceE i)))

/-- The values of the atoms, after `expressionsServer->updateRobotState(time)` (line 318): `desired` is the value of the variable that the
expression of the error refers to (QuaternionErrorExpression.cpp:50-62). -/
def oVal (E : NormExprs) (left : Leftover nj) (desired : Fin 4 → ℝ) (x : SVec n) (u : CVec n) : OAtom nj → ℝ
  | .e i => errorQuaternion c.asQuaternion (c.frameRotation x) (rotationFromQuaternion desired) i
  | .w b j => (c.server.veval (left.state x) (c.server.jacobianColumn c.server.baseFrame c.frame j)).2 b
  | .w1 b j k => (c.server.veval (left.state x) (c.server.vderiv (.position k) (c.server.jacobianColumn c.server.baseFrame c.frame j))).2 b
  | .m b d => (c.server.eval (jointsOf x) (.adj c.frame c.server.baseFrame) (unit3 d, 0)).1 b
  | .m1 b d j => (c.server.eval (jointsOf x) (c.server.deriv j (.adj c.frame c.server.baseFrame)) (unit3 d, 0)).1 b
  | .n i => quatN x i
  | .N i k => (E.jac.ev rpow (Dynamics.env x u 0)).f i k
  | .NN i k l => ((E.hess k).ev rpow (Dynamics.env x u 0)).f i l

/-- `hessianMap.block(offset(b), offset(c), k, l) = A`. -/
def putBlock {B C : Type} [DecidableEq B] [DecidableEq C] {k l : ℕ} (H : Idx B → Idx C → ℝ) (b : B) (d : C) (A : Fin k → Fin l → ℝ) : Idx B → Idx C → ℝ :=
  fun p q => if h : (p.1 = b ∧ p.2 < k) ∧ q.1 = d ∧ q.2 < l then A ⟨p.2, h.1.2⟩ ⟨q.2, h.2.2⟩ else H p q

/-- `costSecondPartialDerivativeWRTState`, lines 342-353. -/
def hessian (w : ℝ) (v : OAtom nj → ℝ) (H : Idx (SBlk n) → Idx (SBlk n) → ℝ) : Idx (SBlk n) → Idx (SBlk n) → ℝ :=
  let H := putBlock H .baseQuat .baseQuat fun k l : Fin 4 => (oder (.q l) (c.derivativeE w (.q k))).eval v
  let H := putBlock H .joints .joints fun j k : Fin nj => (oder (.joint k) (c.derivativeE w (.joint j))).eval v
  let mixed : Fin 4 → Fin nj → ℝ := fun k j => (oder (.joint j) (c.derivativeE w (.q k))).eval v
  let H := putBlock H .baseQuat .joints mixed
  putBlock H .joints .baseQuat fun j k => mixed k j

/-- The cost at a time at which the weight is `w` and the desired rotation `Rd`; the declared second derivatives are in lines 144-150. -/
def cost (E : NormExprs) (left : Leftover nj) (w : ℝ) (Rd : Matrix (Fin 3) (Fin 3) ℝ) : Cost (Idx (SBlk n)) (Idx (CBlk n)) where
  value x _ := c.value w Rd x
  stateGrad x _ _ := c.gradient w Rd x
  ctrlGrad _ _ _ := fun _ => 0
  stateHess x u H := c.hessian w (c.oVal E left (c.asQuaternion Rd) x u) H
  ctrlHess _ _ H := H
  mixedHess _ _ H := H
  stateHessPat := dense (seg .baseQuat 0 4) (seg .baseQuat 0 4) ++ dense (seg .baseQuat 0 4) (seg .joints 0 nj) ++
    dense (seg .joints 0 nj) (seg .baseQuat 0 4) ++ dense (seg .joints 0 nj) (seg .joints 0 nj)
  ctrlHessPat := []
  mixedHessPat := []

end Orientation

/-! ### The calls -/

/-- A time varying object: the value, or none when it is not valid at that time. -/
abbrev TimeVarying (V : Type) := ℝ → Option V

/-- The members that the setters replace: lines 122-123 for the defaults, 163-180 for the setters. -/
structure OrientationRef where
  desired : TimeVarying (Matrix (Fin 3) (Fin 3) ℝ) := fun _ => some 1
  weight : TimeVarying ℝ := fun _ => some 1

/-- `setDesiredRotation`, lines 163-166. -/
def OrientationRef.setDesiredRotation (r : OrientationRef) (R : Matrix (Fin 3) (Fin 3) ℝ) : OrientationRef := { r with desired := fun _ => some R }
/-- `setDesiredRotationTrajectory`, lines 168-174: `none` is the null pointer. -/
def OrientationRef.setDesiredRotationTrajectory (r : OrientationRef) (d : Option (TimeVarying (Matrix (Fin 3) (Fin 3) ℝ))) : OrientationRef × Bool :=
  match d with
  | none => (r, false)
  | some d => ({ r with desired := d }, true)
/-- `setTimeVaryingWeight`, lines 176-180. -/
def OrientationRef.setTimeVaryingWeight (r : OrientationRef) (w : TimeVarying ℝ) : OrientationRef := { r with weight := w }

/-- What the methods that depend on the time use: the call fails when the rotation or the weight are not valid, lines 193-209, 237-253, 320-335. -/
def Orientation.atTime (c : Orientation m F) (E : NormExprs) (left : Leftover nj) (r : OrientationRef) (t : ℝ) : Option (Cost (Idx (SBlk n)) (Idx (CBlk n))) :=
  match r.desired t with
  | none => none
  | some Rd =>
    match r.weight t with
    | none => none
    | some w => some (c.cost E left w Rd)

/-! ### The memory of the expressions of the errors -/

/-- The costs that share a server: `memo` is `quaternionsErrorsMap` (for each frame, the cost whose variable the expression refers to), `vars` the
values of the variables `desiredQuaternion` of the costs, `frames` the frames of the costs made so far. -/
structure OrientationPool (F : Type) where
  memo : F → Option ℕ
  vars : ℕ → Fin 4 → ℝ
  frames : List F

/-- The calls: `make f` constructs one more cost, on the frame `f`; `hessian i R` evaluates the second derivatives of the cost number `i` when its
desired rotation is `R`. -/
inductive OrientationCall (F : Type)
  | make (f : F)
  | hessian (i : ℕ) (R : Matrix (Fin 3) (Fin 3) ℝ)

/-- ExpressionsServer.cpp:514-528 (the variable is not looked at when the frame is in the map) and FrameOrientationCost.cpp:337. -/
def OrientationPool.step (asQ : Matrix (Fin 3) (Fin 3) ℝ → Fin 4 → ℝ) (p : OrientationPool F) : OrientationCall F → OrientationPool F
  | .make f => { p with
      memo := match p.memo f with | some _ => p.memo | none => Function.update p.memo f (some p.frames.length)
      frames := p.frames ++ [f] }
  | .hessian i R => { p with vars := Function.update p.vars i (asQ R) }

/-- The desired quaternion that the second derivatives of the cost number `i` see. -/
def OrientationPool.seen (p : OrientationPool F) (i : ℕ) : Option (Fin 4 → ℝ) :=
  match p.frames[i]? with
  | none => none
  | some f => (p.memo f).map p.vars

end
end Verif.NLP.Kin
