import Verif.Model.CentroidalMomentum
/-
Model of `src/private/CoMPositionConstraint.cpp`, `ContactPositionConsistencyConstraint.cpp` and `FeetLateralDistanceConstraint.cpp`.
The caches of the classes (`updateDoneOnce...`) are never enabled (the assignments are commented out), so every call computes again.  The buffers of
the Jacobians are zeroed in the constructors and always written at the same entries: they are zero matrices here.
The classes copy the state stored in the shared `KinDynComputations` and replace the positions only: the velocities are whatever earlier calls left.
-/
namespace Verif.NLP.Kin
open Matrix Verif.Rigid
open Verif.Quaternion (normalizedDerivative)
open Verif.NLP.Dynamics (quatOf rpow rotE)
noncomputable section
variable {n nj : ℕ} {L F : Type} [DecidableEq L] [DecidableEq F] {m : Model L (Fin nj)}

/-- The velocities left by earlier calls, `robotState = sharedKinDyn->currentState()`. -/
structure Leftover (nj : ℕ) where
  stateVel : Spatial
  twist : Spatial
  dq : Fin nj → ℝ

/-- The state of the robot the expressions are evaluated with. -/
def Leftover.state (w : Leftover nj) (x : SVec n) : KState (Fin nj) := ⟨w.stateVel, w.twist, jointsOf x, w.dq⟩

/-! ### The expressions -/

/-- The entries of the variables and evaluables in the expressions: the position of the base, its rotation (`baseRotation`,
ExpressionsServer.cpp:71-76) with its derivatives, a point in the base and a rotation in the base with their derivatives. -/
inductive PAtom (nj : ℕ) : Type
  | base (i : Fin 3)
  | R (a b : Fin 3)
  | R1 (a b : Fin 3) (k : Fin 4)
  | R2 (a b : Fin 3) (k l : Fin 4)
  | c (b : Fin 3)
  | c1 (b : Fin 3) (j : Fin nj)
  | c2 (b : Fin 3) (j k : Fin nj)
  | m (b e : Fin 3)
  | m1 (b e : Fin 3) (j : Fin nj)
  | m2 (b e : Fin 3) (j k : Fin nj)

/-- The variables (the code does not differentiate by the position of the base). -/
inductive PVar (nj : ℕ) : Type
  | q (k : Fin 4)
  | joint (j : Fin nj)
  | base (i : Fin 3)

/-- The derivatives of the atoms. -/
def pAtomDer : PVar nj → PAtom nj → SExp (PAtom nj)
  | .q k, .R a b => .atom (.R1 a b k)
  | .q l, .R1 a b k => .atom (.R2 a b k l)
  | .joint j, .c b => .atom (.c1 b j)
  | .joint k, .c1 b j => .atom (.c2 b j k)
  | .joint j, .m b e => .atom (.m1 b e j)
  | .joint k, .m1 b e j => .atom (.m2 b e j k)
  | .base i, .base i' => .const (if i = i' then 1 else 0)
  | _, _ => .const 0

/-- `getColumnDerivative(0, variable)`, one column. -/
def pder (d : PVar nj) (e : SExp (PAtom nj)) : SExp (PAtom nj) := e.der (pAtomDer d)

/-- `worldToBase().position()` and `worldToBase().rotation()`, ExpressionsServer.cpp:90. -/
def basePosE : SMat (PAtom nj) 3 1 := fun i _ => .atom (.base i)
def baseRotE : SMat (PAtom nj) 3 3 := fun a b => .atom (.R a b)

/-- `worldToBase() * comInBase()`, CoMPositionConstraint.cpp:152 and TransformExpression.cpp:54-57. -/
def comPositionE : SMat (PAtom nj) 3 1 := SMat.add basePosE (SMat.mul baseRotE fun b _ => .atom (.c b))

/-- `worldToBase() * relativeTransform(base, foot) * positionInFoot`, ContactPositionConsistencyConstraint.cpp:189-194 and
TransformExpression.cpp:54-57, 65-68. -/
def contactPositionE (p : Vec) : SMat (PAtom nj) 3 1 :=
  SMat.add (SMat.add basePosE (SMat.mul baseRotE fun b _ => .atom (.c b)))
    (SMat.mul (SMat.mul baseRotE fun b e => .atom (.m b e)) fun e _ => .const (p e))

/-- What levi answers for the derivatives of the columns of `baseRotation` and for the derivatives of the columns of these. -/
structure RotExprs where
  jac : Fin 3 → Levi.Ex ℝ
  hess : Fin 3 → Fin 4 → Levi.Ex ℝ

/-- The expressions are the ones levi answers. -/
def RotExprs.Made (cfg : Levi.Ex.Cfg ℝ) (E : RotExprs) : Prop :=
  (∀ b : Fin 3, ∃ m, Levi.Ex.D cfg m (Levi.Ex.build cfg rotE) b Levi.Quat.q = some (E.jac b)) ∧
  ∀ (b : Fin 3) (k : Fin 4), ∃ m, Levi.Ex.D cfg m (E.jac b) k Levi.Quat.q = some (E.hess b k)

/-- The values of the point and of the columns of the rotation in the base, with their derivatives. -/
structure Inner (n nj : ℕ) where
  c : SVec n → Vec
  c1 : SVec n → Fin nj → Vec
  c2 : SVec n → Fin nj → Fin nj → Vec
  m : SVec n → Fin 3 → Vec
  m1 : SVec n → Fin 3 → Fin nj → Vec
  m2 : SVec n → Fin 3 → Fin nj → Fin nj → Vec

/-- The centre of mass (C63); no rotation.  `fuel` bounds the recursion of the second derivatives. -/
def comInner (s : Server m F) (fuel : ℕ) (w : Leftover nj) : Inner n nj where
  c x := s.comInBase (baseTransform x) (jointsOf x)
  c1 x j := s.comInBaseJacobian (baseTransform x) (jointsOf x) j
  c2 x j k := (s.veval (w.state x) (s.comHessianCols (fuel + 1) j k)).1
  m _ _ := 0
  m1 _ _ _ := 0
  m2 _ _ _ _ := 0

/-- `relativePosition` and `relativeRotation` (the first block of the adjoint transform, ExpressionsServer.cpp:390-424) of the foot in the base. -/
def contactInner (s : Server m F) (foot : F) (w : Leftover nj) : Inner n nj where
  c x := s.relativePosition (w.state x) s.baseFrame foot
  c1 x j := s.relativePositionJacobian (w.state x) s.baseFrame foot j
  c2 x j k := s.relativePositionHessian (w.state x) s.baseFrame foot j k
  m x e := (s.eval (jointsOf x) (.adj s.baseFrame foot) (unit3 e, 0)).1
  m1 x e j := (s.eval (jointsOf x) (s.deriv j (.adj s.baseFrame foot)) (unit3 e, 0)).1
  m2 x e j k := (s.eval (jointsOf x) (s.deriv k (s.deriv j (.adj s.baseFrame foot))) (unit3 e, 0)).1

/-- The values of the atoms, after `expressionsServer->updateRobotState(time)`. -/
def pVal (E : RotExprs) (I : Inner n nj) (x : SVec n) (u : CVec n) : PAtom nj → ℝ
  | .base i => x (.basePos, i)
  | .R a b => (rotE.ev rpow (Dynamics.env x u 0)).f a b
  | .R1 a b k => ((E.jac b).ev rpow (Dynamics.env x u 0)).f a k
  | .R2 a b k l => ((E.hess b k).ev rpow (Dynamics.env x u 0)).f a l
  | .c b => I.c x b
  | .c1 b j => I.c1 x j b
  | .c2 b j k => I.c2 x j k b
  | .m b e => I.m x e b
  | .m1 b e j => I.m1 x e j b
  | .m2 b e j k => I.m2 x e j k b

/-- `hessianMap.block(row, offset(c), 1, k) = A`. -/
def putRow {B C : Type} [DecidableEq B] [DecidableEq C] {k : ℕ} (H : Idx B → Idx C → ℝ) (p : Idx B) (c : C) (A : Fin k → ℝ) : Idx B → Idx C → ℝ :=
  fun p' q => if h : p' = p ∧ q.1 = c ∧ q.2 < k then A ⟨q.2, h.2.2⟩ else H p' q

/-- `hessianMap.block(offset(b), column, k, 1) = A`. -/
def putCol {B C : Type} [DecidableEq B] [DecidableEq C] {k : ℕ} (H : Idx B → Idx C → ℝ) (b : B) (q : Idx C) (A : Fin k → ℝ) : Idx B → Idx C → ℝ :=
  fun p q' => if h : (p.1 = b ∧ p.2 < k) ∧ q' = q then A ⟨p.2, h.1.2⟩ else H p q'

/-- One step of the first loop, CoMPositionConstraint.cpp:266-282 and ContactPositionConsistencyConstraint.cpp:356-372. -/
def quatStep (e : SMat (PAtom nj) 3 1) (v : PAtom nj → ℝ) (lam : Fin 3 → ℝ) (H : Idx (SBlk n) → Idx (SBlk n) → ℝ) (i : Fin 4) :
    Idx (SBlk n) → Idx (SBlk n) → ℝ :=
  let H := putRow H (.baseQuat, i) .baseQuat fun l : Fin 4 => ∑ a, lam a * (pder (.q l) (pder (.q i) (e a 0))).eval v
  let jointsMap : Fin nj → ℝ := fun j => ∑ a, (pder (.joint j) (pder (.q i) (e a 0))).eval v * lam a
  let H := putRow H (.baseQuat, i) .joints jointsMap
  putCol H .joints (.baseQuat, i) jointsMap

/-- One step of the second loop, CoMPositionConstraint.cpp:284-290 and ContactPositionConsistencyConstraint.cpp:374-380. -/
def jointStep (e : SMat (PAtom nj) 3 1) (v : PAtom nj → ℝ) (lam : Fin 3 → ℝ) (H : Idx (SBlk n) → Idx (SBlk n) → ℝ) (i : Fin nj) :
    Idx (SBlk n) → Idx (SBlk n) → ℝ :=
  putCol H .joints (.joints, i) fun k : Fin nj => ∑ a, (pder (.joint k) (pder (.joint i) (e a 0))).eval v * lam a

/-- The two loops. -/
def pointHess (e : SMat (PAtom nj) 3 1) (v : PAtom nj → ℝ) (lam : Fin 3 → ℝ) (H : Idx (SBlk n) → Idx (SBlk n) → ℝ) : Idx (SBlk n) → Idx (SBlk n) → ℝ :=
  (List.finRange nj).foldl (jointStep e v lam) ((List.finRange 4).foldl (quatStep e v lam) H)

/-- The second derivatives declared, CoMPositionConstraint.cpp:97-100 and ContactPositionConsistencyConstraint.cpp:115-118. -/
def pointHessPat (n nj : ℕ) : List (Idx (SBlk n) × Idx (SBlk n)) :=
  dense (seg .baseQuat 0 4) (seg .baseQuat 0 4) ++ dense (seg .baseQuat 0 4) (seg .joints 0 nj) ++
    dense (seg .joints 0 nj) (seg .baseQuat 0 4) ++ dense (seg .joints 0 nj) (seg .joints 0 nj)

/-! ### The position of the centre of mass -/

/-- `iDynTree::Rotation::QuaternionRightTrivializedDerivativeInverse` (external): from the derivative of the quaternion to the angular velocity in
the world. -/
def rightTrivializedInverse (q : Fin 4 → ℝ) : Matrix (Fin 3) (Fin 4) ℝ :=
  !![-2 * q 1, 2 * q 0, -2 * q 3, 2 * q 2;
     -2 * q 2, 2 * q 3, 2 * q 0, -2 * q 1;
     -2 * q 3, -2 * q 2, 2 * q 1, 2 * q 0]

/-- The angular columns of `getCenterOfMassJacobian(robotState, ..., MIXED_REPRESENTATION)` (external): the velocity of the centre of mass when
the base turns. -/
def comJacobianAngular (s : Server m F) (x : SVec n) (i : Fin 3) : Vec := unit3 i ⨯₃ (comPos s x - basePosOf x)

/-- `stateJacobianBuffer`, CoMPositionConstraint.cpp:199-212. -/
def comPositionJac (s : Server m F) (x : SVec n) : Idx (SBlk n) → Vec :=
  let map := rightTrivializedInverse (quatN x) * normalizedDerivative Real.sqrt (quatOf x)
  let J := putCols (fun _ => (0 : Vec)) .basePos 3 unit3
  let J := putCols J .baseQuat 4 fun k => ∑ i, map i k • comJacobianAngular s x i
  let J := putCols J .joints nj fun j => s.kin.comJacobian (baseTransform x) (jointsOf x) j
  let J := putCols J .com 3 unit3
  scaleCols J .com 3 (-1)

/-- The constraint: value lines 170-187, Jacobians 189-224, second derivatives 248-309, patterns 83-103, bounds 121-124 and 162-168 (`tol` is the
tolerance given to `setEqualityTolerance`, zero before). -/
def comPositionConstraint (s : Server m F) (E : RotExprs) (fuel : ℕ) (w : Leftover nj) (tol : ℝ) : Constraint (Idx (SBlk n)) (Idx (CBlk n)) 3 where
  value x _ := comPos s x - fun i : Fin 3 => x (.com, (i : ℕ))
  stateJac x _ _ := fun i p => comPositionJac s x p i
  ctrlJac _ _ _ := fun _ _ => 0
  stateHess x u lam H := pointHess comPositionE (pVal E (comInner s fuel w) x u) lam H
  ctrlHess _ _ _ H := H
  mixedHess _ _ _ H := H
  stateJacPat := diag (List.finRange 3) (seg .basePos 0 3) ++ dense (List.finRange 3) (seg .baseQuat 0 4) ++
    dense (List.finRange 3) (seg .joints 0 nj) ++ diag (List.finRange 3) (seg .com 0 3)
  ctrlJacPat := []
  stateHessPat := pointHessPat n nj
  ctrlHessPat := []
  mixedHessPat := []
  lower := some fun _ => -tol / 2
  upper := some fun _ => tol / 2

/-! ### The position of a contact point -/

/-- `stateJacobianBuffer`, ContactPositionConsistencyConstraint.cpp:286-300. -/
def contactPositionJac (E : RotExprs) (I : Inner n nj) (side : Side) (i : Fin n) (p : Vec) (x : SVec n) (u : CVec n) : Idx (SBlk n) → Vec :=
  let J := putCols (fun _ => (0 : Vec)) .basePos 3 unit3
  let J := putCols J .baseQuat 4 fun k => fun a => (pder (.q k) (contactPositionE p a 0)).eval (pVal E I x u)
  let J := putCols J .joints nj fun j => fun a => (pder (.joint j) (contactPositionE p a 0)).eval (pVal E I x u)
  let J := putCols J (.pos side i) 3 unit3
  scaleCols J (.pos side i) 3 (-1)

/-- The constraint: value lines 223-240, Jacobians 242-313, second derivatives 337-400, patterns 101-122, bounds 180-183 and 215-221; `p` is the
position of the point in the foot. -/
def contactPositionConstraint (s : Server m F) (E : RotExprs) (foot : F) (w : Leftover nj) (side : Side) (i : Fin n) (p : Vec) (tol : ℝ) :
    Constraint (Idx (SBlk n)) (Idx (CBlk n)) 3 where
  value x _ := (s.kin.world (baseTransform x) (jointsOf x) (s.frames.link foot) * s.frames.offset foot).point p - fun k : Fin 3 => x (.pos side i, (k : ℕ))
  stateJac x u _ := fun k q => contactPositionJac E (contactInner s foot w) side i p x u q k
  ctrlJac _ _ _ := fun _ _ => 0
  stateHess x u lam H := pointHess (contactPositionE p) (pVal E (contactInner s foot w) x u) lam H
  ctrlHess _ _ _ H := H
  mixedHess _ _ _ H := H
  stateJacPat := diag (List.finRange 3) (seg .basePos 0 3) ++ dense (List.finRange 3) (seg .baseQuat 0 4) ++
    dense (List.finRange 3) (seg .joints 0 nj) ++ diag (List.finRange 3) (seg (.pos side i) 0 3)
  ctrlJacPat := []
  stateHessPat := pointHessPat n nj
  ctrlHessPat := []
  mixedHessPat := []
  lower := some fun _ => -tol / 2
  upper := some fun _ => tol / 2

/-! ### The lateral distance of the feet -/

/-- The first three rows of the column of a joint of `getRelativeJacobian(robotState, reference, other, MIXED_REPRESENTATION)` (external): the
velocity of the origin of the other frame with respect to the reference, with the orientation of the reference. -/
def relativeMixedColumn (s : Server m F) (q : Fin nj → ℝ) (ref other : F) (j : Fin nj) : Vec :=
  (s.transform q ref other).R *ᵥ ((s.frames.offset other)⁻¹.act ((s.tree (s.frames.link ref)).linkDirection q (s.frames.link other) j)).1

/-- The constraint: value FeetLateralDistanceConstraint.cpp:153-168, Jacobians 170-203, second derivatives 227-271, patterns 58-71, bounds 110-114
(0.1 is written, then zero) and 143-151; `d` is the minimum distance. -/
def feetLateralDistance (s : Server m F) (ref other : F) (lateral : Fin 3) (w : Leftover nj) (d : ℝ) : Constraint (Idx (SBlk n)) (Idx (CBlk n)) 1 where
  value x _ := fun _ => (s.transform (jointsOf x) ref other).p lateral
  stateJac x _ _ := fun _ p => putCols (fun _ => (0 : ℝ)) .joints nj (fun j => relativeMixedColumn s (jointsOf x) ref other j lateral) p
  ctrlJac _ _ _ := fun _ _ => 0
  stateHess x _ lam H := (List.finRange nj).foldl (fun H (i : Fin nj) =>
    putCol H .joints (.joints, (i : ℕ)) fun k : Fin nj => s.relativePositionHessian (w.state x) ref other i k lateral * lam 0) H
  ctrlHess _ _ _ H := H
  mixedHess _ _ _ H := H
  stateJacPat := dense [0] (seg .joints 0 nj)
  ctrlJacPat := []
  stateHessPat := dense (seg .joints 0 nj) (seg .joints 0 nj)
  ctrlHessPat := []
  mixedHessPat := []
  lower := some fun _ => d
  upper := none

/-- `setMinimumDistance`, FeetLateralDistanceConstraint.cpp:143-151: the new minimum and the result. -/
def setMinimumDistance (old new : ℝ) : ℝ × Bool := if new < 0 then (old, false) else (new, true)

end
end Verif.NLP.Kin
