import Verif.Model.Vars
import Verif.Model.Smoothing
/- Constraints on one contact point, the base quaternion and the relative height of the feet (src/private/*Constraint*.cpp).
Every class copies the state and control handed in (`m_pimpl->stateVariables = state`) before reading ranges, so apart from
`PlanarVelocityControlConstraints` (see there) the results do not depend on earlier calls.  Buffers that are zeroed in the
constructor and always written at the same entries are modelled as freshly zeroed matrices. -/
namespace Verif.NLP
open Verif.Smooth
noncomputable section
variable {n : Nat}

/-- A matrix of zeros. -/
def zeroMat {ρ κ : Type} : ρ → κ → ℝ := fun _ _ => 0

/-- Members of `ContactFrictionConstraint` relevant here: `frictionCoefficient` = `mu`.
src/private/ContactFrictionConstraint.cpp: value 75-86, Jacobians 88-108, second derivatives 132-159, patterns 51-60,
bounds 47-49. The Jacobian is written directly into the caller's matrix. -/
def contactFriction (s : Side) (i : Fin n) (mu : ℝ) : Constraint (Idx (SBlk n)) (Idx (CBlk n)) 1 where
  value x _ := fun _ =>
    let f := vec3 x (.force s i)
    f.x * f.x + f.y * f.y - mu * mu * f.z * f.z
  stateJac x _ J :=
    let f := vec3 x (.force s i)
    put (put (put J 0 (.force s i, 0) (2 * f.x)) 0 (.force s i, 1) (2 * f.y)) 0 (.force s i, 2) (-2 * mu * mu * f.z)
  ctrlJac _ _ J := J
  stateHess _ _ lam H :=
    put (put (put H (.force s i, 0) (.force s i, 0) (2 * lam 0)) (.force s i, 1) (.force s i, 1) (2 * lam 0))
      (.force s i, 2) (.force s i, 2) (-2 * mu * mu * lam 0)
  ctrlHess _ _ _ H := H
  mixedHess _ _ _ H := H
  stateJacPat := dense [0] (seg (.force s i) 0 3)
  ctrlJacPat := []
  stateHessPat := diag (seg (.force s i) 0 3) (seg (.force s i) 0 3)
  ctrlHessPat := []
  mixedHessPat := []
  lower := none
  upper := some fun _ => 0

/-- src/private/ContactFrictionConstraint.cpp:66-73 (`setFrictionCoefficient`); the initial value is 0.3 (line 45). -/
def setFrictionCoefficient (old new : ℝ) : ℝ × Bool := if new ≤ 0 then (old, false) else (new, true)

/-- src/private/ContactForceControlConstraints.cpp: value 97-114, Jacobians 116-149, second derivatives 173-213, patterns
73-90, bounds 69-71. `M` = maximumNormalDerivative, `D` = dissipationRatio. -/
def contactForceControl (s : Side) (i : Fin n) (act : Params) (M D : ℝ) :
    Constraint (Idx (SBlk n)) (Idx (CBlk n)) 1 :=
  let δ : Fn := ⟨.secant, act⟩
  { value := fun x u _ =>
      let d := δ.eval (vec3 x (.pos s i)).z
      let fz := (vec3 x (.force s i)).z
      let uz := (vec3 u (.forceCtl s i)).z
      uz - d * M + (1 - d) * D * fz
    stateJac := fun x _ _ =>
      let pz := (vec3 x (.pos s i)).z
      let d := δ.eval pz
      let d' := δ.evalDerivative pz
      let fz := (vec3 x (.force s i)).z
      put (put zeroMat 0 (.pos s i, 2) (-d' * M - d' * D * fz)) 0 (.force s i, 2) ((1 - d) * D)
    ctrlJac := fun _ _ _ => put zeroMat 0 (.forceCtl s i, 2) 1
    stateHess := fun x _ lam H =>
      let pz := (vec3 x (.pos s i)).z
      let fz := (vec3 x (.force s i)).z
      let d' := δ.evalDerivative pz
      let d'' := δ.evalDoubleDerivative pz
      let H1 := put H (.pos s i, 2) (.pos s i, 2) (-lam 0 * (d'' * M + d'' * D * fz))
      let H2 := put H1 (.pos s i, 2) (.force s i, 2) (-lam 0 * d' * D)
      put H2 (.force s i, 2) (.pos s i, 2) (H2 (.pos s i, 2) (.force s i, 2))
    ctrlHess := fun _ _ _ H => H
    mixedHess := fun _ _ _ H => H
    stateJacPat := [(0, (.pos s i, 2)), (0, (.force s i, 2))]
    ctrlJacPat := [(0, (.forceCtl s i, 2))]
    stateHessPat := [((.pos s i, 2), (.pos s i, 2)), ((.pos s i, 2), (.force s i, 2)), ((.force s i, 2), (.pos s i, 2))]
    ctrlHessPat := []
    mixedHessPat := []
    lower := none
    upper := some fun _ => 0 }

/-- src/private/ClassicalComplementarityConstraint.cpp: value 84-98, Jacobians 100-122, second derivatives 146-175, patterns
65-78, bounds 60-63. -/
def classicalComplementarity (s : Side) (i : Fin n) (tolerance : ℝ) : Constraint (Idx (SBlk n)) (Idx (CBlk n)) 1 where
  value x _ := fun _ => (vec3 x (.pos s i)).z * (vec3 x (.force s i)).z
  stateJac x _ _ :=
    put (put zeroMat 0 (.pos s i, 2) (vec3 x (.force s i)).z) 0 (.force s i, 2) (vec3 x (.pos s i)).z
  ctrlJac _ _ _ := zeroMat
  stateHess _ _ lam H :=
    put (put H (.force s i, 2) (.pos s i, 2) (lam 0)) (.pos s i, 2) (.force s i, 2) (lam 0)
  ctrlHess _ _ _ H := H
  mixedHess _ _ _ H := H
  stateJacPat := [(0, (.force s i, 2)), (0, (.pos s i, 2))]
  ctrlJacPat := []
  stateHessPat := [((.force s i, 2), (.pos s i, 2)), ((.pos s i, 2), (.force s i, 2))]
  ctrlHessPat := []
  mixedHessPat := []
  lower := none
  upper := some fun _ => tolerance

/-- src/private/ClassicalPlanarComplementarityConstraint.cpp: value 90-104, Jacobians 106-139, second derivatives 163-195,
patterns 67-84, bounds 60-65. -/
def classicalPlanarComplementarity (s : Side) (i : Fin n) (tolerance : ℝ) :
    Constraint (Idx (SBlk n)) (Idx (CBlk n)) 2 where
  value x u :=
    let f := vec3 x (.force s i)
    let v := vec3 u (.velCtl s i)
    ![v.x * f.z, v.y * f.z]
  stateJac _ u _ :=
    let v := vec3 u (.velCtl s i)
    put (put zeroMat 0 (.force s i, 2) v.x) 1 (.force s i, 2) v.y
  ctrlJac x _ _ :=
    let f := vec3 x (.force s i)
    put (put zeroMat 0 (.velCtl s i, 0) f.z) 1 (.velCtl s i, 1) f.z
  stateHess _ _ _ H := H
  ctrlHess _ _ _ H := H
  mixedHess _ _ lam H := put (put H (.force s i, 2) (.velCtl s i, 0) (lam 0)) (.force s i, 2) (.velCtl s i, 1) (lam 1)
  stateJacPat := [(0, (.force s i, 2)), (1, (.force s i, 2))]
  ctrlJacPat := [(0, (.velCtl s i, 0)), (1, (.velCtl s i, 1))]
  stateHessPat := []
  ctrlHessPat := []
  mixedHessPat := [((.force s i, 2), (.velCtl s i, 0)), ((.force s i, 2), (.velCtl s i, 1))]
  lower := some fun _ => -tolerance
  upper := some fun _ => tolerance

/-- src/private/DynamicalComplementarityConstraint.cpp: value 100-116, Jacobians 118-156, second derivatives 180-216,
patterns 70-91, bounds 65-68. `g` = dissipationGain, `ub` = upperBound. -/
def dynamicalComplementarity (s : Side) (i : Fin n) (g ub : ℝ) : Constraint (Idx (SBlk n)) (Idx (CBlk n)) 1 where
  value x u := fun _ =>
    let p := vec3 x (.pos s i)
    let f := vec3 x (.force s i)
    let v := vec3 u (.velCtl s i)
    let fd := vec3 u (.forceCtl s i)
    fd.z * p.z + f.z * v.z + g * p.z * f.z
  stateJac x u _ :=
    let p := vec3 x (.pos s i)
    let f := vec3 x (.force s i)
    let v := vec3 u (.velCtl s i)
    let fd := vec3 u (.forceCtl s i)
    put (put zeroMat 0 (.pos s i, 2) (fd.z + g * f.z)) 0 (.force s i, 2) (v.z + g * p.z)
  ctrlJac x _ _ :=
    let p := vec3 x (.pos s i)
    let f := vec3 x (.force s i)
    put (put zeroMat 0 (.velCtl s i, 2) f.z) 0 (.forceCtl s i, 2) p.z
  stateHess _ _ lam H :=
    put (put H (.force s i, 2) (.pos s i, 2) (lam 0 * g)) (.pos s i, 2) (.force s i, 2) (lam 0 * g)
  ctrlHess _ _ _ H := H
  mixedHess _ _ lam H :=
    put (put H (.force s i, 2) (.velCtl s i, 2) (lam 0)) (.pos s i, 2) (.forceCtl s i, 2) (lam 0)
  stateJacPat := [(0, (.force s i, 2)), (0, (.pos s i, 2))]
  ctrlJacPat := [(0, (.velCtl s i, 2)), (0, (.forceCtl s i, 2))]
  stateHessPat := [((.force s i, 2), (.pos s i, 2)), ((.pos s i, 2), (.force s i, 2))]
  ctrlHessPat := []
  mixedHessPat := [((.force s i, 2), (.velCtl s i, 2)), ((.pos s i, 2), (.forceCtl s i, 2))]
  lower := none
  upper := some fun _ => ub

/-- src/private/NormalVelocityControlConstraints.cpp: value 83-101, Jacobians 103-135, second derivatives 159-189, patterns
67-77, bounds 63-65. `M` = maximumDerivative. -/
def normalVelocityControl (s : Side) (i : Fin n) (act : Params) (M : ℝ) :
    Constraint (Idx (SBlk n)) (Idx (CBlk n)) 2 :=
  let δ : Fn := ⟨.tangent, act⟩
  { value := fun x u =>
      let dz := δ.eval (vec3 x (.pos s i)).z
      let v := vec3 u (.velCtl s i)
      ![M - v.z, v.z + dz * M]
    stateJac := fun x _ _ => put zeroMat 1 (.pos s i, 2) (δ.evalDerivative (vec3 x (.pos s i)).z * M)
    ctrlJac := fun _ _ _ => put (put zeroMat 0 (.velCtl s i, 2) (-1)) 1 (.velCtl s i, 2) 1
    stateHess := fun x _ lam H =>
      put H (.pos s i, 2) (.pos s i, 2) (lam 1 * δ.evalDoubleDerivative (vec3 x (.pos s i)).z * M)
    ctrlHess := fun _ _ _ H => H
    mixedHess := fun _ _ _ H => H
    stateJacPat := dense [0, 1] [(.pos s i, 2)]
    ctrlJacPat := dense [0, 1] [(.velCtl s i, 2)]
    stateHessPat := [((.pos s i, 2), (.pos s i, 2))]
    ctrlHessPat := []
    mixedHessPat := []
    lower := some fun _ => 0
    upper := none }

/-- src/private/QuaternionNormConstraint.cpp: value 73-79 (`QuaternionSquaredNorm`, src/private/QuaternionUtils.cpp), Jacobians
81-94, second derivatives 119-147, patterns 50-59, bounds 38-41 and `setEqualityTolerance` 65-71 (`tolerance` = 0 before it is
called). -/
def quaternionNorm (tolerance : ℝ) : Constraint (Idx (SBlk n)) (Idx (CBlk n)) 1 where
  value x _ := fun _ =>
    x (.baseQuat, 0) * x (.baseQuat, 0) + x (.baseQuat, 1) * x (.baseQuat, 1) + x (.baseQuat, 2) * x (.baseQuat, 2)
      + x (.baseQuat, 3) * x (.baseQuat, 3) - 1
  stateJac x _ _ :=
    put (put (put (put zeroMat 0 (.baseQuat, 0) (2 * x (.baseQuat, 0))) 0 (.baseQuat, 1) (2 * x (.baseQuat, 1)))
      0 (.baseQuat, 2) (2 * x (.baseQuat, 2))) 0 (.baseQuat, 3) (2 * x (.baseQuat, 3))
  ctrlJac _ _ _ := zeroMat
  stateHess _ _ lam H :=
    put (put (put (put H (.baseQuat, 0) (.baseQuat, 0) (2 * lam 0)) (.baseQuat, 1) (.baseQuat, 1) (2 * lam 0))
      (.baseQuat, 2) (.baseQuat, 2) (2 * lam 0)) (.baseQuat, 3) (.baseQuat, 3) (2 * lam 0)
  ctrlHess _ _ _ H := H
  mixedHess _ _ _ H := H
  stateJacPat := dense [0] (seg .baseQuat 0 4)
  ctrlJacPat := []
  stateHessPat := diag (seg .baseQuat 0 4) (seg .baseQuat 0 4)
  ctrlHessPat := []
  mixedHessPat := []
  lower := some fun _ => -tolerance / 2
  upper := some fun _ => tolerance / 2

/-- The loop over the point ranges of a foot that adds up the third components
(src/private/FeetRelativeHeightConstraint.cpp:93-96, 100-103). -/
def sumHeights (x : SVec n) (s : Side) : ℝ := (List.finRange n).foldl (fun a i => a + x (.pos s i, 2)) 0

/-- src/private/FeetRelativeHeightConstraint.cpp: value 89-108, Jacobian buffer filled in the constructor 57-66, Jacobians
110-123, second derivatives 147-169, patterns 39-53, 79-82, bounds 72-76. -/
def feetRelativeHeight (maxHeight : ℝ) : Constraint (Idx (SBlk n)) (Idx (CBlk n)) 1 where
  value x _ := fun _ => sumHeights x .left / (n : ℝ) - sumHeights x .right / (n : ℝ)
  stateJac _ _ _ :=
    (List.finRange n).foldl (fun J i => put J 0 (.pos .right i, 2) (-1 / (n : ℝ)))
      ((List.finRange n).foldl (fun J i => put J 0 (.pos .left i, 2) (1 / (n : ℝ))) zeroMat)
  ctrlJac _ _ _ := zeroMat
  stateHess _ _ _ H := H
  ctrlHess _ _ _ H := H
  mixedHess _ _ _ H := H
  stateJacPat := (List.finRange n).map (fun i => (0, (.pos .left i, 2))) ++
    (List.finRange n).map (fun i => (0, (.pos .right i, 2)))
  ctrlJacPat := []
  stateHessPat := []
  ctrlHessPat := []
  mixedHessPat := []
  lower := some fun _ => -maxHeight
  upper := some fun _ => maxHeight

/-- src/private/PlanarVelocityControlConstraints.cpp: value 90-109, Jacobians 111-145, second derivatives 169-199, patterns
72-84, bounds 68-70. `stored` is the member `pointPosition`, written by the value (95) and state Jacobian (116) calls; the
second derivative reads it (177) instead of the point position of the state it is given. -/
def planarVelocityControl (s : Side) (i : Fin n) (act : Params) (Mx My : ℝ) (stored : V3 ℝ) :
    Constraint (Idx (SBlk n)) (Idx (CBlk n)) 4 :=
  let δ : Fn := ⟨.tangent, act⟩
  { value := fun x u =>
      let d := δ.eval (vec3 x (.pos s i)).z
      let v := vec3 u (.velCtl s i)
      ![d * Mx - v.x, d * My - v.y, v.x + d * Mx, v.y + d * My]
    stateJac := fun x _ _ =>
      let d' := δ.evalDerivative (vec3 x (.pos s i)).z
      put (put (put (put zeroMat 0 (.pos s i, 2) (d' * Mx)) 1 (.pos s i, 2) (d' * My)) 2 (.pos s i, 2) (d' * Mx))
        3 (.pos s i, 2) (d' * My)
    ctrlJac := fun _ _ _ =>
      put (put (put (put zeroMat 0 (.velCtl s i, 0) (-1)) 1 (.velCtl s i, 1) (-1)) 2 (.velCtl s i, 0) 1)
        3 (.velCtl s i, 1) 1
    stateHess := fun _ _ lam H =>
      put H (.pos s i, 2) (.pos s i, 2)
        (((lam 0 + lam 1) * Mx + (lam 2 + lam 3) * My) * δ.evalDoubleDerivative stored.z)
    ctrlHess := fun _ _ _ H => H
    mixedHess := fun _ _ _ H => H
    stateJacPat := dense [0, 1, 2, 3] [(.pos s i, 2)]
    ctrlJacPat := diag [0, 1] (seg (.velCtl s i) 0 2) ++ diag [2, 3] (seg (.velCtl s i) 0 2)
    stateHessPat := [((.pos s i, 2), (.pos s i, 2))]
    ctrlHessPat := []
    mixedHessPat := []
    lower := some fun _ => 0
    upper := none }

/-- The member `pointPosition` after the call that evaluates the constraint or its state Jacobian at `x`
(PlanarVelocityControlConstraints.cpp:95, 116). -/
def planarVelocityStored (s : Side) (i : Fin n) (x : SVec n) : V3 ℝ := vec3 x (.pos s i)

end
end Verif.NLP
