import Verif.Model.Vars
import Verif.Model.Smoothing
import Mathlib.Analysis.SpecialFunctions.Complex.Arg
/- The costs defined by the planner on the optimisation variables (src/private/*Cost.cpp).
As for the constraints, the state and control handed in are copied before being read, buffers zeroed in the constructor and always
written at the same entries are modelled as freshly zeroed vectors, `double` is ℝ, assertions hold and the references (desired
position, weight, yaw, joints) are those returned, valid, at the time of the call. -/
namespace Verif.NLP
open Verif.Smooth
noncomputable section
variable {n : Nat}

/-- A vector of zeros. -/
def zeroVec {ρ : Type} : ρ → ℝ := fun _ => 0

/-- src/private/SwingCost.cpp: value 65-80, gradients 82-127, second derivatives 129-182, patterns 57-59. -/
def swing (s : Side) (i : Fin n) (swingHeight : ℝ) (weights : V3 ℝ) : Cost (Idx (SBlk n)) (Idx (CBlk n)) where
  value x u :=
    let zError := (vec3 x (.pos s i)).z - swingHeight
    let v := vec3 u (.velCtl s i)
    let costX := v.x * zError
    let costY := v.y * zError
    let costZ := v.z * zError
    1 / 2 * (weights.x * costX * costX + weights.y * costY * costY + weights.z * costZ * costZ)
  stateGrad x u _ :=
    let zError := (vec3 x (.pos s i)).z - swingHeight
    let v := vec3 u (.velCtl s i)
    let costX := v.x * zError
    let costY := v.y * zError
    let costZ := v.z * zError
    putV zeroVec (.pos s i, 2) (weights.x * costX * v.x + weights.y * costY * v.y + weights.z * costZ * v.z)
  ctrlGrad x u _ :=
    let zError := (vec3 x (.pos s i)).z - swingHeight
    let v := vec3 u (.velCtl s i)
    let costX := v.x * zError
    let costY := v.y * zError
    let costZ := v.z * zError
    putV (putV (putV zeroVec (.velCtl s i, 0) (weights.x * costX * zError)) (.velCtl s i, 1) (weights.y * costY * zError))
      (.velCtl s i, 2) (weights.z * costZ * zError)
  stateHess _ u H :=
    let v := vec3 u (.velCtl s i)
    put H (.pos s i, 2) (.pos s i, 2) (weights.x * v.x * v.x + weights.y * v.y * v.y + weights.z * v.z * v.z)
  ctrlHess x _ H :=
    let d := (vec3 x (.pos s i)).z - swingHeight
    let dd := d * d
    put (put (put H (.velCtl s i, 0) (.velCtl s i, 0) (weights.x * dd)) (.velCtl s i, 1) (.velCtl s i, 1) (weights.y * dd))
      (.velCtl s i, 2) (.velCtl s i, 2) (weights.z * dd)
  mixedHess x u H :=
    let v := vec3 u (.velCtl s i)
    let d := (vec3 x (.pos s i)).z - swingHeight
    put (put (put H (.pos s i, 2) (.velCtl s i, 0) (2 * weights.x * v.x * d)) (.pos s i, 2) (.velCtl s i, 1) (2 * weights.y * v.y * d))
      (.pos s i, 2) (.velCtl s i, 2) (2 * weights.z * v.z * d)
  stateHessPat := [((.pos s i, 2), (.pos s i, 2))]
  ctrlHessPat := diag (seg (.velCtl s i) 0 3) (seg (.velCtl s i) 0 3)
  mixedHessPat := dense (seg (.pos s i) 2 1) (seg (.velCtl s i) 0 3)

/-- src/private/PhantomForcesCost.cpp: value 72-87, gradients 89-118, second derivatives 120-153, patterns 60-66. -/
def phantomForces (s : Side) (i : Fin n) (act : Params) : Cost (Idx (SBlk n)) (Idx (CBlk n)) :=
  let activation : Fn := ⟨.secant, act⟩
  { value := fun x _ =>
      let delta := activation.eval (vec3 x (.pos s i)).z
      let fz := (vec3 x (.force s i)).z
      let phantomForce := (1 - delta) * fz
      1 / 2 * phantomForce * phantomForce
    stateGrad := fun x _ _ =>
      let delta := activation.eval (vec3 x (.pos s i)).z
      let deltaDerivative := activation.evalDerivative (vec3 x (.pos s i)).z
      let fz := (vec3 x (.force s i)).z
      let phantomForce := (1 - delta) * fz
      putV (putV zeroVec (.pos s i, 2) (-phantomForce * deltaDerivative * fz)) (.force s i, 2) (phantomForce * (1 - delta))
    ctrlGrad := fun _ _ _ => zeroVec
    stateHess := fun x _ H =>
      let delta := activation.eval (vec3 x (.pos s i)).z
      let deltaDerivative := activation.evalDerivative (vec3 x (.pos s i)).z
      let deltaDoubleDerivative := activation.evalDoubleDerivative (vec3 x (.pos s i)).z
      let fz := (vec3 x (.force s i)).z
      let phantomForce := (1 - delta) * fz
      let H := put H (.pos s i, 2) (.pos s i, 2) ((deltaDerivative * fz) * (deltaDerivative * fz) - phantomForce * deltaDoubleDerivative)
      let H := put H (.force s i, 2) (.force s i, 2) ((1 - delta) * (1 - delta))
      let H := put H (.force s i, 2) (.pos s i, 2) (-2 * phantomForce * deltaDerivative)
      put H (.pos s i, 2) (.force s i, 2) (H (.force s i, 2) (.pos s i, 2))
    ctrlHess := fun _ _ H => H
    mixedHess := fun _ _ H => H
    stateHessPat := [((.pos s i, 2), (.pos s i, 2)), ((.force s i, 2), (.force s i, 2)), ((.force s i, 2), (.pos s i, 2)),
      ((.pos s i, 2), (.force s i, 2))]
    ctrlHessPat := []
    mixedHessPat := [] }

/-- src/private/ComplementarityCost.cpp: value 59-71, gradients 73-101, second derivatives 103-142, patterns 51-53.
The gradients are written into the vector handed in. -/
def complementarityCost (s : Side) (i : Fin n) : Cost (Idx (SBlk n)) (Idx (CBlk n)) where
  value x u :=
    let vz := (vec3 u (.velCtl s i)).z
    let fz := (vec3 x (.force s i)).z
    1 / 2 * vz * vz * fz * fz
  stateGrad x u g :=
    let vz := (vec3 u (.velCtl s i)).z
    let fz := (vec3 x (.force s i)).z
    putV g (.force s i, 2) (vz * vz * fz)
  ctrlGrad x u g :=
    let vz := (vec3 u (.velCtl s i)).z
    let fz := (vec3 x (.force s i)).z
    putV g (.velCtl s i, 2) (vz * fz * fz)
  stateHess _ u H :=
    let vz := (vec3 u (.velCtl s i)).z
    put H (.force s i, 2) (.force s i, 2) (vz * vz)
  ctrlHess x _ H :=
    let fz := (vec3 x (.force s i)).z
    put H (.velCtl s i, 2) (.velCtl s i, 2) (fz * fz)
  mixedHess x u H :=
    let vz := (vec3 u (.velCtl s i)).z
    let fz := (vec3 x (.force s i)).z
    put H (.force s i, 2) (.velCtl s i, 2) (2 * fz * vz)
  stateHessPat := [((.force s i, 2), (.force s i, 2))]
  ctrlHessPat := [((.velCtl s i, 2), (.velCtl s i, 2))]
  mixedHessPat := [((.force s i, 2), (.velCtl s i, 2))]

/-- `otherPointsRanges`: the labels containing `<foot>ForcePoint` that are not the one of the point itself
(src/private/ForceMeanCost.cpp:46-51, src/private/ForceRatioCost.cpp:47-52).  Among the labels of Solver.cpp these are the
force points of the same foot. -/
def others (i : Fin n) : List (Fin n) := (List.finRange n).filter (fun j => j ≠ i)

/-- The pairs visited by `for (i = 0; i < N; ++i) for (j = i; j < N; ++j)`, in that order; the flag tells whether `i != j`. -/
def upper {α : Type} : List α → List (α × α × Bool)
  | [] => []
  | a :: l => (a, a, false) :: l.map (fun b => (a, b, true)) ++ upper l

/-- `block(b, c).setIdentity(); block(b, c) *= v` for blocks of size `r`. -/
def identityBlock {B C : Type} [DecidableEq B] [DecidableEq C] (M : Idx B → Idx C → ℝ) (b : B) (c : C) (r : Nat) (v : ℝ) : Idx B → Idx C → ℝ :=
  scaleBlock (putBlock M b 0 c 0 r r eye) b 0 c 0 r r v

/-- `block(b', c') = block(b, c)` for blocks of size `r`. -/
def copyBlock {B C : Type} [DecidableEq B] [DecidableEq C] (M : Idx B → Idx C → ℝ) (b' : B) (c' : C) (b : B) (c : C) (r : Nat) : Idx B → Idx C → ℝ :=
  putBlock M b' 0 c' 0 r r fun k l => M (b, k) (c, l)

/-- `sumOfForces`, src/private/ForceMeanCost.cpp:93-96. -/
def sumOfForces (x : SVec n) (s : Side) (i : Fin n) : V3 ℝ :=
  (others i).foldl (fun a j => a + vec3 x (.force s j)) (vec3 x (.force s i))

/-- `numberOfPoints`, src/private/ForceMeanCost.cpp:98. -/
def numberOfPoints (i : Fin n) : ℝ := ((others i).length : ℝ) + 1

/-- `differenceFromMean`, src/private/ForceMeanCost.cpp:98-101. -/
def differenceFromMean (x : SVec n) (s : Side) (i : Fin n) : V3 ℝ :=
  vec3 x (.force s i) - V3.smul (1 / numberOfPoints i) (sumOfForces x s i)

/-- Components by position. -/
def at3 (v : V3 ℝ) : Nat → ℝ := fun k => if k = 0 then v.x else if k = 1 then v.y else v.z

/-- src/private/ForceMeanCost.cpp: value 88-106, gradients 108-141, second derivatives 143-190, patterns 58-82. -/
def forceMean (s : Side) (i : Fin n) : Cost (Idx (SBlk n)) (Idx (CBlk n)) where
  value x _ :=
    let d := differenceFromMean x s i
    1 / 2 * (d.x * d.x + d.y * d.y)
  stateGrad x _ _ :=
    let inv := 1 / numberOfPoints i
    let d := at3 (differenceFromMean x s i)
    let g := putSeg zeroVec (.force s i) 0 2 (fun k => (1 - inv) * d k)
    (others i).foldl (fun g j => putSeg g (.force s j) 0 2 (fun k => -inv * d k)) g
  ctrlGrad _ _ _ := zeroVec
  stateHess _ _ H :=
    let inv := 1 / numberOfPoints i
    let H := identityBlock H (.force s i) (.force s i) 2 ((1 - inv) * (1 - inv))
    let H := (others i).foldl (fun H j =>
      let H := identityBlock H (.force s i) (.force s j) 2 (-inv * (1 - inv))
      copyBlock H (.force s j) (.force s i) (.force s i) (.force s j) 2) H
    (upper (others i)).foldl (fun H e =>
      let H := identityBlock H (.force s e.1) (.force s e.2.1) 2 (inv * inv)
      if e.2.2 then copyBlock H (.force s e.2.1) (.force s e.1) (.force s e.1) (.force s e.2.1) 2 else H) H
  ctrlHess _ _ H := H
  mixedHess _ _ H := H
  stateHessPat :=
    diag (seg (.force s i) 0 2) (seg (.force s i) 0 2) ++
    ((others i).flatMap fun j => diag (seg (.force s i) 0 2) (seg (.force s j) 0 2) ++ diag (seg (.force s j) 0 2) (seg (.force s i) 0 2)) ++
    (upper (others i)).flatMap fun e => diag (seg (.force s e.1) 0 2) (seg (.force s e.2.1) 0 2) ++
      if e.2.2 then diag (seg (.force s e.2.1) 0 2) (seg (.force s e.1) 0 2) else []
  ctrlHessPat := []
  mixedHessPat := []

/-- `sumOfForces`, src/private/ForceRatioCost.cpp:101-104. -/
def sumOfNormalForces (x : SVec n) (s : Side) (i : Fin n) : ℝ :=
  (others i).foldl (fun a j => a + (vec3 x (.force s j)).z) (vec3 x (.force s i)).z

/-- Initial `desiredRatio`, src/private/ForceRatioCost.cpp:82. -/
def defaultRatio (i : Fin n) : ℝ := 1 / (((others i).length : ℝ) + 1)

/-- src/private/ForceRatioCost.cpp: value 96-111, gradients 113-142, second derivatives 144-181, patterns 59-85. -/
def forceRatio (s : Side) (i : Fin n) (desiredRatio : ℝ) : Cost (Idx (SBlk n)) (Idx (CBlk n)) where
  value x _ :=
    let d := (vec3 x (.force s i)).z - desiredRatio * sumOfNormalForces x s i
    1 / 2 * d * d
  stateGrad x _ _ :=
    let d := (vec3 x (.force s i)).z - desiredRatio * sumOfNormalForces x s i
    let g := putV zeroVec (.force s i, 2) ((1 - desiredRatio) * d)
    (others i).foldl (fun g j => putV g (.force s j, 2) (-desiredRatio * d)) g
  ctrlGrad _ _ _ := zeroVec
  stateHess _ _ H :=
    let H := put H (.force s i, 2) (.force s i, 2) ((1 - desiredRatio) * (1 - desiredRatio))
    let H := (others i).foldl (fun H j =>
      let H := put H (.force s i, 2) (.force s j, 2) (-desiredRatio * (1 - desiredRatio))
      put H (.force s j, 2) (.force s i, 2) (H (.force s i, 2) (.force s j, 2))) H
    (upper (others i)).foldl (fun H e =>
      let H := put H (.force s e.1, 2) (.force s e.2.1, 2) (desiredRatio * desiredRatio)
      if e.2.2 then put H (.force s e.2.1, 2) (.force s e.1, 2) (H (.force s e.1, 2) (.force s e.2.1, 2)) else H) H
  ctrlHess _ _ H := H
  mixedHess _ _ H := H
  stateHessPat :=
    [((.force s i, 2), (.force s i, 2))] ++
    ((others i).flatMap fun j => [((.force s i, 2), (.force s j, 2)), ((.force s j, 2), (.force s i, 2))]) ++
    (upper (others i)).flatMap fun e => ((.force s e.1, 2), (.force s e.2.1, 2)) ::
      if e.2.2 then [((.force s e.2.1, 2), (.force s e.1, 2))] else []
  ctrlHessPat := []
  mixedHessPat := []

/-- `pointRanges` / `allPoints`: the labels containing `PositionPoint` (src/private/MeanPointPositionCost.cpp:41-46,
src/private/FeetDistanceCost.cpp:41-52). -/
def allPoints : List (Side × Fin n) := (List.finRange n).map (Side.left, ·) ++ (List.finRange n).map (Side.right, ·)

/-- Sum of the positions of the points of a list, starting from the first
(src/private/MeanPointPositionCost.cpp:102-105, src/private/FeetDistanceCost.cpp:122-130). -/
def sumPositions (x : SVec n) : List (Side × Fin n) → V3 ℝ
  | [] => 0
  | p :: l => l.foldl (fun a q => a + vec3 x (.pos q.1 q.2)) (vec3 x (.pos p.1 p.2))

/-- `distanceFromTarget`, src/private/MeanPointPositionCost.cpp:102-127, 141-164. -/
def distanceFromTarget (desired : V3 ℝ) (x : SVec n) : V3 ℝ :=
  V3.smul (1 / ((allPoints (n := n)).length : ℝ)) (sumPositions x allPoints) - desired

/-- src/private/MeanPointPositionCost.cpp: value 97-132, gradients 134-184, second derivatives 186-228, patterns 58-72. -/
def meanPointPosition (desired weight : V3 ℝ) : Cost (Idx (SBlk n)) (Idx (CBlk n)) where
  value x _ :=
    let d := distanceFromTarget desired x
    1 / 2 * (d.x * weight.x * d.x + d.y * weight.y * d.y + d.z * weight.z * d.z)
  stateGrad x _ _ :=
    let inv := 1 / ((allPoints (n := n)).length : ℝ)
    let d := distanceFromTarget desired x
    allPoints.foldl (fun g p => putSeg g (.pos p.1 p.2) 0 3 (fun k => at3 weight k * inv * at3 d k)) zeroVec
  ctrlGrad _ _ _ := zeroVec
  stateHess _ _ H :=
    let inv := 1 / ((allPoints (n := n)).length : ℝ)
    (upper allPoints).foldl (fun H e =>
      let H := putBlock H (.pos e.1.1 e.1.2) 0 (.pos e.2.1.1 e.2.1.2) 0 3 3 (fun k l => if k = l then at3 weight k * inv * inv else 0)
      if e.2.2 then copyBlock H (.pos e.2.1.1 e.2.1.2) (.pos e.1.1 e.1.2) (.pos e.1.1 e.1.2) (.pos e.2.1.1 e.2.1.2) 3 else H) H
  ctrlHess _ _ H := H
  mixedHess _ _ H := H
  stateHessPat :=
    (upper allPoints).flatMap fun e => diag (seg (.pos e.1.1 e.1.2) 0 3) (seg (.pos e.2.1.1 e.2.1.2) 0 3) ++
      if e.2.2 then diag (seg (.pos e.2.1.1 e.2.1.2) 0 3) (seg (.pos e.1.1 e.1.2) 0 3) else []
  ctrlHessPat := []
  mixedHessPat := []

/-- `leftPointRanges`, `rightPointRanges`, src/private/FeetDistanceCost.cpp:41-52. -/
def footPoints (s : Side) : List (Side × Fin n) := (List.finRange n).map (s, ·)

/-- `distance`, src/private/FeetDistanceCost.cpp:122-132. -/
def feetDistanceVector (x : SVec n) : V3 ℝ :=
  V3.smul (1 / ((footPoints (n := n) .left).length : ℝ)) (sumPositions x (footPoints .left)) -
    V3.smul (1 / ((footPoints (n := n) .right).length : ℝ)) (sumPositions x (footPoints .right))

/-- `diagonalValue`, src/private/FeetDistanceCost.cpp:67-84. -/
def diagonalValue (nLeft nRight : ℝ) (a b : Side) : ℝ :=
  match a, b with
  | .left, .left => nLeft * nLeft
  | .left, .right => -nLeft * nRight
  | .right, .left => -nLeft * nRight
  | .right, .right => nRight * nRight

/-- src/private/FeetDistanceCost.cpp: value 116-137, gradients 139-177, second derivatives 179-196 (the matrix is computed in the
constructor, 86-104), patterns 86-107.  Blocks are divided by `diagonalValue`; the gradient is written into the vector handed in. -/
def feetDistance : Cost (Idx (SBlk n)) (Idx (CBlk n)) where
  value x _ :=
    let d := feetDistanceVector x
    1 / 2 * (d.x * d.x + d.y * d.y + d.z * d.z)
  stateGrad x _ g :=
    let d := feetDistanceVector x
    let nLeft : ℝ := (footPoints (n := n) .left).length
    let nRight : ℝ := (footPoints (n := n) .right).length
    let g := (footPoints .left).foldl (fun g p => putSeg g (.pos p.1 p.2) 0 3 (fun k => at3 d k / nLeft)) g
    (footPoints .right).foldl (fun g p => putSeg g (.pos p.1 p.2) 0 3 (fun k => -at3 d k / nRight)) g
  ctrlGrad _ _ g := g
  stateHess _ _ _ :=
    let nLeft : ℝ := (footPoints (n := n) .left).length
    let nRight : ℝ := (footPoints (n := n) .right).length
    (upper allPoints).foldl (fun H e =>
      let H := identityBlock H (.pos e.1.1 e.1.2) (.pos e.2.1.1 e.2.1.2) 3 (1 / diagonalValue nLeft nRight e.1.1 e.2.1.1)
      if e.2.2 then copyBlock H (.pos e.2.1.1 e.2.1.2) (.pos e.1.1 e.1.2) (.pos e.1.1 e.1.2) (.pos e.2.1.1 e.2.1.2) 3 else H) (fun _ _ => 0)
  ctrlHess _ _ H := H
  mixedHess _ _ H := H
  stateHessPat :=
    (upper allPoints).flatMap fun e => diag (seg (.pos e.1.1 e.1.2) 0 3) (seg (.pos e.2.1.1 e.2.1.2) 0 3) ++
      if e.2.2 then diag (seg (.pos e.2.1.1 e.2.1.2) 0 3) (seg (.pos e.1.1 e.1.2) 0 3) else []
  ctrlHessPat := []
  mixedHessPat := []

/-- `jointsBuffer`, src/private/JointsVelocityForPosturalCost.cpp:94-99; `gains` are the postural gains after lines 48-50. -/
def jointsBuffer (weights gains desired : Nat → ℝ) (x : SVec n) (u : CVec n) (k : Nat) : ℝ :=
  weights k * u (.jointVel, k) + gains k * (x (.joints, k) - desired k)

/-- `posturalGains` after lines 48-50 of src/private/JointsVelocityForPosturalCost.cpp. -/
def weightedGains (weights posturalGains : Nat → ℝ) : Nat → ℝ := fun k => weights k * posturalGains k

/-- src/private/JointsVelocityForPosturalCost.cpp: value 85-104, gradients 106-148, second derivatives 150-174, patterns 67-77.
`joints` is the number of joints.  The gradients are written into the vector handed in. -/
def jointsPostural (joints : Nat) (weights posturalGains desired : Nat → ℝ) : Cost (Idx (SBlk n)) (Idx (CBlk n)) :=
  let gains := weightedGains weights posturalGains
  { value := fun x u => 1 / 2 * ((List.range joints).map fun k => jointsBuffer weights gains desired x u k * jointsBuffer weights gains desired x u k).sum
    stateGrad := fun x u g => putSeg g .joints 0 joints (fun k => gains k * jointsBuffer weights gains desired x u k)
    ctrlGrad := fun x u g => putSeg g .jointVel 0 joints (fun k => weights k * jointsBuffer weights gains desired x u k)
    stateHess := fun _ _ H => putBlock H .joints 0 .joints 0 joints joints (fun k l => if k = l then gains k * gains k else 0)
    ctrlHess := fun _ _ H => putBlock H .jointVel 0 .jointVel 0 joints joints (fun k l => if k = l then weights k * weights k else 0)
    mixedHess := fun _ _ H => putBlock H .joints 0 .jointVel 0 joints joints (fun k l => if k = l then gains k * weights k else 0)
    stateHessPat := diag (seg .joints 0 joints) (seg .joints 0 joints)
    ctrlHessPat := diag (seg .jointVel 0 joints) (seg .jointVel 0 joints)
    mixedHessPat := diag (seg .joints 0 joints) (seg .jointVel 0 joints) }

/-! ### FootYawCost -/

/-- `centroid`, src/private/FootYawCost.cpp:43-49. -/
def centroid (points : List (V3 ℝ)) : V3 ℝ :=
  V3.smul (1 / (points.length : ℝ)) (points.foldl (fun a p => a + p) 0)

/-- The three corners found so far (index and product of the planar coordinates), src/private/FootYawCost.cpp:51-57. -/
structure Corners where
  bottomRight : Option Nat := none
  bottomRightValue : ℝ := 0
  topRight : Option Nat := none
  topRightValue : ℝ := 0
  topLeft : Option Nat := none
  topLeftValue : ℝ := 0

open Classical in
/-- Body of the loop, src/private/FootYawCost.cpp:58-81; an index equal to the number of points is `none`. -/
def cornersStep (c : V3 ℝ) (acc : Corners) (e : V3 ℝ × Nat) : Corners :=
  let r := e.1 - c
  if r.y < 0 then
    if r.x < 0 then
      if acc.bottomRight = none ∨ r.x * r.y > acc.bottomRightValue then { acc with bottomRight := some e.2, bottomRightValue := r.x * r.y } else acc
    else if r.x > 0 then
      if acc.topRight = none ∨ -r.x * r.y > acc.topRightValue then { acc with topRight := some e.2, topRightValue := -r.x * r.y } else acc
    else acc
  else if r.x > 0 then
    if acc.topLeft = none ∨ r.x * r.y > acc.topLeftValue then { acc with topLeft := some e.2, topLeftValue := r.x * r.y } else acc
  else acc

/-- The corners chosen by the constructor, src/private/FootYawCost.cpp:51-81. -/
def corners (points : List (V3 ℝ)) : Corners := points.zipIdx.foldl (cornersStep (centroid points)) {}

/-- `initialYaw`, src/private/FootYawCost.cpp:88-90; `std::atan2(y, x)` is the argument of the complex number `x + iy`. -/
def initialYaw (topRight bottomRight : V3 ℝ) : ℝ :=
  Complex.arg ⟨(topRight - bottomRight).x, (topRight - bottomRight).y⟩

/-- src/private/FootYawCost.cpp: value 134-156, gradients 158-192, second derivatives 194-242, patterns 99-121.
`br`, `tr`, `tl` are the corners, `initial` the initial yaw, `desired` the desired one.  The gradient is written into the vector
handed in. -/
def footYaw (s : Side) (br tr tl : Fin n) (initial desired : ℝ) : Cost (Idx (SBlk n)) (Idx (CBlk n)) :=
  let desiredYaw := desired - initial
  let sy := Real.sin desiredYaw
  let cy := Real.cos desiredYaw
  let topBottom (x : SVec n) := (vec3 x (.pos s tr) - vec3 x (.pos s br)).y * cy - (vec3 x (.pos s tr) - vec3 x (.pos s br)).x * sy
  let left (x : SVec n) := (vec3 x (.pos s tl) - vec3 x (.pos s tr)).x * cy + (vec3 x (.pos s tl) - vec3 x (.pos s tr)).y * sy
  let tb : Nat → Nat → ℝ := fun k l => if k = 0 then (if l = 0 then sy * sy else -sy * cy) else (if l = 0 then -sy * cy else cy * cy)
  let lr : Nat → Nat → ℝ := fun k l => if k = 0 then (if l = 0 then cy * cy else sy * cy) else (if l = 0 then sy * cy else sy * sy)
  { value := fun x _ => 1 / 2 * topBottom x * topBottom x + 1 / 2 * left x * left x
    stateGrad := fun x _ g =>
      let g := putV g (.pos s tr, 0) (-topBottom x * sy - left x * cy)
      let g := putV g (.pos s tr, 1) (topBottom x * cy - left x * sy)
      let g := putV g (.pos s br, 0) (topBottom x * sy)
      let g := putV g (.pos s br, 1) (-topBottom x * cy)
      let g := putV g (.pos s tl, 0) (left x * cy)
      putV g (.pos s tl, 1) (left x * sy)
    ctrlGrad := fun _ _ g => g
    stateHess := fun _ _ H =>
      let H := putBlock H (.pos s tr) 0 (.pos s tr) 0 2 2 (fun k l => tb k l + lr k l)
      let H := putBlock H (.pos s br) 0 (.pos s br) 0 2 2 tb
      let H := putBlock H (.pos s tr) 0 (.pos s br) 0 2 2 (fun k l => -tb k l)
      let H := putBlock H (.pos s br) 0 (.pos s tr) 0 2 2 (fun k l => -tb k l)
      let H := putBlock H (.pos s tl) 0 (.pos s tl) 0 2 2 lr
      let H := putBlock H (.pos s tr) 0 (.pos s tl) 0 2 2 (fun k l => -lr k l)
      putBlock H (.pos s tl) 0 (.pos s tr) 0 2 2 (fun k l => -lr k l)
    ctrlHess := fun _ _ H => H
    mixedHess := fun _ _ H => H
    stateHessPat :=
      dense (seg (.pos s tr) 0 2) (seg (.pos s tr) 0 2) ++ dense (seg (.pos s br) 0 2) (seg (.pos s br) 0 2) ++
      dense (seg (.pos s tr) 0 2) (seg (.pos s br) 0 2) ++ dense (seg (.pos s br) 0 2) (seg (.pos s tr) 0 2) ++
      dense (seg (.pos s tl) 0 2) (seg (.pos s tl) 0 2) ++ dense (seg (.pos s tr) 0 2) (seg (.pos s tl) 0 2) ++
      dense (seg (.pos s tl) 0 2) (seg (.pos s tr) 0 2)
    ctrlHessPat := []
    mixedHessPat := [] }

/-! ### CoMVelocityCost -/

/-- `LinearMomentumReference::get`, src/private/CoMVelocityCost.cpp:37-58: `ref` is what the velocity reference returns (value and
validity); the result is the momentum reference and its validity. -/
def linearMomentumReference (totalMass : ℝ) (ref : List ℝ × Bool) : List ℝ × Bool :=
  if ref.2 = false then ([0, 0, 0], false)
  else if ref.1.length ≠ 3 then ([0, 0, 0], false)
  else (ref.1.map (totalMass * ·), true)

end
end Verif.NLP
