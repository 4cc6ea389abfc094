import Verif.Model.VariablesLabeller
import Verif.Model.State
import Verif.Model.QuaternionUtils
/-
The optimisation vector: its labels (src/Solver.cpp:330-382, 1298-1324), how states and controls are written in it
(lines 87-216, 1276-1294) and read from it (lines 1326-1380).  Simplifications: `double` is an ordered field; a square root is passed as
`sqrt`; `iDynTree::Rotation::asQuaternion` (external) is the function `asQuat`; `none` stands for an assertion, an access out of
bounds, or the use of an invalid range.
-/
namespace Verif.SolverM
open StateM
open Labeller (Labeller Range slice overwrite)
variable {K : Type}

/-- Solver.cpp:75-77. -/
structure FootRanges where
  positionPoints : List Range
  forcePoints : List Range
  velocityControlPoints : List Range
  forceControlPoints : List Range
deriving DecidableEq

/-- Solver.cpp:79-84. -/
structure Ranges where
  left : FootRanges
  right : FootRanges
  momentum : Range
  comPosition : Range
  basePosition : Range
  baseQuaternion : Range
  jointsPosition : Range
  baseLinearVelocity : Range
  baseQuaternionDerivative : Range
  jointsVelocity : Range
  stateDimension : Nat
  controlDimension : Nat
deriving DecidableEq

/-- `addLabelAndGetIndexRange` followed by the test `isValid()`. -/
def addLabel [Zero K] (s : Labeller K) (name : String) (dim : Nat) : Option (Labeller K × Range) :=
  match Labeller.add s name dim with
  | (s', some r) => some (s', r)
  | (_, none) => none

/-- Solver.cpp:1298-1324 (`setFootVariables`), after the first `n` points.  Its result is ignored by the caller (lines 335-336): `none`
means that the solver would go on with invalid ranges. -/
def setFootVariables [Zero K] (footName : String) (s c : Labeller K) : Nat → Option (Labeller K × Labeller K × FootRanges)
  | 0 => some (s, c, ⟨[], [], [], []⟩)
  | i + 1 =>
    match setFootVariables footName s c i with
    | none => none
    | some (s, c, r) =>
      match addLabel s (footName ++ "ForcePoint" ++ toString i) 3 with
      | none => none
      | some (s, force) =>
        match addLabel s (footName ++ "PositionPoint" ++ toString i) 3 with
        | none => none
        | some (s, position) =>
          match addLabel c (footName ++ "VelocityControlPoint" ++ toString i) 3 with
          | none => none
          | some (c, velocityControl) =>
            match addLabel c (footName ++ "ForceControlPoint" ++ toString i) 3 with
            | none => none
            | some (c, forceControl) =>
              some (s, c, { positionPoints := r.positionPoints ++ [position]
                            forcePoints := r.forcePoints ++ [force]
                            velocityControlPoints := r.velocityControlPoints ++ [velocityControl]
                            forceControlPoints := r.forceControlPoints ++ [forceControl] })

/-- Solver.cpp:330-382 (`setVariablesStructure`). -/
def setVariablesStructure [Zero K] (s c : Labeller K) (numberOfDofs numberOfPoints : Nat) : Option (Labeller K × Labeller K × Ranges) := do
  let (s, c, left) ← setFootVariables "Left" (Labeller.clear s) (Labeller.clear c) numberOfPoints
  let (s, c, right) ← setFootVariables "Right" s c numberOfPoints
  let (s, momentum) ← addLabel s "Momentum" 6
  let (s, comPosition) ← addLabel s "CoMPosition" 3
  let (s, basePosition) ← addLabel s "BasePosition" 3
  let (s, baseQuaternion) ← addLabel s "BaseQuaternion" 4
  let (s, jointsPosition) ← addLabel s "JointsPosition" numberOfDofs
  let (c, baseLinearVelocity) ← addLabel c "BaseLinearVelocity" 3
  let (c, baseQuaternionDerivative) ← addLabel c "BaseQuaternionDerivative" 4
  let (c, jointsVelocity) ← addLabel c "JointsVelocity" numberOfDofs
  some (s, c, { left, right, momentum, comPosition, basePosition, baseQuaternion, jointsPosition, baseLinearVelocity,
                baseQuaternionDerivative, jointsVelocity,
                stateDimension := Labeller.size s, controlDimension := Labeller.size c })

/-- Components in memory order. -/
def list3 (v : V3 K) : List K := [v.x, v.y, v.z]
/-- Components in memory order. -/
def list4 (v : V4 K) : List K := [v.w, v.x, v.y, v.z]

/-- `setSegment`, Solver.cpp:91-94, 158-161, 1334-1337: Eigen's `segment(offset, size) = x`. -/
def setSegment (r : Range) (x v : List K) : Option (List K) :=
  if r.offset + r.size ≤ v.length ∧ x.length = r.size then some (overwrite v r.offset x) else none

/-- Loops at Solver.cpp:131-134, 136-139, 1279-1282, 1284-1287. -/
def packPoints : List Range → List Range → List (PointState K) → List K → Option (List K)
  | [], _, _, v => some v
  | p :: ps, f :: fs, x :: xs, v =>
    match setSegment p (list3 x.position) v with
    | none => none
    | some v =>
      match setSegment f (list3 x.force) v with
      | none => none
      | some v => packPoints ps fs xs v
  | _ :: _, _, _, _ => none

/-- Solver.cpp:131-145 and 1279-1293: the state written in `v`. -/
def packState (asQuat : M3 K → V4 K) (r : Ranges) (s : State K) (v : List K) : Option (List K) := do
  let v ← packPoints r.left.positionPoints r.left.forcePoints s.left v
  let v ← packPoints r.right.positionPoints r.right.forcePoints s.right v
  let v ← setSegment r.momentum (list3 s.linearMomentum ++ list3 s.angularMomentum) v
  let v ← setSegment r.comPosition (list3 s.com) v
  let v ← setSegment r.basePosition (list3 s.base.pos) v
  let v ← setSegment r.baseQuaternion (list4 (asQuat s.base.rot)) v
  setSegment r.jointsPosition s.joints v

/-- Solver.cpp:1276-1294 (`fillInitialState`); `v` is the vector after its resize (line 1277, the size is checked by the model),
whatever it holds. -/
def fillInitialState (asQuat : M3 K → V4 K) (r : Ranges) (s : State K) (v : List K) : Option (List K) :=
  if v.length = r.left.positionPoints.length * 2 * 6 + 16 + r.jointsPosition.size then packState asQuat r s v else none

/-- Loops at Solver.cpp:198-201, 203-206. -/
def packPointsControl : List Range → List Range → List (PointControl K) → List K → Option (List K)
  | [], _, _, v => some v
  | f :: fs, w :: ws, x :: xs, v =>
    match setSegment f (list3 x.forceControl) v with
    | none => none
    | some v =>
      match setSegment w (list3 x.velocityControl) v with
      | none => none
      | some v => packPointsControl fs ws xs v
  | _ :: _, _, _, _ => none

/-- Solver.cpp:198-210: the control written in `v`. -/
def packControl (r : Ranges) (s : Control K) (v : List K) : Option (List K) := do
  let v ← packPointsControl r.left.forceControlPoints r.left.velocityControlPoints s.left v
  let v ← packPointsControl r.right.forceControlPoints r.right.velocityControlPoints s.right v
  let v ← setSegment r.baseLinearVelocity (list3 s.baseLinearVelocity) v
  let v ← setSegment r.baseQuaternionDerivative (list4 s.baseQuaternionDerivative) v
  setSegment r.jointsVelocity s.jointsVelocity v

/-- Solver.cpp:112-148 (`StateGuesses::get`): the vector returned (the buffer, now with this content) and `isValid`, given what the
user's object returned. -/
def stateGuessGet [Zero K] (asQuat : M3 K → V4 K) (r : Ranges) (buffer : List K) (answer : State K × Bool) : Option (List K × Bool) :=
  if !answer.2 then some (List.replicate buffer.length 0, false)
  else if !answer.1.checkSize r.jointsPosition.size r.left.positionPoints.length then some (List.replicate buffer.length 0, false)
  else match packState asQuat r answer.1 buffer with
    | some v => some (v, true)
    | none => none

/-- Solver.cpp:179-213 (`ControlGuesses::get`). -/
def controlGuessGet [Zero K] (r : Ranges) (buffer : List K) (answer : Control K × Bool) : Option (List K × Bool) :=
  if !answer.2 then some (List.replicate buffer.length 0, false)
  else if !answer.1.checkSize r.jointsPosition.size r.left.positionPoints.length then some (List.replicate buffer.length 0, false)
  else match packControl r answer.1 buffer with
    | some v => some (v, true)
    | none => none

/-- `segment`, Solver.cpp:1326-1332. -/
def segment (r : Range) (v : List K) : Option (List K) := if r.offset + r.size ≤ v.length then some (slice v r) else none

/-- A segment assigned to a vector of three elements. -/
def segment3 (r : Range) (v : List K) : Option (V3 K) :=
  match segment r v with
  | some [x, y, z] => some ⟨x, y, z⟩
  | _ => none

/-- A segment assigned to a vector of four elements. -/
def segment4 (r : Range) (v : List K) : Option (V4 K) :=
  match segment r v with
  | some [w, x, y, z] => some ⟨w, x, y, z⟩
  | _ => none

/-- A segment assigned to a spatial vector. -/
def segment6 (r : Range) (v : List K) : Option (V3 K × V3 K) :=
  match segment r v with
  | some [x, y, z, a, b, c] => some (⟨x, y, z⟩, ⟨a, b, c⟩)
  | _ => none

/-- Loops at Solver.cpp:1340-1343, 1345-1348, on the points of the state to be filled. -/
def unpackPoints (v : List K) : List Range → List Range → List (PointState K) → Option (List (PointState K))
  | [], _, d => some d
  | p :: ps, f :: fs, _ :: d => do
    let position ← segment3 p v
    let force ← segment3 f v
    let rest ← unpackPoints v ps fs d
    some (⟨force, position⟩ :: rest)
  | _ :: _, _, _ => none

/-- `baseRotationBuffer.fromQuaternion(NormalizedQuaternion(q))`, Solver.cpp:1356. -/
def rotationOf [Field K] [LinearOrder K] (sqrt : K → K) (q : V4 K) : M3 K :=
  let R := Quaternion.rotationFromQuaternion (Quaternion.normalized sqrt ![q.w, q.x, q.y, q.z])
  ⟨⟨R 0 0, R 0 1, R 0 2⟩, ⟨R 1 0, R 1 1, R 1 2⟩, ⟨R 2 0, R 2 1, R 2 2⟩⟩

/-- Solver.cpp:1339-1362 (`setStateFromVariables`): the state after filling `dest`. -/
def unpackState [Field K] [LinearOrder K] (sqrt : K → K) (r : Ranges) (v : List K) (time : K) (dest : State K) : Option (State K) := do
  let left ← unpackPoints v r.left.positionPoints r.left.forcePoints dest.left
  let right ← unpackPoints v r.right.positionPoints r.right.forcePoints dest.right
  let momentum ← segment6 r.momentum v
  let com ← segment3 r.comPosition v
  let basePosition ← segment3 r.basePosition v
  let q ← segment4 r.baseQuaternion v
  let joints ← segment r.jointsPosition v
  some { left, right, linearMomentum := momentum.1, angularMomentum := momentum.2, com, base := ⟨rotationOf sqrt q, basePosition⟩, joints, time }

/-- Loops at Solver.cpp:1366-1369, 1371-1374. -/
def unpackPointsControl (v : List K) : List Range → List Range → List (PointControl K) → Option (List (PointControl K))
  | [], _, d => some d
  | f :: fs, w :: ws, _ :: d => do
    let force ← segment3 f v
    let velocity ← segment3 w v
    let rest ← unpackPointsControl v fs ws d
    some (⟨force, velocity⟩ :: rest)
  | _ :: _, _, _ => none

/-- Solver.cpp:1364-1380 (`setControlFromVariables`). -/
def unpackControl (r : Ranges) (v : List K) (time : K) (dest : Control K) : Option (Control K) := do
  let left ← unpackPointsControl v r.left.forceControlPoints r.left.velocityControlPoints dest.left
  let right ← unpackPointsControl v r.right.forceControlPoints r.right.velocityControlPoints dest.right
  let baseLinearVelocity ← segment3 r.baseLinearVelocity v
  let baseQuaternionDerivative ← segment4 r.baseQuaternionDerivative v
  let jointsVelocity ← segment r.jointsVelocity v
  some { left, right, baseLinearVelocity, baseQuaternionDerivative, jointsVelocity, time }

end Verif.SolverM
