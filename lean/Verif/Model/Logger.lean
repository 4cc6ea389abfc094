import Verif.Model.State
import Verif.Model.Packing
/-
Model of `Logger::saveSolutionVectorsToFile`, src/Logger.cpp:244-359.  The names of the variables are the real strings; what a new array holds before it is
written is a parameter (`junk`), the quaternion of a rotation is a parameter (`asQuat`).  Reading a vector out of range, or assigning a column that is out of range
or that has another length, is a failure (`none`).  The writing of the MAT file itself is not modelled; the settings saved next to the variables are in Model/LoggedSettings.lean.
-/
namespace Verif.Logger
open Verif.StateM Verif.SolverM
variable {K : Type}

/-- `matioCpp::MultiDimensionalArray<double>` with two dimensions. -/
structure Arr (K : Type) where
  rows : Nat
  cols : Nat
  val : Nat → Nat → K

/-- `std::unordered_map<std::string, MultiDimensionalArray<double>>`. -/
abbrev Logged (K : Type) := String → Option (Arr K)

/-- What the method does with the map. -/
inductive Cmd (K : Type)
  | create (name : String) (rows cols : Nat)
  | put (name : String) (value : Option (List K)) (column : Nat)

/-- Logger.cpp:15-27 for `put` (a name that is not in the map gets an empty array, in which no column can be assigned), lines 249-302 for `create`. -/
def Cmd.run (junk : String → Nat → Nat → K) (m : Logged K) : Cmd K → Option (Logged K)
  | .create name rows cols => some (Function.update m name (some ⟨rows, cols, junk name⟩))
  | .put name value column => do
    let v ← value
    let a ← m name
    if column < a.cols ∧ v.length = a.rows then
      some (Function.update m name (some { a with val := fun r c => if c = column then v.getD r (a.val r c) else a.val r c }))
    else none

/-- The arrays of the states, Logger.cpp:249-270. -/
def createStates (states : List (State K)) : List (Cmd K) :=
  match states with
  | [] => []
  | front :: _ =>
    ((List.range front.left.length).flatMap fun point =>
      [.create ("leftPoint" ++ toString point ++ "Force") 3 states.length, .create ("leftPoint" ++ toString point ++ "Position") 3 states.length]) ++
    ((List.range front.right.length).flatMap fun point =>
      [.create ("rightPoint" ++ toString point ++ "Force") 3 states.length, .create ("rightPoint" ++ toString point ++ "Position") 3 states.length]) ++
    [.create "momentumInCoM" 6 states.length, .create "comPosition" 3 states.length, .create "basePosition" 3 states.length,
      .create "baseQuaternion" 4 states.length, .create "jointsConfiguraion" front.joints.length states.length, .create "stateTime" 1 states.length]

/-- The arrays of the controls, Logger.cpp:272-292. -/
def createControls (controls : List (Control K)) : List (Cmd K) :=
  match controls with
  | [] => []
  | front :: _ =>
    ((List.range front.left.length).flatMap fun point =>
      [.create ("leftPoint" ++ toString point ++ "ForceControl") 3 controls.length, .create ("leftPoint" ++ toString point ++ "VelocityControl") 3 controls.length]) ++
    ((List.range front.right.length).flatMap fun point =>
      [.create ("rightPoint" ++ toString point ++ "ForceControl") 3 controls.length, .create ("rightPoint" ++ toString point ++ "VelocityControl") 3 controls.length]) ++
    [.create "baseLinearVelocity" 3 controls.length, .create "baseQuaternionDerivative" 4 controls.length,
      .create "jointsVelocity" front.jointsVelocity.length controls.length, .create "controlTime" 1 controls.length]

/-- The arrays of the times and of the costs, Logger.cpp:294-302. -/
def createValues (name : String) (values : List K) : List (Cmd K) := if values.length ≠ 0 then [.create name 1 values.length] else []

/-- One state, Logger.cpp:304-322. -/
def putState (asQuat : M3 K → V4 K) (states : List (State K)) (i : Nat) : List (Cmd K) :=
  let numberLeft := (states.head?.map fun s => s.left.length).getD 0
  let numberRight := (states.head?.map fun s => s.right.length).getD 0
  ((List.range numberLeft).flatMap fun point =>
    [.put ("leftPoint" ++ toString point ++ "Force") (do return list3 (← (← states[i]?).left[point]?).force) i,
      .put ("leftPoint" ++ toString point ++ "Position") (do return list3 (← (← states[i]?).left[point]?).position) i]) ++
  ((List.range numberRight).flatMap fun point =>
    [.put ("rightPoint" ++ toString point ++ "Force") (do return list3 (← (← states[i]?).right[point]?).force) i,
      .put ("rightPoint" ++ toString point ++ "Position") (do return list3 (← (← states[i]?).right[point]?).position) i]) ++
  [.put "momentumInCoM" (states[i]?.map fun s => list3 s.linearMomentum ++ list3 s.angularMomentum) i,
    .put "comPosition" (states[i]?.map fun s => list3 s.com) i,
    .put "basePosition" (states[i]?.map fun s => list3 s.base.pos) i,
    .put "baseQuaternion" (states[i]?.map fun s => list4 (asQuat s.base.rot)) i,
    .put "jointsConfiguraion" (states[i]?.map fun s => s.joints) i,
    .put "stateTime" (states[i]?.map fun s => [s.time]) i]

/-- One control, Logger.cpp:324-342. -/
def putControl (controls : List (Control K)) (i : Nat) : List (Cmd K) :=
  let numberLeft := (controls.head?.map fun s => s.left.length).getD 0
  let numberRight := (controls.head?.map fun s => s.right.length).getD 0
  ((List.range numberLeft).flatMap fun point =>
    [.put ("leftPoint" ++ toString point ++ "ForceControl") (do return list3 (← (← controls[i]?).left[point]?).forceControl) i,
      .put ("leftPoint" ++ toString point ++ "VelocityControl") (do return list3 (← (← controls[i]?).left[point]?).velocityControl) i]) ++
  ((List.range numberRight).flatMap fun point =>
    [.put ("rightPoint" ++ toString point ++ "ForceControl") (do return list3 (← (← controls[i]?).right[point]?).forceControl) i,
      .put ("rightPoint" ++ toString point ++ "VelocityControl") (do return list3 (← (← controls[i]?).right[point]?).velocityControl) i]) ++
  [.put "baseLinearVelocity" (controls[i]?.map fun s => list3 s.baseLinearVelocity) i,
    .put "baseQuaternionDerivative" (controls[i]?.map fun s => list4 s.baseQuaternionDerivative) i,
    .put "jointsVelocity" (controls[i]?.map fun s => s.jointsVelocity) i,
    .put "controlTime" (controls[i]?.map fun s => [s.time]) i]

/-- The loops over the times and the costs, Logger.cpp:344-352. -/
def putValues (name : String) (values : List K) : List (Cmd K) :=
  (List.range values.length).map fun i => .put name (values[i]?.map fun v => [v]) i

/-- Logger.cpp:244-352: the map given to `file.write`. -/
def saveSolutionVectors (junk : String → Nat → Nat → K) (asQuat : M3 K → V4 K) (states : List (State K)) (controls : List (Control K))
    (computationalTime costValues : List K) : Option (Logged K) :=
  (createStates states ++ createControls controls ++ createValues "computationalTime" computationalTime ++ createValues "costValue" costValues ++
    ((List.range states.length).flatMap fun i => putState asQuat states i) ++ ((List.range controls.length).flatMap fun i => putControl controls i) ++
    putValues "computationalTime" computationalTime ++ putValues "costValue" costValues).foldlM (Cmd.run junk) fun _ => none

end Verif.Logger
