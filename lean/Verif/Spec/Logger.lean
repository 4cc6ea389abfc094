import Verif.Model.Logger
/- Specification for the saved variables: which they are, and what they hold. -/
namespace Verif.Logger.Spec
open Verif.StateM Verif.Logger
variable {K : Type}

inductive Foot
  | left
  | right

/-- The quantities of a state. -/
inductive StateQ
  | force (foot : Foot) (point : Nat)
  | position (foot : Foot) (point : Nat)
  | momentum | com | basePosition | baseQuaternion | joints | time

/-- The quantities of a control. -/
inductive ControlQ
  | force (foot : Foot) (point : Nat)
  | velocity (foot : Foot) (point : Nat)
  | baseVelocity | quaternionDerivative | jointsVelocity | time

def Foot.name : Foot → String
  | .left => "left"
  | .right => "right"

/-- The names in the file. -/
def StateQ.name : StateQ → String
  | .force foot point => foot.name ++ "Point" ++ toString point ++ "Force"
  | .position foot point => foot.name ++ "Point" ++ toString point ++ "Position"
  | .momentum => "momentumInCoM"
  | .com => "comPosition"
  | .basePosition => "basePosition"
  | .baseQuaternion => "baseQuaternion"
  | .joints => "jointsConfiguraion"
  | .time => "stateTime"

/-- The names in the file. -/
def ControlQ.name : ControlQ → String
  | .force foot point => foot.name ++ "Point" ++ toString point ++ "ForceControl"
  | .velocity foot point => foot.name ++ "Point" ++ toString point ++ "VelocityControl"
  | .baseVelocity => "baseLinearVelocity"
  | .quaternionDerivative => "baseQuaternionDerivative"
  | .jointsVelocity => "jointsVelocity"
  | .time => "controlTime"

def three (v : V3 K) : List K := [v.x, v.y, v.z]
def four (v : V4 K) : List K := [v.w, v.x, v.y, v.z]

def Foot.points (foot : Foot) (s : State K) : List (PointState K) := match foot with | .left => s.left | .right => s.right
def Foot.controls (foot : Foot) (s : Control K) : List (PointControl K) := match foot with | .left => s.left | .right => s.right

/-- The value of a quantity in a state, if the state has it. -/
def StateQ.value (asQuat : M3 K → V4 K) (s : State K) : StateQ → Option (List K)
  | .force foot point => (foot.points s)[point]?.map fun p => three p.force
  | .position foot point => (foot.points s)[point]?.map fun p => three p.position
  | .momentum => some (three s.linearMomentum ++ three s.angularMomentum)
  | .com => some (three s.com)
  | .basePosition => some (three s.base.pos)
  | .baseQuaternion => some (four (asQuat s.base.rot))
  | .joints => some s.joints
  | .time => some [s.time]

/-- The value of a quantity in a control, if the control has it. -/
def ControlQ.value (s : Control K) : ControlQ → Option (List K)
  | .force foot point => (foot.controls s)[point]?.map fun p => three p.forceControl
  | .velocity foot point => (foot.controls s)[point]?.map fun p => three p.velocityControl
  | .baseVelocity => some (three s.baseLinearVelocity)
  | .quaternionDerivative => some (four s.baseQuaternionDerivative)
  | .jointsVelocity => some s.jointsVelocity
  | .time => some [s.time]

/-- Under this name there is a matrix with a column for each item, in the same order, and the column is the value of the item. -/
def Holds {α : Type} (m : Logged K) (name : String) (items : List α) (value : α → Option (List K)) : Prop :=
  ∃ a, m name = some a ∧ a.cols = items.length ∧
    ∀ i item, items[i]? = some item → ∃ v, value item = some v ∧ v.length = a.rows ∧ ∀ r x, v[r]? = some x → a.val r i = x

end Verif.Logger.Spec
