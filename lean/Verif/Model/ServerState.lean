import Verif.Model.KinDynCache
import Verif.Model.Timely
/-
Model of how `src/private/ExpressionsServer.cpp` follows the robot state: the variables of the expressions, the state the evaluables ask the shared
computations for, and the shared computations of each time.
-/
namespace Verif.Server
open Verif.KinDyn (RobotState Cache Engine Out sameState updateRobotState)
open Verif.Timely (Timely Handle)

variable {K : Type} [Field K] [LinearOrder K] {M B : Type}

/-- The data members of the server (ExpressionsServer.cpp:30-54) and the objects it reads: `vars` are the values of the variables `quaternion`,
`basePositionExpr`, `s`, `s_dot`, `baseLinearVelocity` and `baseQuaternionVelocity`; `kin` are the computations handed out by
`timelySharedKinDyn`. -/
structure World (K M B : Type) where
  first : Bool
  time : K
  vars : RobotState K
  robotState : RobotState K
  timely : Timely K
  kin : Handle → Cache K M B

/-- The constructor, ExpressionsServer.cpp:66-102: the variables and the state start with whatever their types start with. -/
def World.init (vars robotState : RobotState K) (timely : Timely K) (kin : Handle → Cache K M B) : World K M B :=
  ⟨true, 0, vars, robotState, timely, kin⟩

/-- `updateRobotState(time)`, ExpressionsServer.cpp:151-171; `none` is a failed lookup.  It always returns true. -/
def World.update (tolT : K) (w : World K M B) (t : K) : Option (World K M B × Handle) :=
  match Timely.get w.timely tolT t with
  | none => none
  | some (tm, h) =>
    let w := { w with time := t, timely := tm }
    if w.first || !sameState (w.kin h) w.robotState then
      some ({ w with vars := (w.kin h).state, robotState := (w.kin h).state, first := false }, h)
    else some (w, h)

/-- `updateRobotState(time, currentState)`, ExpressionsServer.cpp:126-149. -/
def World.updateWith (accepts : Engine K M B → RobotState K → Bool) (tolT : K) (w : World K M B) (t : K) (r : RobotState K) :
    Option (World K M B × Handle × Bool) :=
  match Timely.get w.timely tolT t with
  | none => none
  | some (tm, h) =>
    let w := { w with time := t, timely := tm }
    if w.first || !sameState (w.kin h) r then
      let u := updateRobotState accepts (w.kin h) r
      let w := { w with kin := Function.update w.kin h u.1 }
      if !u.2 then some (w, h, false)
      else some ({ w with vars := r, robotState := u.1.state, first := false }, h, true)
    else some (w, h, true)

/-- The evaluation of an expression that asks the shared computations (for example AdjointTransformExpression.cpp,
`m_expressionsServer->currentKinDyn()->getRelativeTransform(m_expressionsServer->currentState(), ...)`): `currentKinDyn()` is line 178-181. -/
def World.evaluate (accepts : Engine K M B → RobotState K → Bool) (tolT : K) (w : World K M B) : Option (World K M B × Handle × Out K M B) :=
  match Timely.get w.timely tolT w.time with
  | none => none
  | some (tm, h) =>
    let r := KinDyn.step accepts (w.kin h) (.query w.robotState)
    some ({ w with timely := tm, kin := Function.update w.kin h r.1 }, h, r.2)

/-- `setTimings`, TimelySharedKinDynComputations.cpp:135-155: the new entries are copies of the template. -/
def World.setTimings (w : World K M B) (l : List K) : World K M B :=
  if w.timely.valid then
    { w with timely := (Timely.setTimings w.timely l).1
             kin := fun h => match h with
               | .template => w.kin .template
               | .entry i => if w.timely.times.length ≤ i ∧ i < l.length then w.kin .template else w.kin (.entry i) }
  else w

/-- The calls: `kin` is any call of another class on one of the shared computations. -/
inductive Op (K M B : Type) where
  | update (t : K)
  | updateWith (t : K) (r : RobotState K)
  | evaluate
  | setTimings (l : List K)
  | kin (h : Handle) (op : KinDyn.Op K M B)

def World.step (accepts : Engine K M B → RobotState K → Bool) (tolT : K) (w : World K M B) : Op K M B → Option (World K M B)
  | .update t => (w.update tolT t).map (·.1)
  | .updateWith t r => (w.updateWith accepts tolT t r).map (·.1)
  | .evaluate => (w.evaluate accepts tolT).map (·.1)
  | .setTimings l => some (w.setTimings l)
  | .kin h op => some { w with kin := Function.update w.kin h (KinDyn.step accepts (w.kin h) op).1 }

/-- A history of calls; `none` if one of the lookups fails. -/
def World.run (accepts : Engine K M B → RobotState K → Bool) (tolT : K) (w : World K M B) : List (Op K M B) → Option (World K M B)
  | [] => some w
  | op :: ops => match w.step accepts tolT op with
    | none => none
    | some w => w.run accepts tolT ops

end Verif.Server
