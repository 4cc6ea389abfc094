import Verif.Model.Bounds
/-
`DynamicalPlanner::Solver` (src/Solver.cpp) as a state machine.  The optimal control problem, the multiple shooting solver, the optimiser,
the integrator (all iDynTree) and the construction of costs and constraints (lines 384-1126) are external: every call to them has an
arbitrary outcome, given as an argument (`SpecifyAnswers`, `SolveAnswers`), and what `solve` asks them is recorded in a trace.  `none` stands
for undefined behaviour: use of an invalid range or access out of bounds.
-/
namespace Verif.SolverM
open StateM
open Labeller (Labeller)
variable {K R : Type}

/-- What is external or uninitialised memory. -/
structure Context (K R : Type) where
  asQuat : M3 K → V4 K
  sqrt : K → K
  extras : R → BoundExtras K
  state : State K
  stateJunk : Junk K
  control : Control K
  controlJunk : ControlJunk K

/-- Guesses of the user with the layout in use when they were given (`StateGuesses`, `ControlGuesses`, Solver.cpp:87-101, 152-168). -/
structure UserGuess (α : Type) where
  object : α
  ranges : Ranges

/-- What `multipleShootingSolver->setGuesses` is called with, Solver.cpp:1707, 1718. -/
inductive Guesses (K : Type) where
  | user (state : UserGuess (K → State K × Bool)) (control : UserGuess (K → Control K × Bool))
  | constant (state : State K) (control : Control K) (ranges : Ranges)

/-- The calls of `solve`; problems and shooting solvers are named by the number of the problem. -/
inductive Call (K : Type) where
  | setInitialState (shooter : Nat) (v : List K)
  | setTimeHorizon (problem : Nat) (t0 t1 : K)
  | setGuesses (shooter : Nat) (g : Guesses K)
  | optimise (shooter : Nat)

/-- `Solver::Implementation`, Solver.cpp:289-327.  `settings` is `none` before the first valid settings; `created` counts the optimal control
problems made, `problem` is the one in `ocProblem`, `shooter` the one inside `multipleShootingSolver`; `horizon p` is the time horizon
of problem `p`; `integrator` tells whether a method was given. -/
structure Solver (K R : Type) where
  settings : Option (Settings.SettingsStruct K R)
  optimizer : Bool
  integrator : Bool
  created : Nat
  problem : Nat
  shooter : Option Nat
  horizon : Nat → Option (K × K)
  stateStructure : Labeller K
  controlStructure : Labeller K
  ranges : Option Ranges
  bounds : Option (Bounds K)
  initialStateVector : List K
  plusInfinity : K
  minusInfinity : K
  initialState : State K
  optimalStates : List (State K)
  optimalControls : List (Control K)
  stateTimings : List K
  controlTimings : List K
  stateGuess : Option (UserGuess (K → State K × Bool))
  controlGuess : Option (UserGuess (K → Control K × Bool))
  prepared : Bool
  firstRun : Bool

/-- Solver.cpp:1385-1400: constructor; `ipopt` holds the infinities of Ipopt if it is available; `firstRun` is not initialised. -/
def Solver.new [Field K] (E : Context K R) (ipopt : Option (K × K)) (firstRun : Bool) : Solver K R :=
  { settings := none, optimizer := ipopt.isSome, integrator := false, created := 0, problem := 0, shooter := none, horizon := fun _ => none
    stateStructure := Labeller.init K, controlStructure := Labeller.init K, ranges := none, bounds := none, initialStateVector := []
    plusInfinity := match ipopt with | some i => i.1 | none => 10 ^ 19
    minusInfinity := match ipopt with | some i => i.2 | none => -(10 ^ 19)
    initialState := State.default E.state, optimalStates := [], optimalControls := [], stateTimings := [], controlTimings := []
    stateGuess := none, controlGuess := none, prepared := false, firstRun := firstRun }

/-- Outcomes of the external calls of `specifySettings`, in order. -/
structure SpecifyAnswers (K : Type) where
  loadRobotModel : Bool
  setDynamicalSystemConstraint : Bool
  setCosts : Bool
  setConstraints : Bool
  setTimeHorizon : Bool
  setStepSizeBounds : Bool
  setControlPeriod : Bool
  setOptimizer : Bool
  setIntegrator : Bool
  setStateBounds : Bool
  setControlBounds : Bool
  getPossibleTimings : Bool
  stateTimings : List K
  controlTimings : List K
  setTimings : Bool

/-- Solver.cpp:1416-1423: the initial state is kept only if it has the right size (and is not the empty one). -/
def initialStateFor [Zero K] [One K] (E : Context K R) (s : State K) (d n : Nat) : State K :=
  if s.checkSize 0 0 then (s.resize d n E.stateJunk).zero
  else if !s.checkSize d n then (s.resize d n E.stateJunk).zero
  else s

/-- Solver.cpp:1560-1590: the end of `specifySettings`, once the bounds are set. -/
def specifyTimings [Field K] (E : Context K R) (s : Solver K R) (st : Settings.SettingsStruct K R) (a : SpecifyAnswers K) : Solver K R × Bool :=
  let s := { s with stateTimings := a.stateTimings, controlTimings := a.controlTimings }
  if !a.getPossibleTimings then (s, false)
  else if !a.setTimings then (s, false)
  else
    let d := st.robotModel.nrOfDOFs
    let n := st.nLeftPoints
    ({ s with
      optimalStates := resizeList s.optimalStates a.stateTimings.length (State.new E.state d n E.stateJunk)
      optimalControls := resizeList s.optimalControls a.controlTimings.length (Control.new E.control d n E.controlJunk)
      prepared := true, firstRun := true }, true)

/-- Solver.cpp:1501-1558: the shooting solver has been made.  The integrator (lines 1524-1550) is the given one or the default one: one outcome
in all cases. -/
def specifyShooting [Field K] (E : Context K R) (s : Solver K R) (st : Settings.SettingsStruct K R) (r : Ranges) (a : SpecifyAnswers K) :
    Option (Solver K R × Bool) :=
  if !a.setStepSizeBounds then some (s, false)
  else if !a.setControlPeriod then some (s, false)
  else if s.optimizer && !a.setOptimizer then some (s, false)
  else if !a.setIntegrator then some (s, false)
  else
    match setBounds s.minusInfinity s.plusInfinity r st (E.extras st.rest) with
    | none => none
    | some b =>
      if !a.setStateBounds then some (s, false)
      else if !a.setControlBounds then some (s, false)
      else some (specifyTimings E { s with bounds := some b } st a)

/-- Solver.cpp:1434-1499: from the robot model to the time horizon and the new shooting solver. -/
def specifyProblem [Field K] (E : Context K R) (s : Solver K R) (st : Settings.SettingsStruct K R) (r : Ranges) (a : SpecifyAnswers K) :
    Option (Solver K R × Bool) :=
  if !a.loadRobotModel then some (s, false)
  else
    let s := { s with problem := s.created, created := s.created + 1 }
    if !a.setDynamicalSystemConstraint then some (s, false)
    else if !a.setCosts then some (s, false)
    else if !a.setConstraints then some (s, false)
    else if !a.setTimeHorizon then some (s, false)
    else specifyShooting E { s with
        horizon := Function.update s.horizon s.problem (some (s.initialState.time, s.initialState.time + st.horizon))
        shooter := some s.problem } st r a

/-- Solver.cpp:1404-1591 (`specifySettings`). -/
def specifySettings [Field K] (E : Context K R) (s : Solver K R) (settings : Settings.Settings K R) (a : SpecifyAnswers K) :
    Option (Solver K R × Bool) :=
  if !settings.isValid then some (s, false)
  else
    match settings.stored with
    | none => none
    | some st =>
      match setVariablesStructure s.stateStructure s.controlStructure st.robotModel.nrOfDOFs st.nLeftPoints with
      | none => none
      | some (ss, cs, r) =>
        specifyProblem E { s with
          settings := some st, initialState := initialStateFor E s.initialState st.robotModel.nrOfDOFs st.nLeftPoints
          stateStructure := ss, controlStructure := cs, ranges := some r } st r a

/-- Solver.cpp:1593-1610. -/
def setInitialState (s : Solver K R) (x : State K) : Solver K R × Bool :=
  if !s.prepared then (s, false)
  else if !s.initialState.sameSize x then (s, false)
  else ({ s with initialState := x }, true)

/-- Solver.cpp:1612-1637; null pointers are `none`. -/
def setGuesses (s : Solver K R) (states : Option (K → State K × Bool)) (controls : Option (K → Control K × Bool)) : Option (Solver K R × Bool) :=
  if !s.prepared then some (s, false)
  else
    match states, controls with
    | some g, some h =>
      match s.ranges with
      | none => none
      | some r => some ({ s with stateGuess := some ⟨g, r⟩, controlGuess := some ⟨h, r⟩ }, true)
    | _, _ => some (s, false)

/-- Solver.cpp:1639-1658: the optimiser is given by its infinities (plus, minus); `ok` is the outcome of the shooting solver. -/
def setOptimizer (s : Solver K R) (optimizer : Option (K × K)) (ok : Bool) : Solver K R × Bool :=
  match optimizer with
  | none => (s, false)
  | some i =>
    if s.prepared && !ok then (s, false)
    else ({ s with optimizer := true, plusInfinity := i.1, minusInfinity := i.2 }, true)

/-- Solver.cpp:1660-1677. -/
def setIntegrator (s : Solver K R) (given : Bool) (ok : Bool) : Solver K R × Bool :=
  if !given then (s, false)
  else if s.prepared && !ok then (s, false)
  else ({ s with integrator := true }, true)

/-- Outcomes of the external calls of `solve`, in order. -/
structure SolveAnswers (K : Type) where
  setInitialState : Bool
  setTimeHorizon : Bool
  setGuesses : Bool
  solve : Bool
  getTimings : Bool
  stateTimings : List K
  controlTimings : List K
  getSolution : Bool
  states : List (List K)
  controls : List (List K)

/-- Solver.cpp:1267-1269: the loop over the instants, on the states to be filled. -/
def fillStates [Field K] [LinearOrder K] (sqrt : K → K) (r : Ranges) : List K → List (List K) → List (State K) → Option (List (State K))
  | [], _, dest => some dest
  | t :: ts, v :: vs, x :: dest => do
    let x ← unpackState sqrt r v t x
    let rest ← fillStates sqrt r ts vs dest
    some (x :: rest)
  | _ :: _, _, _ => none

/-- Solver.cpp:1271-1273. -/
def fillControls (r : Ranges) : List K → List (List K) → List (Control K) → Option (List (Control K))
  | [], _, dest => some dest
  | t :: ts, v :: vs, x :: dest => do
    let x ← unpackControl r v t x
    let rest ← fillControls r ts vs dest
    some (x :: rest)
  | _ :: _, _, _ => none

/-- Result of `solve`: the object, the returned value, the caller's vectors after the call, and the external calls made. -/
structure SolveResult (K R : Type) where
  solver : Solver K R
  ok : Bool
  states : List (State K)
  controls : List (Control K)
  calls : List (Call K)

/-- Solver.cpp:1704-1726: which guesses are given to the shooting solver, if any. -/
def guessesFor [Zero K] (E : Context K R) (s : Solver K R) (d n : Nat) (r : Ranges) : Option (Guesses K) :=
  match s.stateGuess, s.controlGuess with
  | some g, some h => some (.user g h)
  | _, _ => if s.firstRun then some (.constant s.initialState (Control.new E.control d n E.controlJunk) r) else none

/-- Solver.cpp:1679-1766 (`solve`), after the checks of lines 1681-1693 and `fillInitialState` (line 1695): `s` is the object with the new
`initialStateVector`, `problem` and `shooter` the objects called. -/
def solveWith [Field K] [LinearOrder K] (E : Context K R) (s : Solver K R) (a : SolveAnswers K) (states : List (State K)) (controls : List (Control K))
    (st : Settings.SettingsStruct K R) (r : Ranges) (shooter : Nat) : Option (SolveResult K R) :=
  let d := st.robotModel.nrOfDOFs
  let n := st.nLeftPoints
  let t0 := s.initialState.time
  let c1 : List (Call K) := [.setInitialState shooter s.initialStateVector]
  if !a.setInitialState then some ⟨s, false, states, controls, c1⟩
  else
    let c2 := c1 ++ [.setTimeHorizon s.problem t0 (t0 + st.horizon)]
    if !a.setTimeHorizon then some ⟨s, false, states, controls, c2⟩
    else
      let s := { s with horizon := Function.update s.horizon s.problem (some (t0, t0 + st.horizon)) }
      let g := guessesFor E s d n r
      let c3 := c2 ++ (match g with | some g => [.setGuesses shooter g] | none => [])
      if g.isSome && !a.setGuesses then some ⟨s, false, states, controls, c3⟩
      else
        let c4 := c3 ++ [.optimise shooter]
        if !a.solve then some ⟨s, false, states, controls, c4⟩
        else
          let s := { s with stateTimings := a.stateTimings, controlTimings := a.controlTimings }
          if !a.getTimings then some ⟨s, false, states, controls, c4⟩
          else if !a.getSolution then some ⟨s, false, states, controls, c4⟩
          else
            match fillStates E.sqrt r s.stateTimings a.states (resizeList s.optimalStates s.stateTimings.length (State.new E.state d n E.stateJunk)) with
            | none => none
            | some xs =>
              match fillControls r s.controlTimings a.controls
                  (resizeList s.optimalControls s.controlTimings.length (Control.new E.control d n E.controlJunk)) with
              | none => none
              | some us =>
                some ⟨{ s with optimalStates := xs, optimalControls := us, stateGuess := none, controlGuess := none, firstRun := false },
                  true, xs, us, c4⟩

/-- Solver.cpp:1679-1766 (`solve`): `states` and `controls` are the caller's vectors. -/
def solve [Field K] [LinearOrder K] (E : Context K R) (s : Solver K R) (a : SolveAnswers K) (states : List (State K)) (controls : List (Control K)) :
    Option (SolveResult K R) :=
  if !s.prepared then some ⟨s, false, states, controls, []⟩
  else
    match s.settings, s.ranges, s.shooter with
    | some st, some r, some shooter =>
      if !s.initialState.checkSize st.robotModel.nrOfDOFs st.nLeftPoints then some ⟨s, false, states, controls, []⟩
      else
        match fillInitialState E.asQuat r s.initialState
            (resizeList s.initialStateVector (r.left.positionPoints.length * 2 * 6 + 16 + r.jointsPosition.size) E.stateJunk.joint) with
        | none => none
        | some v => solveWith E { s with initialStateVector := v } a states controls st r shooter
    | _, _, _ => none

/-- The calls a user can make. -/
inductive Op (K R : Type) where
  | specifySettings (settings : Settings.Settings K R) (a : SpecifyAnswers K)
  | setInitialState (x : State K)
  | setGuesses (states : Option (K → State K × Bool)) (controls : Option (K → Control K × Bool))
  | setOptimizer (optimizer : Option (K × K)) (ok : Bool)
  | setIntegrator (given : Bool) (ok : Bool)
  | solve (a : SolveAnswers K)

/-- One call: the object after it and the returned value. -/
def step [Field K] [LinearOrder K] (E : Context K R) (s : Solver K R) : Op K R → Option (Solver K R × Bool)
  | .specifySettings settings a => specifySettings E s settings a
  | .setInitialState x => some (setInitialState s x)
  | .setGuesses g h => setGuesses s g h
  | .setOptimizer o ok => some (setOptimizer s o ok)
  | .setIntegrator g ok => some (setIntegrator s g ok)
  | .solve a => (solve E s a [] []).map fun r => (r.solver, r.ok)

/-- A history of calls, with the returned values. -/
def run [Field K] [LinearOrder K] (E : Context K R) : Solver K R → List (Op K R) → Option (Solver K R × List (Op K R × Bool))
  | s, [] => some (s, [])
  | s, o :: os => do
    let (s, b) ← step E s o
    let (s, l) ← run E s os
    some (s, (o, b) :: l)

end Verif.SolverM
