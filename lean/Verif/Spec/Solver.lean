import Verif.Model.Solver
import Verif.Spec.Settings
import Verif.Spec.Packing
/- Histories of calls to the solver: what a user knows from the calls made and the values returned.  No internal state. -/
namespace Verif.SolverM.Spec
open StateM
variable {K R : Type}

/-- The settings objects passed were made with the API of `Settings`: valid ones hold an acceptable structure (this is C10). -/
def SettingsFromAPI [Field K] [LinearOrder K] (ops : List (Op K R)) : Prop :=
  ∀ settings a, Op.specifySettings settings a ∈ ops → settings.isValid = true → ∃ st, settings.stored = some st ∧ Settings.Spec.Acceptable st

/-- Some call of `specifySettings` succeeded. -/
def Configured (log : List (Op K R × Bool)) : Prop := ∃ settings a, (Op.specifySettings settings a, true) ∈ log

/-- A successful `solve`. -/
def Solved (x : Op K R × Bool) : Prop := ∃ a, x = (Op.solve a, true)

/-- A call of `setGuesses` that was accepted. -/
def GuessesGiven (x : Op K R × Bool) : Prop := ∃ g h, x = (Op.setGuesses g h, true)

/-- `specifySettings` called with valid settings, without success. -/
def ConfigurationFailed (x : Op K R × Bool) : Prop := ∃ settings a, x = (Op.specifySettings settings a, false) ∧ settings.isValid = true

/-- No success of `solve` after some success of `specifySettings`. -/
def FreshlyConfigured (log : List (Op K R × Bool)) : Prop :=
  ∃ l1 settings a l2, log = l1 ++ (Op.specifySettings settings a, true) :: l2 ∧ ∀ x ∈ l2, ¬ Solved x

/-- Guesses given by the user, not replaced by others and not yet used in a successful `solve`. -/
def Pending (log : List (Op K R × Bool)) (g : K → State K × Bool) (h : K → Control K × Bool) : Prop :=
  ∃ l1 l2, log = l1 ++ (Op.setGuesses (some g) (some h), true) :: l2 ∧ ∀ x ∈ l2, ¬ Solved x ∧ ¬ GuessesGiven x

/-- The last call of `specifySettings` with valid settings succeeded: no failure after some success. -/
def ConfigurationStands (log : List (Op K R × Bool)) : Prop :=
  ∃ l1 settings a l2, log = l1 ++ (Op.specifySettings settings a, true) :: l2 ∧ ∀ x ∈ l2, ¬ ConfigurationFailed x

/-- The settings of the last call of `specifySettings` with valid settings, whatever it returned. -/
def LastSettings (ops : List (Op K R)) (st : Settings.SettingsStruct K R) : Prop :=
  ∃ l1 settings a l2, ops = l1 ++ Op.specifySettings settings a :: l2 ∧ settings.isValid = true ∧ settings.stored = some st ∧
    ∀ settings' a', Op.specifySettings settings' a' ∈ l2 → settings'.isValid = false

/-- All valid settings passed have `n` points per foot. -/
def PointsAlways (n : Nat) (ops : List (Op K R)) : Prop :=
  ∀ settings a, Op.specifySettings settings a ∈ ops → settings.isValid = true → ∀ st, settings.stored = some st → st.nLeftPoints = n

/-- Contract of the shooting solver: one vector per instant, of the length of the layout. -/
structure SolutionOk (d n : Nat) (a : SolveAnswers K) : Prop where
  states : a.states.length = a.stateTimings.length
  controls : a.controls.length = a.controlTimings.length
  stateSize : ∀ v ∈ a.states, v.length = 12 * n + 16 + d
  controlSize : ∀ v ∈ a.controls, v.length = 12 * n + 7 + d

/-- What the shooting solver returns in each call of `solve` of a history is as its contract says, for the settings of that moment. -/
def SolutionsOk (n : Nat) (ops : List (Op K R)) : Prop :=
  ∀ l1 a l2, ops = l1 ++ Op.solve a :: l2 → ∀ st, LastSettings l1 st → SolutionOk st.robotModel.nrOfDOFs n a

/-- The last accepted initial state, with no settings given since. -/
def InitialStateGiven (log : List (Op K R × Bool)) (x : State K) : Prop :=
  ∃ l1 l2, log = l1 ++ (Op.setInitialState x, true) :: l2 ∧
    ∀ y ∈ l2, (∀ z, y ≠ (Op.setInitialState z, true)) ∧ ∀ settings a b, y = (Op.specifySettings settings a, b) → settings.isValid = false

/-- All the external calls of `specifySettings` succeed. -/
def SpecifyAnswers.AllOk (a : SpecifyAnswers K) : Prop :=
  a.loadRobotModel ∧ a.setDynamicalSystemConstraint ∧ a.setCosts ∧ a.setConstraints ∧ a.setTimeHorizon ∧ a.setStepSizeBounds ∧ a.setControlPeriod ∧
    a.setOptimizer ∧ a.setIntegrator ∧ a.setStateBounds ∧ a.setControlBounds ∧ a.getPossibleTimings ∧ a.setTimings

/-- All the external calls of `solve` succeed. -/
def SolveAnswers.AllOk (a : SolveAnswers K) : Prop :=
  a.setInitialState ∧ a.setTimeHorizon ∧ a.setGuesses ∧ a.solve ∧ a.getTimings ∧ a.getSolution

/-- `x` is the state described by the vector `v` at time `t`. -/
structure StateRead [Field K] [LinearOrder K] (sqrt : K → K) (d n : Nat) (t : K) (v : List K) (x : State K) : Prop where
  size : StateSize d n x
  time : x.time = t
  elements : ∃ q, x.base.rot = rotationOf sqrt q ∧ stateVector x q = v

/-- `x` is the control described by the vector `v` at time `t`. -/
structure ControlRead (d n : Nat) (t : K) (v : List K) (x : Control K) : Prop where
  size : ControlSize d n x
  time : x.time = t
  elements : controlVector x = v

/-- One object per instant, each described by the corresponding vector. -/
def Series {α : Type} (read : K → List K → α → Prop) (ts : List K) (vs : List (List K)) (xs : List α) : Prop :=
  xs.length = ts.length ∧ ∀ (i : Nat) (t : K) (v : List K) (x : α), ts[i]? = some t → vs[i]? = some v → xs[i]? = some x → read t v x

end Verif.SolverM.Spec
