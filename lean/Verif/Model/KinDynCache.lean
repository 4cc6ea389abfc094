import Mathlib.Algebra.Order.Field.Basic
import Mathlib.Algebra.Order.AbsoluteValue.Basic
/-
Model of the state cache of `DynamicalPlanner::Private::SharedKinDynComputations`
(src/private/SharedKinDynComputations.cpp).

External: `iDynTree::KinDynComputations`.  It is modelled by what it was last told: a robot model, a floating base
and the last accepted robot state/gravity (`none` = the reset state after loading a model).  Whether
`setRobotState` accepts a state is the parameter `accepts`; the outcome of loading a model, changing the floating
base and computing the traversal are inputs of the corresponding operation.
All public methods hold `m_data->mutex` for their whole duration (e.g. lines 234, 281, 295, 313, 342, 349, 361), hence
a concurrent execution is a sequence of the atomic operations below (except `gravity()`, `currentState()`, `model()`
which return references without locking).
-/
namespace Verif.KinDyn

variable {K : Type} [Field K] [LinearOrder K]

/-- include/DynamicalPlannerPrivate/Utilities/CheckEqualVector.h:16-29 (`checkDoublesAreEqual(a,b,tol)` is
`|a-b| < tol`). -/
def vectorsAreEqual (tol : K) (v w : List K) : Bool :=
  if v.length ≠ w.length then false
  else (v.zip w).all fun p => decide (|p.1 - p.2| < tol)

/-- SharedKinDynComputations.h:29-36. -/
structure RobotState (K : Type) where
  basePosition : List K
  baseQuaternion : List K
  s : List K
  baseLinearVelocity : List K
  baseQuaternionVelocity : List K
  sDot : List K
deriving DecidableEq

/-- What the external engine currently holds. -/
structure Engine (K M B : Type) where
  model : Option M
  base : Option B
  pushed : Option (RobotState K × List K)
deriving DecidableEq

/-- The members of `SharedKinDynComputations::Data` that matter for the cache (SharedKinDynComputations.cpp:19-44).
`baseFrom` is the robot state from which `m_data->baseTransform` was last computed. -/
structure Cache (K M B : Type) where
  engine : Engine K M B
  state : RobotState K
  gravity : List K
  baseFrom : Option (RobotState K)
  updateNecessary : Bool
  tol : K

variable {M B : Type}

/-- Constructor, SharedKinDynComputations.cpp:193-205 (`defaultTol` is `iDynTree::DEFAULT_TOL`; `g` is 9.81). -/
def init (M B : Type) (defaultTol g : K) : Cache K M B :=
  { engine := { model := none, base := none, pushed := none }
    state := { basePosition := [0, 0, 0], baseQuaternion := [1, 0, 0, 0], s := [], baseLinearVelocity := [0, 0, 0]
               baseQuaternionVelocity := [0, 0, 0, 0], sDot := [] }
    gravity := [0, 0, -g]
    baseFrom := none
    updateNecessary := true
    tol := defaultTol }

/-- SharedKinDynComputations.cpp:46-58. -/
def sameState (c : Cache K M B) (o : RobotState K) : Bool :=
  !c.updateNecessary
  && vectorsAreEqual c.tol o.basePosition c.state.basePosition
  && vectorsAreEqual c.tol o.baseQuaternion c.state.baseQuaternion
  && vectorsAreEqual c.tol o.s c.state.s
  && vectorsAreEqual c.tol o.baseLinearVelocity c.state.baseLinearVelocity
  && vectorsAreEqual c.tol o.baseQuaternionVelocity c.state.baseQuaternionVelocity
  && vectorsAreEqual c.tol o.sDot c.state.sDot

/-- SharedKinDynComputations.cpp:60-86.  The base transform buffers are written before the engine is asked. -/
def updateRobotState (accepts : Engine K M B → RobotState K → Bool) (c : Cache K M B) (r : RobotState K) :
    Cache K M B × Bool :=
  if !sameState c r then
    if accepts c.engine r then
      ({ c with baseFrom := some r, engine := { c.engine with pushed := some (r, c.gravity) },
                updateNecessary := false, state := r }, true)
    else ({ c with baseFrom := some r }, false)
  else (c, true)

/-- SharedKinDynComputations.cpp:232-267.  `nDofs` is the number of degrees of freedom of the loaded model, `ok` and
`okTraversal` are the outcomes of the external calls at lines 235 and 243.  A successful external load resets the
engine's robot state. -/
def loadRobotModel (c : Cache K M B) (m : M) (b : B) (nDofs : Nat) (ok okTraversal : Bool) : Cache K M B × Bool :=
  if ok then
    ({ c with engine := { model := some m, base := some b, pushed := none }
              state := { c.state with s := List.replicate nDofs 0, sDot := List.replicate nDofs 0 } }, okTraversal)
  else (c, false)

/-- SharedKinDynComputations.cpp:279-286. -/
def setGravity (c : Cache K M B) (g : List K) : Cache K M B :=
  { c with updateNecessary := if !vectorsAreEqual c.tol g c.gravity then true else c.updateNecessary
           gravity := g }

/-- SharedKinDynComputations.cpp:293-304. -/
def setToleranceForUpdate (c : Cache K M B) (tol : K) : Cache K M B × Bool :=
  if tol < 0 then (c, false) else ({ c with tol := tol }, true)

/-- SharedKinDynComputations.cpp:311-328; `ok`, `okTraversal` are the outcomes at lines 317 and 321. -/
def setFloatingBase (c : Cache K M B) (b : B) (ok okTraversal : Bool) : Cache K M B × Bool :=
  let c := { c with updateNecessary := true }
  if ok then ({ c with engine := { c.engine with base := some b } }, okTraversal)
  else (c, false)

/-- The public calls. `query` stands for every method that updates the state and then asks the engine
(lines 359-400, 413-776); `baseTransform` is `getBaseTransform` (402-410). -/
inductive Op (K M B : Type) where
  | load (m : M) (b : B) (nDofs : Nat) (ok okTraversal : Bool)
  | setGravity (g : List K)
  | setTol (tol : K)
  | setBase (b : B) (ok okTraversal : Bool)
  | update (r : RobotState K)
  | query (r : RobotState K)
  | baseTransform (r : RobotState K)

/-- What a call returns: a flag; the engine content from which the answer is computed; the robot state whose base
transform is returned; or `refused` (method returns false / the assertion on `ok` fails). -/
inductive Out (K M B : Type) where
  | flag (b : Bool)
  | answer (e : Engine K M B)
  | base (r : Option (RobotState K))
  | refused
deriving DecidableEq

def step (accepts : Engine K M B → RobotState K → Bool) (c : Cache K M B) : Op K M B → Cache K M B × Out K M B
  | .load m b n ok okT => let r := loadRobotModel c m b n ok okT; (r.1, .flag r.2)
  | .setGravity g => (setGravity c g, .flag true)
  | .setTol t => let r := setToleranceForUpdate c t; (r.1, .flag r.2)
  | .setBase b ok okT => let r := setFloatingBase c b ok okT; (r.1, .flag r.2)
  | .update r => let u := updateRobotState accepts c r; (u.1, .flag u.2)
  | .query r =>
    let u := updateRobotState accepts c r
    if u.2 then (u.1, .answer u.1.engine) else (u.1, .refused)
  | .baseTransform r =>
    let u := updateRobotState accepts c r
    if u.2 then (u.1, .base u.1.baseFrom) else (u.1, .refused)

/-- The object after a history of calls. -/
def run (accepts : Engine K M B → RobotState K → Bool) (c : Cache K M B) (ops : List (Op K M B)) : Cache K M B :=
  ops.foldl (fun c op => (step accepts c op).1) c

end Verif.KinDyn
