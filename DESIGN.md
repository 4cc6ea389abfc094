# Formal model of ami-iit/dynamical-planner in Lean 4

## Method

* `lean/Verif/Model/*.lean` – model of the C++ code, function by function; each definition cites file and lines in
  `/repo`. Executable where the code only compares, copies and does field arithmetic; over ℝ (noncomputable) where square
  roots, trigonometry or derivatives appear.
* `lean/Verif/Spec/*.lean` – small independent specifications: physics (Newton–Euler, Coulomb cone), geometry (poses,
  rigid trees, orientation angle), calculus (`GradAt`, `HessAt`, `SparsityCovers`: built on Mathlib's `HasDerivAt`
  along each coordinate), abstract maps. Those that import a model file do so for the types and data they speak
  about (inputs, states, expressions), not to define what is right.
* `lean/Verif/Lemmas/*.lean` – helper lemmas.
* `lean/Verif/Props/*.lean` – the property theorems. Beside each, an `example` (or a theorem named `…_example`,
  `…_nonvacuous`) shows a concrete non-trivial case that meets the hypotheses. A `_partial` theorem proves part of a
  property; a `_negation`/`_finding_…` theorem proves that the code, as modelled, violates the rest.
* `seeded/LOG.jsonl` – the wrong programs the theorems were tested against.

## Trusted base

* Lean 4.33.0's kernel, Mathlib as installed; axioms: see the last section. No `native_decide`, no own axioms.
* The reading of the C++ source (there is no extraction): every definition of the model cites the lines it models.
* `double` is an ordered field, or ℝ when analysis is needed. Rounding, overflow and NaN are not modelled; where the
  code would compute 0/0 the theorem has a hypothesis that excludes it, or the model has a distinct outcome.
* `size_t`/`int`/`unsigned` are `Nat`/`Int` without wrap-around.
* External code is a parameter with an explicit contract, or described by the equation it is documented to satisfy:
  iDynTree (`KinDynComputations`, `Rotation::asQuaternion`, Jacobians, `OptimalControlProblem`,
  `MultipleShootingSolver`, the optimiser), Eigen (linear solver, matrix algebra), the standard library. Out-of-bounds
  accesses, where reachable, are explicit outcomes.
* `assert` is read as a precondition that is checked in debug builds only: where its failure matters it is a hypothesis
  or a distinct outcome.
* Concurrency: the only parallel code is the evaluation of the Hessians of `CentroidalMomentumConstraint` (`std::async`)
  with the mutexes of levi. `Parallel` models every access to shared memory and quantifies over all interleavings, in a
  sequentially consistent memory; that is justified, where C90_no_race_partial applies, by the guarantee that C++ gives to
  programs without data races. Copies of expressions passed to the threads are taken as made before the threads start.
  The model of the constraint itself takes the single evaluations as atomic and quantifies over the order in which
  results are collected.

## What is modelled and what is not

| code | model |
|----|----|
| `Utilities/VariablesLabeller`, `State`, `Control`, `Utilities.cpp` | `VariablesLabeller`, `Vars`, `State`, `Utilities` – all public functions |
| `SharedKinDynComputations`, `TimelySharedKinDynComputations` | `KinDynCache` (cache, tolerance, gravity, base transform), `Timely` (grid, lookup), `Rigid`/`StaticForces` (frame velocity, momentum, static torques and their derivatives as loops over the tree) |
| `RectangularFoot`, `PositionReferenceGenerator`, `SimpleWalkingStateMachine` | `RectangularFoot`, `Reference`, `Walking` – all public functions |
| `Settings.cpp` | `Settings` – the validation and storing; defaults only where a property mentions them |
| `Solver.cpp` | `Solver` (public calls as a state machine over external outcomes), `Packing`, `Bounds`, `Problem` (which costs and constraints are created, with which members) |
| levi (`Expression`, `Evaluable`, operators, tree expressions, squeeze, registrar) | `Levi`/`LeviMatrix` (operators, derivatives, rewriting), `EvalCache` (call counters, `isNew`), `DependenciesSet`, `Squeeze`, `CodeGen` and `CodeText` (generated code), `Parallel` (`evaluateID` with its mutex, several threads) |
| `sharedlibpp`, `CompiledEvaluableFactory` | `Plugin` (libraries, factories, objects and the loading of compiled expressions; dlopen and the compiler are external) |
| `SharedLibraryClass` | `LibraryClass` (handles, objects, reference counters) |
| caches of derivatives of levi | `DerivativeCache` |
| constant matrices with few entries (levi) | `BasicMatrices` |
| variables made from expressions (levi) | `AsVariable` |
| variables and matrices that are set, sizes of the nodes (levi) | `SetSizes` |
| `ExpressionsServer` and `levi/*Expression.cpp` | `KinState`, `Kinematics`, `TreeExpr`, `VecExpr`, `MomentumExpr`, `CoMExpr`, `QuaternionExpressions`, `ScalarExpr`, `ServerState` (following the robot state), `ServerMemo` (remembered expressions) |
| `DynamicalConstraints`, all other constraints | `Dynamics`, `Constraints`, `PointConstraints`, `CentroidalMomentum` |
| `Solver.cpp` with the dynamics and the constraints, as one problem | `Plan` (vectors, dynamics and constraints together; not the transcription to finitely many instants, which is external) |
| all costs | `Costs`, `StaticTorquesCost`, `FrameOrientationCost`, `FrameVelocityCost` and those cited in the table below |
| `QuaternionUtils`, `HyperbolicSecant`/`HyperbolicTangent`, height scaling | `QuaternionUtils`, `Smoothing` |
| `CheckEqualVector`, `DefaultInitialState` helpers | inside `KinDynCache`, `Utilities` |
| `Visualizer`, `Logger` | `Visualizer` (scene, drawings, images, waits and commands; not colors, lights, labels), `Logger` and `LoggedSettings` (the variables and the settings saved; not the bytes of the file) |
| **not modelled** | the compiler that turns the code generated by levi into a library (generation and loading are modelled), the window and the files themselves, tests and mains, the text of error messages, memory management and destructors, CMake, timing |

## Findings

Behaviour of the pinned code that contradicts what the documentation or the name promises. Each is a theorem of the
model unless marked (remark).

* Time grid: re-setting a shorter grid keeps objects of the old one (C04). Kinematics cache: `loadRobotModel` again and
  gravity changes below the tolerance are not seen (C06); a refused update leaves the refused base pose (C42).
* Settings: the force derivative cost tests the wrong pointer, joint velocity and foot yaw references are not tested
  (C11, C55); fewer velocity limits than joint limits are read out of bounds (C10); gravity, updateTolerance and
  floatingBaseName have no effect (C55); the force ratio costs get the weight of the force mean costs (C53,
  Solver.cpp:470, 479).
* Bounds: the minimum CoM height is dropped while the target is active, the switch time is absolute, negative tolerances
  and force derivative bounds give empty ranges (C30).
* Solver: after a failed re-configuration the horizon goes to another problem; re-configuring with another number of
  points per foot accesses out of bounds or returns states of the old size (C28).
* Dynamics: the state Jacobian sparsity misses (normal force, same normal force) (C18).
* Planar velocity constraint: multipliers paired with the wrong limits, and the point position of an earlier call is
  used in the Hessian (C22). Phantom force cost: a factor is missing in the height–height entry (C23). Foot yaw cost:
  the initial yaw is subtracted instead of added (C39).
* Quaternion bounds: no tolerance below −1 for the real part (C47).
* `ExpressionsServer::baseTwist`: the angular part is in the world frame although the rest of the server takes it in the
  base frame (C49).
* `AdjointTransformExpression.cpp:245-254`: derivative with respect to the joint just above a frame that is turned with
  respect to its link (C60; inherited by C61, C66, C67 and by the angular velocity cost).
* Static torques cost: feet on the same link overwrite each other's wrench; the gradient depends on the sign convention
  of the quaternion of an inverse rotation; no second derivatives although it is active by default (C68).
* Frame orientation cost: with two costs on one frame the second one's Hessian uses the reference of the first (C69).
* Expressions server: giving a state that the shared kinematics already hold leaves the variables of the expressions at the old state (C71); remembered expressions are looked up by joined names, so different frames or the two directions of a joint between the links 1 and 11 can get each other's expression (C72).
* Logger: which contact points are saved is decided by the first state (control) only, later extra points are dropped silently (C74).
* Visualizer: the arrows of the contact points of a previous state stay in the window when a later state has fewer (C75); in both functions that save an animation the condition on the end time is inverted, so that a positive one never cuts and the default one saves no image while success is reported (C77, C78); the animation of the predictions computes one image less per prediction, and throws std::length_error when the true number needs one more digit (C78); it never shows the states in excess of a multiple of the number of predictions (C78).
* Compiled expressions: `a / (b * c)` is printed `a / b * c`; with a helper for `a * b` the text of `(c / a) * b` becomes `c / helper`; `-((-a) / b)` is printed `--a / b`; a block of a 1×1 expression is printed as a method of a number; exponents have six decimals (C79). Their name: an underscore becomes a minus sign, which is not allowed in the name of a class; a leading digit is kept; punctuation marks are confused (C81).
* The normal velocity of the contact points has no constraint of its own: the class NormalVelocityControlConstraints is created nowhere (commented out in src/Solver.cpp); C85 gets the null normal velocity from the bound on the height.
* Compiled expressions: two expressions alive with names that clean to the same one (`f(x)` and `f[x]`) share the first library, so the second computes the code of the first (C88_finding_same_name).
* Library factory: an empty element in SHLIBPP_PLUGIN_PATH makes `open` read the last letter of an empty string (C89_finding_empty); with zero as start check a factory is valid after a failed opening (C89_finding_zero).
* Parallel evaluation: `isNew` resets dependencies without their mutex; if a variable made from an expression is not up to date when the threads start, a thread can return a value read from a buffer that is being rewritten (C90_stale_variable).
* Static torques cost: it defines a value and gradients but no second derivatives, so that with this cost the objective has none, at any time (C94_static_torques).
* The settings saved next to the solution leave out all the references, active ranges and time varying weights: 22 of 129 members (C96).
* Nothing checks the sign of the weights of the costs: a negative one is accepted and makes the objective unbounded from below (C97).
* levi indexes its caches of derivatives by the name of the variable only: two variables with the same name and different dimensions get each other's derivatives (C99).
* `SharedLibraryClass`: an opening that fails takes a reference that is never given back; a copy destroys the object twice; opening again with a factory that only the handle keeps uses it after deleting it; an object is not destroyed if its factory is not valid any more (C100).
* levi: a row of a rectangular identity below its square part (a column to the right of it) is written out of range; `TwoElementsMatrix` with both entries at one place has the second as value and the first as element; with an entry that is not a constant the matrix keeps the value of the time it was made, its elements and rows do not (C102).
* levi: squeezed and compiled expressions have no derivative with respect to the variables they depend on: an empty expression is made and an assertion reads its sizes; one must derive first and squeeze afterwards (C103).
* levi: a variable with several components can be set to a number; it shrinks, its dimension stays, and a vertical concatenation that contains it then gives the number followed by old values; a `Mutable` takes a matrix of other sizes; the product of a 1×1 variable and a matrix is accepted and fails when evaluated (C104).
* levi: assigning an empty expression of another type to an expression gives its caller ID back but keeps using it (ExpressionImplementation.h:692-707, 723-735); the ID can be given to a dependency, and an evaluation then returns an old value (C105).
* Frame angular velocity cost: it never reads the control (the velocities are whatever earlier calls left in the shared computations), its control gradient is not the one of its value, its control Hessian is missing, and for frames other than the base it adds a velocity in the frame to an error in the world (C70).
* (remark) levi: rectangular identity `row` out of range; `SqueezeEvaluable` has no column derivative; the derivative
  cache is keyed by the name of the variable only. `CoMInBaseJacobian`: null matrix with 6 rows instead of 3. `jointsVelocityCostWeights` used by
  the postural variant although the documentation says it shares the regularization weights. `m_zeroPosition` of the
  position reference is never assigned.

## Property by property

Status and theorem names are in MANIFEST.json; `Props` is the file with the theorems.

| id | property | status | model and proof | Props |
|----|----|----|----|----|
| C01 | Labelled variable blocks tile the optimisation vector | proved | `VariablesLabeller` as a state machine over labels and values; invariant by induction over call histories | Labeller |
| C02 | Labelled variables behave like independent named vectors | proved | same machine; refinement to a map from names to independent vectors | Labeller |
| C03 | Nearest-time kinematics lookup | proved | `getClosestIndex` with its cached interval; correctness of the binary search for every sorted grid and every history | Timely |
| C04 | Re-setting timings replaces the time grid | partial | `setTimings`; negation by a shrinking grid | Timely |
| C05 | Kinematics cache never answers for a different robot state | proved | cache as a state machine over an abstract engine; invariant over histories | KinDynCache |
| C06 | Kinematics cache is invalidated by model and gravity changes | partial | same machine; two negation witnesses and the conditional theorem | KinDynCache |
| C07 | Centre-of-pressure normal force ratios | proved | ordered field algebra, the linear solver as a contract | RectangularFoot |
| C08 | Foot force distribution reproduces the requested wrench | proved | wrench of the distributed forces, algebra with the solver contract | RectangularFoot |
| C09 | Foot configuration is validated and atomic, and points form the configured rectangle | proved | configuration as a transition; case split | RectangularFoot |
| C10 | Settings validation is all-or-nothing | proved | `Settings::setFromStruct` as a decision procedure; exact characterisation of acceptance | Settings |
| C100 | Objects of shared libraries are destroyed once, before their factory | partial | Model/LibraryClass.lean: heap of factories with their reference counter, objects and handles, operations of a program; invariant: the counter is the reference of the maker plus the handles with an object plus the openings that failed; induction on the history | LibraryClass |
| C101 | Variables made from expressions are derived through | proved | Model/AsVariable.lean: getNewColumnDerivative of the nodes (shared with C99) with the list of definitions; the lemmas of C25 for a general motion of the variables (LeviChain), induction on the depth of the recursion; uniqueness of the motion by induction on the definitions; the requests end because the weight of a made variable is larger than the one of its expression | AsVariable |
| C102 | Rows, columns and elements of constant matrices are those of the matrix | partial | Model/BasicMatrices.lean: the four classes with their buffer and the methods row, col and element; entries are functions of the state of the program; cases on the class for one access, induction on the sequence of accesses | BasicMatrices |
| C103 | Squeezed and compiled expressions follow the variables | partial | Model/SqueezeFollow.lean on top of Squeeze and CodeGen: dependencies of the generic expressions, the value remembered between assignments; induction on the expression for the expansion, induction on the history with the invariant that the remembered value is that of an environment which differs in assigned variables only | SqueezeFollow |
| C104 | Variables and matrices that are set keep their sizes, and expressions on them keep working | partial | Model/SetSizes.lean: objects and nodes with their own buffers, all assertions of levi and of Eigen; the program answers like a specification without buffers, by induction on the program with the invariant that every buffer has the sizes of the value of what was written | SetSizes |
| C105 | Expressions can be assigned to each other, and caller IDs are neither shared nor lost | partial | the evaluation cache (C26) with `operator=` between expressions as a further action; the ownership of IDs in the invariant of C26 gives distinct IDs; a second invariant counts: IDs given = recycle bin + users, by induction on the history | AssignExpr |
| C106 | Expressions that compare equal are interchangeable | proved | Spec/EqualExpr.lean: "written in the same way" as an inductive relation; the comparison of Model/Levi.lean decides it, by induction on the expressions; values and derivatives by C46 and C25 | EqualExpr |
| C11 | Accepted settings have every trajectory they need | partial | same; implications for each trajectory and negations for the unchecked ones | Settings |
| C12 | Position reference selects the latest-configured active element | proved | list induction over configured elements | Walking |
| C13 | Walking reference schedule stays consistent | proved | walking schedule as a state machine; invariant over histories | Walking |
| C14 | Walking targets advance by exactly one step increment at a time | proved | same machine; step increments | Walking |
| C15 | Centroidal dynamics obey Newton-Euler | proved | `DynamicalConstraints` for any number of points against Newton–Euler in Spec | Dynamics |
| C16 | Dynamics Jacobians are the derivatives of the dynamics | proved | `HasDerivAt` along every coordinate, for the assembled matrices | Dynamics |
| C17 | Dynamics Hessians are the second derivatives of the dynamics | proved | `HasDerivAt` of the gradients, contracted with the multipliers | Dynamics |
| C18 | Sparsity patterns cover every non-zero derivative entry | partial | non-zero entries are listed in the declared pattern; negation for one entry | Dynamics |
| C19 | Dynamic complementarity drives force times height to the relaxation level | proved | differential inequality of the product force·height (Grönwall type argument) | Constraints |
| C20 | Friction constraint is the Coulomb cone | proved | cone equivalence by algebra | Constraints |
| C21 | Complementarity-family constraints have exact first and second derivatives | proved | `HasDerivAt` for value and gradients | Constraints |
| C22 | Planar velocity control constraint has exact derivatives | partial | the same with the multiplier order and the left-over point as explicit state; negations | Constraints |
| C23 | Phantom force cost has exact derivatives | partial | `HasDerivAt`; exact condition under which the Hessian entry is right | Costs |
| C24 | Quadratic costs are non-negative with exact gradients and Hessians | proved | sum of squares; `HasDerivAt` | Costs |
| C25 | Symbolic derivatives are true derivatives | proved | levi expression trees with shapes; structural induction, derivatives of any order | Levi |
| C26 | Cached evaluation returns current values | proved | heap of evaluables with call counters; invariant over histories | EvalCache |
| C27 | Squeezed evaluation equals direct evaluation | proved | flattening to slots; induction over the expression and invariant of the memory | Squeeze |
| C28 | Solve is gated and leaves results untouched on failure | proved | `Solver` calls over arbitrary external outcomes; `Since` predicates on the call log | Solver |
| C29 | Optimisation vector packing round-trips | proved | packing of states and controls into labelled vectors; round trips | Packing |
| C30 | Time-varying bounds switch exactly once | proved | bounds functions; case split on time | Bounds |
| C31 | Guess providers validate what users supply | proved | guess providers over arbitrary user answers | Packing |
| C32 | Smoothing functions are exact and switchable | proved | `HasDerivAt` of tanh/sech smoothing | Constraints |
| C33 | Quaternion helper identities | proved | quaternion algebra over ℝ, `HasDerivAt` of normalisation and rotation | QuaternionUtils |
| C34 | Translating centre-of-mass guess moves the robot rigidly | proved | rigid translation of the guess | Utilities |
| C35 | Default initial forces carry the weight | proved | weights of initial forces with the solver contract | Utilities |
| C36 | Lowering the robot to the ground terminates with the lowest point near zero | proved | loop as well-founded recursion | Utilities |
| C37 | State and control containers keep consistent sizes | proved | list lemmas on the containers | State |
| C38 | Feet centroid and forward-foot force | proved | averages and selection | State |
| C39 | Foot yaw cost measures the foot yaw error | partial | `HasDerivAt`; negation for turned feet | Costs |
| C40 | Feasible contact constraints prevent slipping and adhesion | proved | combination of friction and planar complementarity | Constraints |
| C41 | Walking state machine never gets stuck | proved | progress of the walking machine | Walking |
| C42 | Base transform buffer follows the requested state | partial | buffer invariant over histories; negation after refusal | KinDynCache |
| C43 | Declared sparsity of constraints and costs is complete | proved | pattern membership of every non-zero entry | CentroidalMomentum, Constraints, Costs, FrameOrientationCost, FrameVelocityCost, PointConstraints |
| C44 | Velocity control constraints depend on the height of the point | proved | dependence of the limits on the height | Constraints |
| C45 | Feasible trajectories never penetrate the ground | proved | trajectory argument with the height dynamics | Constraints |
| C46 | Rewriting of expressions preserves their value | proved | rewriting rules preserve value and shape; structural induction | Levi |
| C47 | Unit quaternions pass the quaternion bounds check | proved | bounds check over ℝ | QuaternionUtils |
| C48 | The base rotation expression is the rotation of the normalised quaternion | proved | levi rotation expression against quaternion rotation | QuaternionExpressions |
| C49 | Base twist expressions give the velocity of the base in the base frame | partial | twist expressions against the derivative of the base pose | QuaternionExpressions |
| C50 | CoM velocity reference is turned into a momentum reference | proved | momentum reference from the velocity reference | Costs |
| C51 | An expression that is not new has not changed | proved | invariant of call counters | EvalCache |
| C52 | An evaluated expression stays up to date until a variable is assigned | proved | invariant of call counters | EvalCache |
| C53 | The costs of the problem are the ones asked by the settings | partial | `Problem` assembly; exact list of costs | Problem |
| C54 | The constraints of the problem are the ones asked by the settings | proved | `Problem` assembly; exact list of constraints | Problem |
| C55 | Validated settings can be turned into a problem | partial | exact characterisation of settings that become a problem | Problem |
| C56 | Costs and constraints find all the contact points | proved | discovery loop over labels for any number of points | Discovery |
| C57 | The derivative of a frame velocity is the true derivative | proved | tree of rigid motions, `HasTangent`; loops over the tree | Kinematics |
| C58 | The derivative of the momentum is the true derivative | proved | same, momentum with any inertias | Kinematics |
| C59 | The derivative of the static torques is the true derivative | proved | same, backward pass as invariant of the loop | StaticForces |
| C60 | Adjoint transforms between frames and their derivatives | partial | adjoint expression nodes with state semantics; derivatives of every order | TreeExpr |
| C61 | Jacobians, relative positions and velocities are those of the robot | partial | vector expressions over the same state semantics | VecExpr |
| C62 | The momentum and its derivatives are those of the robot | proved | momentum expressions, any order | MomentumExpr |
| C63 | The centre of mass and its derivatives are those of the robot | proved | centre of mass expressions | CoMExpr |
| C64 | The centroidal momentum constraint ties the momentum state to the robot | proved | constraint over the expressions; results collected in any order | CentroidalMomentum |
| C65 | The CoM consistency constraint ties the CoM state to the robot | proved | constraint over the expressions | PointConstraints |
| C66 | The contact position constraint ties a contact point to the robot | partial | constraint over the expressions; exact characterisation per column | PointConstraints |
| C67 | The feet distance constraint measures the lateral distance of the feet | partial | constraint over the expressions | PointConstraints |
| C68 | The static torques cost measures the torques that hold the robot | partial | cost over the loops of C59 | StaticTorquesCost |
| C69 | The frame orientation cost measures the angle to the desired orientation | partial | quaternion lift of a rotation curve; cost over expressions | FrameOrientationCost |
| C70 | The frame angular velocity cost penalises the angular velocity of the frame corrected by the orientation error | partial | expression trees over the entries of rotations and absolute velocity; derivative rules of the atoms proved once, then induction over the expression | FrameVelocityCost |
| C71 | Expressions are evaluated at the robot state of the requested time | partial | transition system of the server and the shared kinematics; invariant over all histories | ServerState |
| C72 | The expressions server returns the expression that is asked | partial | maps keyed by joined strings; induction over the history, then injectivity of the keys | ServerMemo |
| C73 | The expression of the relative quaternion is right | proved | expression tree over the Jacobian expressions of C61; induction on the expression, derivative of a lifted rotation | RelativeQuaternion |
| C74 | The saved solution is the solution | proved | the method as a list of commands on a map of arrays; order-insensitive lemma on the writes, injectivity of the names | Logger |
| C75 | The visualizer shows the state | partial | the window as a scene and a log of what is seen; the arrows as a list updated by index; history by induction | Visualizer |
| C76 | A trajectory is shown in order and in time | proved | the loop by induction on the states left; the clock as a parameter | Visualizer |
| C77 | A saved animation has one image per state | partial | floor of the logarithm as the number of digits; reading back the padded number; the loop by induction | Visualizer |
| C78 | The animation of the predictions shows every prediction | partial | the nested loops refined to one loop over a list of frames, then induction on the frames | VisualizerMPC |
| C79 | Compiled expressions have the value of the expressions | partial | texts as tokens and the grammar of C++ with values as an inductive relation; invariants of the vector of components, of the texts and of the helpers through the four expansions; a deterministic reader shows that a text has one meaning | CodeGen |
| C80 | Breaking the generated text into lines does not change it | proved | invariant of the loop over the characters | CodeText |
| C81 | Compiled expressions can be named freely | partial | the map of the characters | CodeText |
| C82 | A set of dependencies tells whether something is new | proved | the invariant of the evaluation cache (C26), preserved in both directions by a question; induction on the set | DependenciesSet |
| C83 | Feasible means consistent with the robot | proved | each constraint object read through the labels and the vectors (lemmas per constraint), and the characterisation of the list of constraints (C54) | Plan |
| C84 | A solution obeys the equations of Newton and Euler | proved | the derivative of each block of the state (C14, C15), the derivative of the kinematics of a tree (C48), uniqueness of derivatives | Plan |
| C85 | Contact points of a solution do not slip | proved | the height has a minimum on the ground, so the normal velocity is null; the planar one by cases on the mechanism | Plan, PlanBounds |
| C86 | Feet and forces along a solution | proved | bounds of C30, constraints of C83 and derivative of the blocks of the state, then a differential inequality (decays) | PlanBounds |
| C87 | What the optimiser minimises | proved | the terms of C53 evaluated with the cost objects of Model/Costs and the files of the kinematic costs on the packed vectors; each one rewritten on the fields (Lemmas/Objective), then induction on the list of terms | Objective |
| C88 | Compiled expressions run their own code | partial | Model/Plugin.lean models the process (disk, environment, loaded libraries, objects) and the functions on it; invariant of the histories of Spec/Plugin.lean | Plugin |
| C89 | A library factory tells the truth about its library | partial | case analysis of open against the specification of the search (Spec/Plugin.lean), invariant of the histories of calls | Plugin |
| C90 | Expressions evaluated in parallel give their values | partial | Model/Parallel.lean: evaluateID and isNew as programs of single memory accesses, interleaved by an arbitrary schedule; rely-guarantee invariant (Lemmas/ParallelSafe, ParallelEval), mutexes taken in decreasing order of creation (Lemmas/ParallelRun), relation with expressions without caches (Spec/Parallel.lean) | Parallel, ParallelCases |
| C91 | The gradient handed to the optimiser is the gradient of the objective | partial | Model/ObjectiveGradient.lean: the gradients of the terms of `setCosts` placed in the vectors of the optimiser through the labelled ranges; the exactness of each cost (C24, C38, C39, C68, C69, C70, ...) is transported along the labelling (every index of the vector has exactly one label, C29) and summed | ObjectiveGradient |
| C92 | The constraints handed to the optimiser have the right rows, bounds, Jacobian and sparsity | partial | Model/ConstraintStack.lean: the objects of `setConstraints`, row by row in the vectors of the optimiser; the exactness and sparsity of each constraint (C20, C21, C64-C67, ...) are transported along the labelling as in C91, the rows within their bounds are the constraints that hold, and C83 gives the physical meaning | ConstraintStack |
| C93 | The second derivatives of the constraints handed to the optimiser are exact, and their sparsity is enough | partial | Model/ConstraintHessians.lean on top of C92: the matrices of each constraint placed in the vectors of the optimiser and summed with the multipliers of the stack; the exactness of each (C20-C22, C64-C67) is transported along the labelling; neighbourhoods in the space of the labelled variables are pulled back to boxes of vectors | ConstraintHessians |
| C94 | The second derivatives of the objective handed to the optimiser are exact, and their sparsity is enough | partial | Model/ObjectiveHessians.lean on top of C91 and C93: the matrices of each cost placed in the vectors of the optimiser and summed with the weights over the costs active at the time; the exactness and the sparsity of each (C23-C27, C39, C69) is transported along the labelling | ObjectiveHessians |
| C95 | The dynamics handed to the optimiser comes with its exact derivatives, in the vectors of the optimiser | partial | Model/DynamicsVector.lean: the dynamics and its derivatives (C15-C18) read and written at the ranges that the solver makes; the exactness is transported along the labelling as for C91-C94; the weighted sum over the labelled entries is reordered into the sum over the vector | DynamicsVector |
| C96 | The settings saved next to a solution are the ones that were given, each under its own name | partial | Model/LoggedSettings.lean: all 129 members of the structure of the settings and the 107 calls of setField with the strings of the code; the fold of setField is the list of the calls because the names are all different (kernel computation on the 107 literal names), then field by field | LoggedSettings |
| C97 | With weights that are not negative what the optimiser minimises is bounded from below | proved | Spec/ObjectiveSign.lean: the weights are not negative; each of the 25 costs of the table measures a value that is not negative (sums of squares; for the orientation, the trace of a product of rotations is at most 3), then the sum of C87 | ObjectiveSign |
| C98 | The exponential weight depends on the time only, decays to its offset and can be used as a weight | proved | Model/ExponentialWeight.lean: the object with its output member and histories of calls; real analysis of the exponential | ExponentialWeight |
| C99 | The caches of the derivatives do not change what is answered | proved | Model/DerivativeCache.lean: getNewColumnDerivative over an arbitrary monad, run with a store of all the entries ever stored, an oracle for what the cache of the asked object has and one for the sharing of nodes, both indexed by the call; a relation between monads preserved by pure and bind transfers the run without caches, and the correctness of each node (C25), to the run with caches | DerivativeCache |

### What is missing from the partial ones

* **C04** – Violated by the code for shrinking grids (C04_negation_stale_grid). Proved when the grid does not shrink; for shorter lists, for requests inside the list just passed (C04_inside_partial) and exactly what is looked up otherwise (C04_stored_grid_partial).
* **C06** – violated by the code (two negations proved); holds without reload and without sub-tolerance gravity changes
* **C100** – Safety is proved for every answer of the libraries. That nothing is left behind is proved when openings do not fail and the library stays valid: otherwise it is false of the code (C100_finding_failed_open, C100_finding_invalid). Handles cannot be copied (C100_finding_copy), nor opened again with a factory that only they keep (C100_finding_open_again).
* **C102** – Proved for square identities and for entries which are constants at different places; the last four theorems show that each of these hypotheses is needed: the full statement is false of the code.
* **C103** – The part on derivatives holds only for variables the expression does not depend on; for the others the two classes have no derivative (C103_finding_derivative), so the full statement is false of the code. Values of compiled expressions: for the printable expressions of C79.
* **C104** – The full statement is false of the code: a variable with several components takes a number and shrinks, and a concatenation then shows old values (C104_finding_number); a matrix takes other sizes (C104_finding_matrix); a product with a 1x1 factor is accepted and fails when evaluated (C104_finding_factor). Proved when objects are set to values of their sizes and the factors match.
* **C105** – The full statement is false of the code for empty expressions of another type: operator= gives the ID back but keeps the evaluable and the ID, which can then be given to a dependency, and an evaluation returns an old value (C105_empty_of_another_type_finding). Proved for all histories in which expressions are assigned from expressions (empty or not) of the same type; the conversion to another type is the construction of a CastEvaluable (an operator of the model).
* **C11** – false for the force derivative cost (wrong pointer tested), joint velocity and foot yaw costs (not tested); proved for the others
* **C18** – All entries except (normal force, same normal force) of the state Jacobian, which the code fails to declare (proved as a finding).
* **C22** – The Hessian claim is false of the pinned code: multipliers are paired with the wrong limits, and the point position of the last value/Jacobian call is used. Both are proved as negations; the Hessian is exact under the stated conditions.
* **C23** – The full statement is false of the code: the height-height Hessian entry lacks a factor fz (C23_when_exact says exactly when it is right, C23_negation refutes the full statement). Everything else is proved.
* **C39** – Exact derivatives and what the cost measures are proved for every foot; that the target is the desired yaw holds for feet aligned with their frame and is refuted (C39_negation) for turned ones: the initial yaw is subtracted instead of added.
* **C42** – holds as long as no update was refused; a refused update leaves the buffer with the refused pose (counterexample proved)
* **C49** – Holds for BodyTwistFromQuaternionVelocity; false for ExpressionsServer::baseTwist (used by absoluteVelocity(frame) and the frame angular velocity cost), whose angular part is expressed in the world frame: proved.
* **C53** – Missing: the weight of the force ratio costs, which is false of the code: Solver.cpp:470 and 479 use forceMeanCostOverallWeight instead of forceRatioCostOverallWeight (C53_finding_ratio_weight); everything else is proved for every cost.
* **C55** – Exact characterisation of the accepted settings that can be turned into a problem; the full property is false: a zero friction coefficient, a foot without points, the range of the CoM velocity cost, the joints velocity, force derivative, foot yaw and postural members are not validated; gravity, updateTolerance and floatingBaseName have no effect.
* **C60** – The value is right for all frames. The derivatives of every order are right when the target is a link; for a target frame placed with an offset on its link, the derivative with respect to the joint just above it is right exactly when the offset does not move the direction of the joint (C60_finding_*: false in general, AdjointTransformExpression.cpp:245-254).
* **C61** – All values, first derivatives and, for velocities, derivatives of every order. The second derivative of the relative position inherits the finding of C60 for frames with an offset (C61_finding_position_hessian is an exact characterisation).
* **C66** – Value, sparsity and bounds for every frame. The Jacobian is right for every frame but for the joint just above the foot, where C66_jacobian_columns is an exact characterisation; the claim is false in general (C66_finding_example, inherited from AdjointTransformExpression.cpp:245-254). Second derivatives for frames turned on their link only about the axis of the last joint (KeepsAxes), which includes all the links.
* **C67** – Value, Jacobians, sparsity and bounds for every frame. Second derivatives when the rotation of the other frame on its link keeps the axis of the last joint; entry by entry for any frame but for that joint; false in general (C67_finding_example).
* **C68** – Value for feet on different links; gradient also needs the quaternions that the library gives for the rotation of a foot and for its inverse to be one the inverse of the other (proved when no foot is turned by half a turn). The claim is false otherwise: on the same link the wrench of the left foot is overwritten (C68_finding_same_link), with the other sign a term of the gradient changes sign (C68_finding_quaternion_sign). The class has no second derivatives.
* **C69** – Everything is proved for one cost per frame. With two costs on the same frame the claim is false of the code: the second derivatives of the second one use the reference of the first one, because the server remembers the expression of the error by the name of the frame only (C69_finding_shared_reference).
* **C70** – Proved: the exact value the code returns, exact derivatives by the state (frames whose rotation on the link keeps the joint axis, see C60), exact control and mixed derivatives of the cost with the velocities of the shared computations, the intended value for the base frame. The full claim is false of the code: the control is never read, so the value is constant in the control while the returned control gradient is not zero (C70_finding_control_ignored, C70_finding_control_gradient); the second derivatives by the control are missing (C70_finding_control_hessian); for other frames the velocity seen from the frame is added to an error in the world (C70_finding_frames).
* **C71** – Proved for updateRobotState(time), the only form the planner uses. For the form that is given a state the last sentence is false of the code when another class has already given that state to the kinematics (C71_finding_stale): the call succeeds and the variables keep the old state.
* **C72** – Proved exactly when the joined names can be told from each other (C72_right_iff), with a sufficient condition on the names (C72_right_partial). Without it the claim is false of the code: the keys are concatenations of names (and of link indices), so different frames, the two directions of a joint between the links 1 and 11, or different joints can share a key; the second derivatives of the momentum ignore the twist variable.
* **C75** – Missing, because false: a state with fewer contact points than one shown before is drawn with the leftover arrows (C75_finding_stale_arrows). Colors, lights and labels are not modelled.
* **C77** – Missing, because false: the end time. A positive end time never cuts (C77_finding_end_time_ignored) and the default one saves nothing while reporting success (C77_finding_default_saves_nothing): the condition at Visualizer.cpp:194 is inverted.
* **C78** – Proved when the digits computed are enough (predictions of any lengths). Missing, because false: when they are not enough an exception stops the animation (C78_finding_throws, e.g. three predictions of three states); states in excess are not shown; the end time is inverted as in C77.
* **C79** – Proved for expressions without divisions, blocks of 1x1 expressions, and with exponents of at most six decimals (Printable). Missing, because false: divisors that are products lose their parentheses (C79_finding_divisor), a helper is substituted for a text that is not a sub-expression when there are divisions (C79_finding_helper), opposites of quotients may not compile (C79_finding_signs), blocks of numbers do not compile (C79_finding_block), exponents are rounded (C79_finding_exponent).
* **C81** – Proved for names of letters, digits and spaces. Missing, because false: an underscore becomes a minus sign, a leading digit and an empty name are kept, punctuation marks are confused; reserved words are not excluded.
* **C88** – The full statement is false of the code: an expression made while another one with the same name for the compiler (letters, digits and dashes only) is alive gets the library that is already loaded and computes the code of the other (C88_finding_same_name). It is proved for all histories in which that does not happen. The compiler, dlopen and dlclose are external, modelled from POSIX; the libraries are in `lib` (CMAKE_INSTALL_LIBDIR).
* **C89** – The full statement is false of the code for zero as start check (C89_finding_zero: valid after a failed opening, with functions that are not in memory) and for an empty element in the environment variable (C89_finding_empty: the last letter of an empty string is read); it is proved in all other cases, and C89_defined says that opening is undefined in that case only.
* **C90** – The full statement is false of the code: `isNew` marks the dependencies as new without holding their mutex, so when a variable made from an expression has to be updated at the start two threads can mark it in turn and one reads a buffer the other is rewriting (C90_stale_variable: 1 instead of 9). Values, later evaluations and absence of races are proved when the variables made from expressions are up to date at the start (C90_histories_partial: in all histories without such variables); absence of deadlock and termination are proved in all cases. Memory is sequentially consistent; the copies of the expressions for the threads are made before the threads start.
* **C91** – The full statement is false of the code: the derivative of the angular velocity cost with respect to the control is wrong (C70) and its derivative with respect to the state is right only for frames that keep the axis of their joint. Proved: the state gradient in all cases (with that restriction when that cost is active), the control gradient whenever that cost is not active, and that the gradients exist exactly when the value does. The sum over the terms and the gradient of L2NormCost are iDynTree (external, modelled).
* **C92** – The full statement is false of the code: the Jacobian of the constraint of a point of a foot is wrong when the frame of the foot is turned with respect to its link (C66, with a counterexample there). Proved for all the robots whose foot frames keep the axis of their joint. The stacking of the rows is iDynTree (external, modelled).
* **C93** – The full statement is false of the code: the second derivatives are wrong for foot frames turned with respect to their links (C66, C67) and for the planar constraint of the hyperbolic tangent (C22), with counterexamples there. Proved for all the other settings and robots; sparsity and bounds of the indices included. The sum over the constraints is iDynTree (external, modelled).
* **C94** – The full statement is false of the code: the second derivatives of the phantom forces cost (C23) and of the angular velocity cost (C70) are wrong, with counterexamples there, and with the static torques cost there are no second derivatives at all, although there are a value and a gradient (C94_static_torques). Proved for all the settings where these three costs are off. L2NormCost and the sum over the costs are iDynTree (external, modelled); asQuaternion is assumed to give the quaternion of the desired rotation.
* **C95** – Jacobians and second derivatives are proved in full. The full statement about the sparsity is false of the code: the derivative of the rate of a normal force with respect to the same force is not declared although it is not zero with dissipation (C95_normal_forces, see C18). All the other entries are proved.
* **C96** – Everything about the fields that are saved is proved. The last part of the full statement is false of the code: the 22 references, time ranges and time varying weights are not saved, so that settings which differ only in them give the same structure (C96_unsaved, C96_not_recoverable); of the robot model only the text is saved.

### Remarks on the proved ones

* **C01** – invariant over all call histories
* **C02** – refinement to named vectors
* **C03** – cached binary search correct for every grid and history
* **C05** – all quantities computed by the engine; the base transform buffer is C42
* **C08** – linear solver is a contract (returns a solution when one exists)
* **C10** – acceptance characterised exactly; includes the out-of-bounds read when fewer velocity limits than joint limits are given
* **C101** – The variables are different from each other (two with the same name and dimension are one variable for levi). Every answer is right; the model has no caches here (C99).
* **C106** – Same model of expressions as C25 and C46; which nodes are the same object in memory (the hash, an address) is arbitrary, provided nodes answered to be the same object are equal.
* **C13** – for non-negative minimumDt and elapsed times
* **C15** – Real arithmetic; base velocity for a non-null quaternion.
* **C16** – At every state with a non-null base quaternion; output matrices start from zero as iDynTree supplies them.
* **C17** – At every state with a non-null base quaternion; the levi expressions are those the levi model derives, for any sound rewriting configuration.
* **C19** – Continuous-time trajectories; height and normal force follow the commanded rates (what the dynamics does when the activation is the constant one).
* **C25** – Division of a matrix with several columns is excluded: it reports one column (C25_finding_division_reports_one_column).
* **C26** – All histories of construction (operators with arbitrary evaluate functions, variables, Assignables, variables built from expressions), copy, destruction, assignment of values, assignment of expressions to each other, evaluation and isNew; mutexes, int overflow of the counters and destruction of evaluables are not modelled.
* **C27** – For every expression (over any ordered field, any pow), any uninitialised memory and any sequence of earlier evaluations; also derivatives of any order and groups of named expressions. Buffers are matrices of exact numbers.
* **C28** – All histories of calls, any outcome of every external call (optimal control problem, shooting solver, optimiser, construction of costs and constraints). Findings: after a failed re-configuration the horizon goes to another problem than the one optimised; re-configuring with more points per foot accesses out of bounds, with fewer returns states with the old number of points.
* **C29** – All numbers of joints and points, all labellers, all buffers. The round trip of the base rotation needs that the external iDynTree asQuaternion returns a quaternion describing the rotation (hypothesis of C29_state_round_trip; rotationOf_unit gives a sufficient condition). double is an ordered field.
* **C30** – For states and controls whose elements do not exceed what the optimiser calls infinity. Findings: the minimum height is dropped while the target is active, the switch time is absolute (not relative to the initial time), negative tolerances and negative forceMaximumDerivative give empty bounds and are accepted.
* **C31** – For every answer of the user object and every earlier content of the buffer.
* **C33** – asQuaternion and RotationFromQuaternion are external: contract in the model.
* **C35** – linear solver is a contract
* **C43** – All the constraint and cost classes of the planner; StaticTorquesCost returns no second derivatives. The dynamics are C18.
* **C47** – Finding: no tolerance below -1 for the real part (C47_finding_no_tolerance_below_minus_one).
* **C51** – Same model as C26.
* **C52** – Same model as C26.
* **C54** – For any behaviour of addConstraint; the names accepted by the real one never clash.
* **C56** – Any number of points.
* **C57** – Any tree; the joints are arbitrary curves of rigid motions with constant direction (revolute and prismatic joints are shown to be instances). iDynTree's forward kinematics is described by its equations.
* **C58** – Any tree, any inertias.
* **C59** – The loop over the tree is the one of the code; the invariant covers any tree and order.
* **C62** – Any tree, any frames, any order of derivation. The first derivative with respect to the positions is evaluated from the state of the server: it is right when the velocity of the base of that state is the base twist (hypothesis of C62_joints_evaluation). The memoization of the server is not in this model.
* **C63** – Any tree, any joints. The Jacobian of KinDynComputations is external and described by its equation. Remark outside the model: the Jacobian expression answers a null matrix with 6 rows instead of 3 for the variables it does not depend on (CoMInBaseExpression.cpp, derivative with respect to other variables), unreachable because the dependency check comes first.
* **C64** – Any tree, any joints. The parallel evaluations are taken as atomic (levi locks its evaluables) and each result is written when found ready, in any order. iDynTree Jacobians are external and described by their equations. The base of the robot description is the one of the server.
* **C65** – Any tree. iDynTree (centre of mass, its Jacobian, the quaternion maps) is external and described by its equations.
* **C73** – The memoization of the server is the subject of C72; the conversion from rotation to quaternion of iDynTree is a parameter, with the hypothesis that it gives unit quaternions of the rotation and does not jump.
* **C74** – The map given to the file is modelled; writing the MAT file, and the settings structure saved next to it, are not. Finding: the contact points that only later states have are dropped silently (C74_finding_dropped).
* **C76** – The clock is a parameter.
* **C80** – At the level of characters.
* **C82** – Sets built from lvalues: the constructors taking two or more rvalues (DependenciesSet.h:108-111, 152-155) use std::forward without its type and cannot be instantiated.
* **C83** – Constraints as created by setConstraints, over the reals; the minimum distance of the feet is assumed not negative.
* **C84** – Trajectories in continuous time: the transcription to finitely many instants is done by the external MultipleShootingSolver, not modelled. The second part assumes null tolerances for the quaternion and the centre of mass: with a positive tolerance the quaternion may be off the unit sphere, and the angular velocity of the base used by the constraints is then not the one of the dynamics.
* **C85** – C85_no_slip takes the bounds on the heights from the problem itself (C30), the first two theorems take them as hypotheses.
* **C86** – Continuous time, over the reals; all elements of the trajectory are assumed to be between the infinities of the optimiser. Assumes a positive dissipation and maximum (settings that Settings.cpp does not check have their sign as hypothesis).
* **C87** – The statement is about the costs as they are set: the force ratio costs have the weight of the force mean ones (finding of C53) and the frame angular velocity cost uses the velocities held by the shared computations (finding of C70). The hypotheses Evaluable are those of C68, C69 and C70. External L2NormCost (with or without its constant part) and costsEvaluation are modelled from their documentation.
* **C97** – The hypothesis on the weights is needed: nothing checks their sign, and with a negative weight the value has no lower bound (C97_negative_weight). External parts as for C87.
* **C99** – The hypothesis on the names is needed: the caches are indexed by the name of the variable only (C99_finding_same_name).

## Axioms

(from `#print axioms` on the 475 theorems of MANIFEST.json; no theorem uses anything else)

* `propext`, `Classical.choice`, `Quot.sound`: the 409 theorems that are not listed below.
* `propext`, `Quot.sound`: `Verif.Labeller.C02_named_vectors`, `Verif.Labeller.C02_read_write`, `Verif.Timely.C03_in_bounds`, `Verif.Timely.C03_template_before_timings`, `Verif.Timely.C03_empty_grid_out_of_bounds`, `Verif.Timely.C04_invalid_refused`, `Verif.KinDyn.C05_answer_close`, `Verif.KinDyn.C05_refused`, `Verif.KinDyn.C05_tolerance`, `Verif.KinDyn.C06_gravity_current_partial`, `Verif.Foot.C08_no_force`, `Verif.Foot.C09_refused`, `Verif.Foot.C09_last_accepted`, `Verif.Foot.C09_unset`, `Verif.Settings.C10_accept_stores`, `Verif.Levi.Basic.C102_row_partial`, `Verif.Levi.Basic.C102_column_partial`, `Verif.Levi.Basic.C102_element_partial`, `Verif.Levi.Basic.C102_accesses_partial`, `Verif.Levi.Basic.C102_values`, `Verif.Levi.Basic.C102_wide_rows`, `Verif.Levi.Basic.C102_wide_columns`, `Verif.Levi.Basic.C102_same_place`, `Verif.Levi.Basic.C102_not_constant`, `Verif.Levi.Sizes.C104_vector`, `Verif.EvalCache.C105_empty_of_another_type_finding`, `Verif.Reference.C12_selects_last_active`, `Verif.Reference.C12_none_active`, `Verif.Reference.C12_cases`, `Verif.Reference.C12_degenerate`, `Verif.Walking.C13_initialise`, `Verif.Walking.C13_not_initialised`, `Verif.Walking.C13_defined`, `Verif.Util.C34_translated`, `Verif.Util.C34_validity_ignored`, `Verif.Util.C35_refusals`, `Verif.StateM.C37_constructed`, `Verif.StateM.C37_resized`, `Verif.StateM.C37_zero`, `Verif.StateM.C37_checkSize`, `Verif.StateM.C37_control_constructed`, `Verif.StateM.C37_control_resized`, `Verif.StateM.C37_control_zero`, `Verif.StateM.C37_control_checkSize`, `Verif.StateM.C38_centroid_empty`, `Verif.StateM.C38_forward_asymm`, `Verif.StateM.C38_min_force`, `Verif.StateM.C38_min_force_defined`, `Verif.KinDyn.C05_base_transform_partial`, `Verif.SolverM.C54_activations`, `Verif.Server.C71_current`, `Verif.Server.C71_evaluation`, `Verif.Server.C71_given_partial`, `Verif.Server.C71_finding_stale`.
* `propext`: `Verif.LibClass.C100_open_answer`, `Verif.LibClass.C100_close_answer`, `Verif.LibClass.C100_finding_failed_open`, `Verif.LibClass.C100_finding_open_again`, `Verif.LibClass.C100_finding_copy`, `Verif.LibClass.C100_finding_invalid`, `Verif.StateM.C37_resize_same`, `Verif.Levi.CodeText.C81_distinct_partial`, `Verif.EvalCache.C82_evaluate`, `Verif.Parallel.C90_stale_variable`.
* no axioms: `Verif.SolverM.C55_finding_ignored_settings`, `Verif.LoggedSettings.C96_unsaved`.
