{"id": "C01", "title": "Labelled variable blocks tile the optimisation vector", "statement": "After any sequence of label registrations (accepted or refused) and clears, the index ranges returned for the registered labels are pairwise disjoint, consecutive, and together cover exactly positions 0..size()-1; a label is registered at most once; a refused registration changes nothing.", "quantifier": "every finite sequence of addLabel / addLabelAndGetIndexRange / clear / zero / assignment calls, all label names and dimensions", "why_tests_cant": "Depends on the whole history of registrations; a unit test fixes one list of labels.", "anchors": ["src/private/VariablesLabeller.cpp: addLabel, addLabelAndGetIndexRange, getIndexRange, size, clear", "include/DynamicalPlannerPrivate/Utilities/VariablesLabeller.h"]}
{"id": "C02", "title": "Labelled variables behave like independent named vectors", "statement": "Reading a label gives back what was last written to it (zeros after registration or zero()), whatever is written to, or registered under, other labels in between; assigning the whole vector updates each label with its own slice.", "quantifier": "every interleaving of registrations, per-label writes, full-vector assignments, zero and clear", "why_tests_cant": "Aliasing between blocks only shows up for particular histories and sizes.", "anchors": ["src/private/VariablesLabeller.cpp: operator(), operator=, addLabel, zero, clear"]}
{"id": "C03", "title": "Nearest-time kinematics lookup", "statement": "After timings have been set once (strictly increasing, non-empty), asking for the kinematics object of any time returns an object whose nominal time is at minimal distance from the requested time (within the equality tolerance); the answer index is always in bounds, the search terminates, and the result does not depend on which times were asked before.", "quantifier": "every strictly increasing list of timings, every requested time, every earlier query history (cached index)", "why_tests_cant": "The lookup is a cached binary search over reals; tests sample a few grids and query orders.", "anchors": ["src/private/TimelySharedKinDynComputations.cpp: getClosestIndex, setTimings, get"]}
{"id": "C04", "title": "Re-setting timings replaces the time grid", "statement": "After setTimings(list) every lookup is answered with respect to the list just passed, whatever lists were passed before.", "quantifier": "every sequence of setTimings calls with lists of any lengths, then any query time", "why_tests_cant": "Needs a shrinking re-configuration; only some histories expose it (the pinned code violates it: the grid never shrinks).", "anchors": ["src/private/TimelySharedKinDynComputations.cpp: setTimings"]}
{"id": "C05", "title": "Kinematics cache never answers for a different robot state", "statement": "Every kinematic quantity computed by the engine for a requested robot state was computed for a state that differs from the requested one by less than the update tolerance in every component; the deviation does not accumulate over a history of queries.", "quantifier": "every sequence of queries with arbitrary robot states, tolerance changes and floating-base changes", "why_tests_cant": "The cache is history dependent; drift would need long adversarial sequences of near-equal states.", "anchors": ["src/private/SharedKinDynComputations.cpp: sameStatePrivate, updateRobotStatePrivate, setToleranceForUpdate, setFloatingBase, get*"]}
{"id": "C06", "title": "Kinematics cache is invalidated by model and gravity changes", "statement": "After a model is (re)loaded or gravity is changed, later answers are computed with the new model / with the gravity reported by gravity() (up to the tolerance).", "quantifier": "every history of loadRobotModel, setGravity and queries", "why_tests_cant": "Needs particular interleavings of configuration changes and queries; the pinned code violates it (no invalidation on reload; gravity drift through sub-tolerance changes).", "anchors": ["src/private/SharedKinDynComputations.cpp: loadRobotModel, setGravity, gravity"]}
{"id": "C07", "title": "Centre-of-pressure normal force ratios", "statement": "For a configured rectangular foot, the four ratios sum to one and the ratio-weighted mean of the four corner points is the requested centre of pressure; if the centre of pressure lies inside the rectangle all ratios are in [0,1].", "quantifier": "every foot size and every centre of pressure (inside or outside)", "why_tests_cant": "Continuum of inputs with min/max case splits.", "anchors": ["src/RectangularFoot.cpp: getNormalRatiosFromCoP"]}
{"id": "C08", "title": "Foot force distribution reproduces the requested wrench", "statement": "When force distribution succeeds with a non-negligible normal force and at least three active corners, the four point forces have the requested net force and net moment about the foot centre; with one or two active corners the net force is reproduced and inactive corners get zero force.", "quantifier": "every foot size, every foot frame wrench with the code's preconditions, every solution returned by the linear solver", "why_tests_cant": "Continuum of wrenches and 3 regimes selected by activity pattern of the CoP.", "anchors": ["src/RectangularFoot.cpp: getForces"]}
{"id": "C09", "title": "Foot configuration is validated and atomic, and points form the configured rectangle", "statement": "setFoot refuses non-positive lengths leaving the foot unchanged (an unconfigured foot stays unconfigured, every query on it fails); an accepted call gives four points that are the corners of a rectangle of the given lengths whose top-left point is the given one, rigidly moved by the pose.", "quantifier": "every sequence of setFoot calls with arbitrary lengths/positions, every rigid pose", "why_tests_cant": "Universally quantified history and geometry.", "anchors": ["src/RectangularFoot.cpp: setFoot, isValid, getPoints"]}
{"id": "C10", "title": "Settings validation is all-or-nothing", "statement": "setFromStruct either accepts and stores the whole structure (then isValid and getSettings return it) or refuses and leaves the stored settings and validity unchanged; acceptance implies every documented numerical check holds.", "quantifier": "every settings structure and every previous settings history", "why_tests_cant": "The structure has dozens of independent conditions; tests check a few combinations.", "anchors": ["src/Settings.cpp: setFromStruct, isValid, getSettings"]}
{"id": "C11", "title": "Accepted settings have every trajectory they need", "statement": "If settings are accepted then each enabled cost has a non-null desired trajectory of its own.", "quantifier": "every settings structure", "why_tests_cant": "Combinatorial; the pinned code violates it for the force-derivative cost (checks the rotation trajectory instead).", "anchors": ["src/Settings.cpp: setFromStruct"]}
{"id": "C12", "title": "Position reference selects the latest-configured active element", "statement": "At any time the desired position and weight come from the same element, the last one in the list whose active range contains the time; when no element is active the weight is zero and the position is a fixed value; for a range of positive length and non-negative gains the weight starts at one, ends at (gain+1)^2 and never decreases within the active range.", "quantifier": "every list of references, every time, every gain", "why_tests_cant": "All list contents, overlaps and times.", "anchors": ["src/PositionReferenceGenerator.cpp: WeightImplementation::get, ReferenceImplementation::get, resize, at"]}
{"id": "C13", "title": "Walking reference schedule stays consistent", "statement": "Starting from an accepted initialisation, after every advance the first reference's active range contains the current instant, the second reference is either parked beyond the horizon or begins within the horizon, lasts one step duration and begins at least a horizon after the first; if steps are not longer than the horizon the two never overlap and the reference seen at the current instant is the first one; invalid parameters are refused without effect.", "quantifier": "every history of advances with arbitrary planned states (subject to the time of the current state being non-negative)", "why_tests_cant": "A state machine over reals driven by arbitrary optimiser results.", "anchors": ["src/Utilities.cpp: SimpleWalkingStateMachine::initialize, advance"]}
{"id": "C14", "title": "Walking targets advance by exactly one step increment at a time", "statement": "Each time a new step is planned the new target is the previous target plus the configured increment, and targets are consumed in order: after any history the first reference's target is initial + k*increment for the number k of completed switches and the second (when active) is initial + (k+1)*increment.", "quantifier": "every history of advances", "why_tests_cant": "Needs induction over arbitrary histories.", "anchors": ["src/Utilities.cpp: SimpleWalkingStateMachine::advance"]}
{"id": "C15", "title": "Centroidal dynamics obey Newton-Euler", "statement": "The state derivative returned for any state/control has linear momentum rate m*g plus the sum of the contact forces, angular momentum rate equal to the sum of moments of contact forces about the centre of mass, centre of mass velocity momentum/mass, base velocity rotated by the (normalised) base quaternion, and point/force/joint/quaternion rates that match the control inputs (with the planar velocity smoothing).", "quantifier": "every number of contact points, every state and control", "why_tests_cant": "Vector sizes and values are unbounded; tests fix 4 points and random samples.", "anchors": ["src/private/DynamicalConstraints.cpp: computeDynamics, computePlannerDynamics"]}
{"id": "C16", "title": "Dynamics Jacobians are the derivatives of the dynamics", "statement": "The state and control Jacobians returned at a point are the matrices of partial derivatives of the dynamics at that point.", "quantifier": "every number of points, every state/control, all smoothing parameters", "why_tests_cant": "Finite differences at random points only sample; a wrong entry that is numerically small is missed.", "anchors": ["src/private/DynamicalConstraints.cpp: computeStateJacobian, computeControlJacobian, dynamicsStateFirstDerivative, dynamicsControlFirstDerivative"]}
{"id": "C17", "title": "Dynamics Hessians are the second derivatives of the dynamics", "statement": "The lambda-weighted state, control and mixed Hessians equal the second partial derivatives of the lambda-weighted dynamics.", "quantifier": "every state/control/lambda and number of points", "why_tests_cant": "Continuum.", "anchors": ["src/private/DynamicalConstraints.cpp: dynamicsSecondPartialDerivativeWRTState/Control/StateControl"]}
{"id": "C18", "title": "Sparsity patterns cover every non-zero derivative entry", "statement": "Every entry of a dynamics Jacobian that can be non-zero is listed in the declared sparsity pattern.", "quantifier": "every state/control, every number of points", "why_tests_cant": "Only particular inputs make an undeclared entry non-zero; the pinned code violates it for the normal-force diagonal entry of the state Jacobian.", "anchors": ["src/private/DynamicalConstraints.cpp: setSparsity, dynamicsStateFirstDerivativeSparsity, dynamicsControlFirstDerivativeSparsity"]}
{"id": "C19", "title": "Dynamic complementarity drives force times height to the relaxation level", "statement": "Along any trajectory on which the constraint value stays below its upper bound, the product height*normal force is bounded by the exponential decay from its initial value to bound/gain.", "quantifier": "every continuously differentiable trajectory, every positive dissipation gain", "why_tests_cant": "A statement about all trajectories.", "anchors": ["src/private/DynamicalComplementarityConstraint.cpp: evaluateConstraint, ctor bounds"]}
{"id": "C20", "title": "Friction constraint is the Coulomb cone", "statement": "With a configured coefficient the constraint is satisfied exactly when the tangential force norm is at most mu*|normal force|; Jacobian and Hessian are its exact derivatives; non-positive coefficients are refused and change nothing.", "quantifier": "every force and coefficient", "why_tests_cant": "Continuum.", "anchors": ["src/private/ContactFrictionConstraint.cpp"]}
{"id": "C21", "title": "Complementarity-family constraints have exact first and second derivatives", "statement": "For the classical, classical-planar, dynamical complementarity, normal velocity, force control, quaternion norm and feet relative height constraints, the returned Jacobians and (lambda weighted) Hessians are the true partial derivatives.", "quantifier": "every state/control value, parameter and lambda", "why_tests_cant": "Continuum; finite differences only sample.", "anchors": ["src/private/ClassicalComplementarityConstraint.cpp", "src/private/ClassicalPlanarComplementarityConstraint.cpp", "src/private/DynamicalComplementarityConstraint.cpp", "src/private/NormalVelocityControlConstraints.cpp", "src/private/ContactForceControlConstraints.cpp", "src/private/QuaternionNormConstraint.cpp", "src/private/FeetRelativeHeightConstraint.cpp"]}
{"id": "C22", "title": "Planar velocity control constraint has exact derivatives", "statement": "The Jacobians and the lambda weighted Hessian of the planar velocity control constraints are the true derivatives at the evaluation point.", "quantifier": "every state/control/lambda", "why_tests_cant": "Continuum; the pinned code violates it for the Hessian (multipliers paired with the wrong axis, and stale point position).", "anchors": ["src/private/PlanarVelocityControlConstraints.cpp"]}
{"id": "C23", "title": "Phantom force cost has exact derivatives", "statement": "The phantom-force cost's gradient and Hessian are the true derivatives of its value.", "quantifier": "every height, force and activation", "why_tests_cant": "Continuum; the pinned code violates it for the height-height Hessian entry.", "anchors": ["src/private/PhantomForcesCost.cpp"]}
{"id": "C24", "title": "Quadratic costs are non-negative with exact gradients and Hessians", "statement": "The swing, force mean, force ratio, mean point position, feet distance, complementarity and joint postural costs are non-negative, vanish exactly at their documented target, and return exact gradients and Hessians.", "quantifier": "every number of points/joints and every state/control", "why_tests_cant": "All dimensions and values.", "anchors": ["src/private/SwingCost.cpp", "src/private/ForceMeanCost.cpp", "src/private/ForceRatioCost.cpp", "src/private/MeanPointPositionCost.cpp", "src/private/FeetDistanceCost.cpp", "src/private/ComplementarityCost.cpp", "src/private/JointsVelocityForPosturalCost.cpp"]}
{"id": "C25", "title": "Symbolic derivatives are true derivatives", "statement": "For every well formed expression built from the library's operators (operands of compatible sizes, entries accessed exist, powers of a base where the power is differentiable, divisions of column vectors by scalars), and for every derivative of it of any order, the column derivative with respect to a variable exists and evaluates to the true Jacobian of that column with respect to that variable.", "quantifier": "every expression tree over sums, differences, products, powers, divisions, transposes, skew/vee, rows, columns, blocks and elements, every variable and value", "why_tests_cant": "Infinitely many expressions; tests pick a few shapes.", "anchors": ["extern/levi/include/levi/OperatorsEvaluables.h", "extern/levi/include/levi/AccessorEvaluables.h", "extern/levi/include/levi/Variable.h", "extern/levi/include/levi/Evaluable.h: getColumnDerivative"]}
{"id": "C26", "title": "Cached evaluation returns current values", "statement": "However variables are assigned and however expressions sharing sub-expressions are evaluated in between, evaluating an expression returns its value at the current variable values.", "quantifier": "every history of assignments and evaluations by any number of callers", "why_tests_cant": "Staleness needs specific interleavings of assignments and evaluations by several callers.", "anchors": ["extern/levi/include/levi/Registrar.h: isNew, checkID, getNewCallerID, deleteID", "extern/levi/include/levi/Evaluable.h: evaluateID"]}
{"id": "C27", "title": "Squeezed evaluation equals direct evaluation", "statement": "The flattened (squeezed) form of any expression evaluates to the same matrix as the expression itself.", "quantifier": "every expression and variable values", "why_tests_cant": "Infinitely many expressions.", "anchors": ["extern/levi/include/levi/TreeExpander.h", "extern/levi/include/levi/SqueezeEvaluable.h"]}
{"id": "C28", "title": "Solve is gated and leaves results untouched on failure", "statement": "solve fails before a successful configuration; a failing solve leaves the caller's output states and controls and the pending guesses untouched; a successful solve returns one state and control per time instant, consumes the pending guesses, and the automatic default guess (the initial state and a zero control) is used only between a configuration and the first success after it, and only if no guesses of the user are pending. The optimisation starts from the initial state accepted last and covers the horizon from its time; while the last configuration attempt succeeded, the horizon is given to the problem being optimised. No call reads or writes out of bounds as long as the number of contact points is not changed by a later configuration.", "quantifier": "every history of specifySettings / setInitialState / setGuesses / setOptimizer / solve calls and every outcome of the optimiser", "why_tests_cant": "Histories are unbounded and optimiser failures are hard to inject.", "anchors": ["src/Solver.cpp: specifySettings, setInitialState, setGuesses, setOptimizer, solve"]}
{"id": "C29", "title": "Optimisation vector packing round-trips", "statement": "Packing a state (control) into the optimisation vector and unpacking it returns the same state (control), for every number of contact points and joints; the vector length is 12*points+16+joints for states and 12*points+7+joints for controls.", "quantifier": "every state/control of matching sizes", "why_tests_cant": "All sizes and values; swapped or overlapping blocks only show on particular data.", "anchors": ["src/Solver.cpp: setVariablesStructure, setFootVariables, setVariablesFromState, setStateFromVariables, setControlFromVariables"]}
{"id": "C30", "title": "Time-varying bounds switch exactly once", "statement": "With accepted settings, a state is within the bounds given to the optimiser at a time exactly when points are not below the ground, normal forces are not negative, angular momentum and joints respect their limits and the centre of mass is above its minimum height or, inside the (closed) active range of the target, within the tolerance of the reference in each direction (no contradictory bounds there exactly when the tolerance is not negative). A control is within the bounds exactly when joint velocities respect their limits and the derivatives of forces and velocities of the points are limited strictly before horizon*activeControlPercentage and zero from then on.", "quantifier": "every time, accepted settings, number of points and joints, tolerance, reference, state and control", "why_tests_cant": "Continuum of times including boundary.", "anchors": ["src/Solver.cpp: VariableBound::get, setBounds"]}
{"id": "C31", "title": "Guess providers validate what users supply", "statement": "A user-supplied state/control guess is forwarded packed exactly when it is declared valid and has the expected size; otherwise the result is flagged invalid and is the zero vector.", "quantifier": "every guess object result at every time", "why_tests_cant": "All sizes/histories.", "anchors": ["src/Solver.cpp: StateGuesses::get, ControlGuesses::get"]}
{"id": "C32", "title": "Smoothing functions are exact and switchable", "statement": "The hyperbolic tangent/secant smoothing functions return the true first and second derivatives for every gain, stay within [-1,1] / (0,1], and a disabled function is the chosen constant with zero derivatives.", "quantifier": "all gains and arguments, any enable/disable history", "why_tests_cant": "Continuum.", "anchors": ["src/private/HyperbolicTangent.cpp", "src/private/HyperbolicSecant.cpp", "src/private/SmoothingFunction.cpp"]}
{"id": "C33", "title": "Quaternion helper identities", "statement": "The left-trivialised derivative maps invert each other on tangent directions, the normalised quaternion derivative is the true derivative of normalisation, and the rotated-vector Jacobian is the true derivative of the rotated vector with respect to the quaternion; the error quaternion is identity exactly for equal rotations.", "quantifier": "all non-zero quaternions, vectors and angular velocities", "why_tests_cant": "Continuum.", "anchors": ["src/private/QuaternionUtils.cpp"]}
{"id": "C34", "title": "Translating centre-of-mass guess moves the robot rigidly", "statement": "The guess at a time has its centre of mass at the reference and base and contact points shifted by the same displacement (all relative positions preserved), zero momentum, and initial forces, joints and orientation, whatever times were requested before; it is declared valid even when the reference declares itself invalid.", "quantifier": "every initial state, reference and time", "why_tests_cant": "All numbers of points and values.", "anchors": ["src/Utilities.cpp: TranslatingCoMStateGuess::get"]}
{"id": "C35", "title": "Default initial forces carry the weight", "statement": "When a default initial state is produced, the vertical contact forces sum to the robot weight (exactly when at least three corners of each foot are active, up to the activation threshold otherwise), and the moment of left/right forces about the forward axis through the centre of mass balances whenever the centre of mass is between the feet.", "quantifier": "all masses and foot positions", "why_tests_cant": "Continuum.", "anchors": ["src/Utilities.cpp: FillDefaultInitialState"]}
{"id": "C36", "title": "Lowering the robot to the ground terminates with the lowest point near zero", "statement": "With at least one contact point the iterative correction that brings the robot to the ground terminates from every initial height, above or below the ground; it keeps joints, orientation, horizontal position, momenta, time and forces; the lowest stored contact point height ends in [0,1e-8] and the stored base pose is exactly 2e-8 lower than the one the stored points were computed with. Without contact points it never ends.", "quantifier": "every set of initial point heights", "why_tests_cant": "Recursion depth is unbounded.", "anchors": ["src/Utilities.cpp: SetMinContactPointToZero_impl"]}
{"id": "C37", "title": "State and control containers keep consistent sizes", "statement": "A constructed or resized state/control has both feet with exactly the requested number of points and the requested number of joints, zero() keeps sizes and zeroes values, size comparison is an equivalence and agrees with checkSize.", "quantifier": "all sizes and resize histories", "why_tests_cant": "All histories and sizes.", "anchors": ["src/State.cpp", "src/Control.cpp"]}
{"id": "C38", "title": "Feet centroid and forward-foot force", "statement": "The feet centroid is the mean of all contact points; shifting all points by a vector shifts it by the same; the reported minimum force is a lower bound of all point force norms on the forward foot and is attained.", "quantifier": "all numbers of points, positions, forces and forward directions", "why_tests_cant": "All sizes and values.", "anchors": ["src/State.cpp: computeFeetCentroid, minimumPointForceOnForwardFoot"]}
{"id": "C39", "title": "Foot yaw cost measures the foot yaw error", "statement": "The foot yaw cost is half the square of a signed distance that vanishes exactly when the chosen foot edge is aligned with the desired direction; gradient and Hessian are exact.", "quantifier": "all foot geometries and positions", "why_tests_cant": "Continuum; the pinned code's target is offset for feet whose reference edge is not aligned with the foot frame.", "anchors": ["src/private/FootYawCost.cpp"]}
{"id": "C40", "title": "Feasible contact constraints prevent slipping and adhesion", "statement": "If classical complementarity, planar complementarity and force non-negativity hold with zero tolerance then each contact point is either off the ground with zero normal force or on the ground, and cannot have both normal force and planar velocity.", "quantifier": "all states/controls", "why_tests_cant": "Continuum.", "anchors": ["src/private/ClassicalComplementarityConstraint.cpp", "src/private/ClassicalPlanarComplementarityConstraint.cpp"]}
{"id": "C41", "title": "Walking state machine never gets stuck", "statement": "At any moment, if from then on every update advances time by at least dt>0 and finds the forward foot loaded above the threshold, the next target becomes the current one after finitely many (more than 2*stepDuration/dt + 1) updates, whatever the tracking error is.", "quantifier": "all accepted parameters, all past histories and all future update sequences satisfying the condition", "why_tests_cant": "Liveness over unbounded histories.", "anchors": ["src/Utilities.cpp: SimpleWalkingStateMachine::advance"]}
{"id": "C42", "title": "Base transform buffer follows the requested state", "statement": "The base transform handed out for a requested robot state is the one of that state or of a state within the update tolerance.", "quantifier": "all histories of queries including refused ones", "why_tests_cant": "A refused update leaves the buffer out of step with the cached state; only visible for particular histories.", "anchors": ["src/private/SharedKinDynComputations.cpp: updateRobotState, getBaseTransform"]}
{"id": "C43", "title": "Declared sparsity of constraints and costs is complete", "statement": "Every entry of a Jacobian or second derivative returned by a constraint, and of a second derivative returned by a cost, that can be non-zero is listed in the sparsity pattern the object declares.", "quantifier": "all states, controls, multipliers, parameters and numbers of points", "why_tests_cant": "An entry missing from the pattern is silently dropped by the optimiser; it shows only at particular points.", "anchors": ["src/private/*Constraint*.cpp: constraintJacobianWRT*Sparsity, constraintSecondPartialDerivativeWRT*Sparsity", "src/private/*Cost.cpp: costSecondPartialDerivativeWRT*Sparsity"]}
{"id": "C44", "title": "Velocity control constraints depend on the height of the point", "statement": "Feasibility of the planar velocity constraint is exactly: each planar velocity component is at most the limit times tanh of the scaled height; of the normal velocity constraint: the normal velocity is at most the limit and at least minus the limit times tanh of the scaled height.  A grounded feasible point neither slides nor goes down.", "quantifier": "all states, controls and parameters", "why_tests_cant": "Continuum.", "anchors": ["src/private/PlanarVelocityControlConstraints.cpp", "src/private/NormalVelocityControlConstraints.cpp"]}
{"id": "C45", "title": "Feasible trajectories never penetrate the ground", "statement": "Along any trajectory on which the point height changes with the commanded normal velocity and the normal velocity constraint holds, a point that starts above or on the ground never goes below it.", "quantifier": "all trajectories on all horizons", "why_tests_cant": "Continuum of trajectories.", "anchors": ["src/private/NormalVelocityControlConstraints.cpp"]}
{"id": "C46", "title": "Rewriting of expressions preserves their value", "statement": "Whatever the operators of the expression library do to simplify what is written (reordering products by cost, merging addends with a common factor, dropping null and identity operands, pushing row, column and element accesses to the operands), the expression they return has the size and the value of the one written, for all values of the variables.", "quantifier": "all well formed expressions, all values, all patterns of node sharing", "why_tests_cant": "The rewriting takes different branches for each combination of shapes, sizes and sharing; the combinations are unbounded.", "anchors": ["extern/levi/include/levi/ExpressionImplementation.h: operators, row, col, operator(), block", "extern/levi/include/levi/AddendsExpander.h"]}
{"id": "C47", "title": "Unit quaternions pass the quaternion bounds check", "statement": "The bounds check accepts exactly the quaternions whose real part is in [-1, 1+1e-6] and whose imaginary components are in [-1-1e-6, 1+1e-6]; in particular every unit quaternion passes.", "quantifier": "all quaternions", "why_tests_cant": "Continuum.", "anchors": ["src/private/QuaternionUtils.cpp: QuaternionBoundsRespected"]}
{"id": "C48", "title": "The base rotation expression is the rotation of the normalised quaternion", "statement": "However the expression library rewrites it, the base rotation expression evaluates to the rotation matrix of the normalised quaternion, for every non null quaternion.", "quantifier": "all non null quaternions, all sharing patterns", "why_tests_cant": "Continuum.", "anchors": ["src/private/ExpressionsServer.cpp: constructor, baseRotation", "src/private/QuaternionExpressions.cpp: RotationExpression, NormalizedQuaternion"]}
{"id": "C49", "title": "Base twist expressions give the velocity of the base in the base frame", "statement": "The base twist expressions evaluate to the base linear velocity followed by the angular velocity of the base expressed in the base frame.", "quantifier": "all quaternions, quaternion derivatives and linear velocities", "why_tests_cant": "Continuum; the error vanishes when the base is not rotated or turns about a fixed axis through zero.", "anchors": ["src/private/ExpressionsServer.cpp: baseTwist", "src/private/QuaternionExpressions.cpp: BodyTwistFromQuaternionVelocity"]}
{"id": "C50", "title": "CoM velocity reference is turned into a momentum reference", "statement": "The linear-momentum reference used by the CoM velocity cost equals the robot mass times the velocity reference, and is valid exactly when the velocity reference is valid and three-dimensional; otherwise it is zero and flagged invalid.", "quantifier": "every mass and every reference value (any size, any validity)", "why_tests_cant": "All sizes and values.", "anchors": ["src/private/CoMVelocityCost.cpp: LinearMomentumReference::get"]}
{"id": "C51", "title": "An expression that is not new has not changed", "statement": "If isNew() of an expression answers false, the expression has been evaluated through that handle before, and what it returned then is its value now.", "quantifier": "every history of constructions, copies, destructions, assignments, evaluations and isNew queries", "why_tests_cant": "Missed notifications need particular interleavings of callers.", "anchors": ["extern/levi/include/levi/Registrar.h: isNew", "extern/levi/include/levi/ExpressionImplementation.h: isNew"]}
{"id": "C52", "title": "An evaluated expression stays up to date until a variable is assigned", "statement": "After an expression is evaluated, isNew() on it answers false, whatever other expressions are built, copied, destroyed, evaluated or queried, until some variable is assigned.", "quantifier": "every history before and every quiet history after the evaluation", "why_tests_cant": "Spurious invalidation depends on the sharing structure and on the order of other callers.", "anchors": ["extern/levi/include/levi/Registrar.h: isNew, dependenciesChecked", "extern/levi/include/levi/Evaluable.h: evaluateID"]}
{"id": "C53", "title": "The costs of the problem are the ones asked by the settings", "statement": "When the configuration succeeds, each cost is in the optimal control problem exactly once if it is active (once per contact point of each foot for the costs on points), with its own weight, its time range, and penalises the quantity of the state or control it is named after with the weights and the reference of the settings; the costs that are not active are not in the problem. The costs can be set exactly when, for the active ones, weight vectors have the right sizes, references are given and time ranges are valid: names never clash.", "quantifier": "all settings (all subsets of active costs, any number of points and joints), all behaviours of the optimal control problem", "why_tests_cant": "About thirty independent flags, any number of contact points: tests fix a handful of configurations.", "anchors": ["src/Solver.cpp: SolverImplementation::setCosts"]}
{"id": "C54", "title": "The constraints of the problem are the ones asked by the settings", "statement": "When the configuration succeeds, the constraints are exactly the global ones and those of each contact point selected by the two complementarity types, each once and with the parameters of the settings; each contact point has exactly one friction constraint, one position constraint, one mechanism against slipping and one relation between normal force and height (a constraint or the activation in the dynamics). They can be set exactly when their parameters are in their domains: names never clash.", "quantifier": "all settings, any number of points, all complementarity types, all behaviours of the optimal control problem", "why_tests_cant": "All combinations of types and any number of points.", "anchors": ["src/Solver.cpp: SolverImplementation::setConstraints, Solver::specifySettings"]}
{"id": "C55", "title": "Validated settings can be turned into a problem", "statement": "Settings accepted by setFromStruct have everything the solver needs to set the costs and the constraints, and every member of the settings has effect.", "quantifier": "all accepted settings", "why_tests_cant": "The gap shows only for particular combinations of active costs and missing members.", "anchors": ["src/Settings.cpp: setFromStruct", "src/Solver.cpp: setCosts, setConstraints, specifySettings"]}
{"id": "C56", "title": "Costs and constraints find all the contact points", "statement": "The parts of the problem that look for contact points among the variables by name find each point of the intended foot exactly once, in order, and nothing else: the mean position uses all the points of both feet, the feet distance and relative height those of each foot, the force mean and ratio the force of the point and of all the other points of the same foot, the static torques and the dynamics all the points.", "quantifier": "any number of points and joints, all states", "why_tests_cant": "Ten points or more and prefixes of names are not covered by tests with four points.", "anchors": ["src/private/MeanPointPositionCost.cpp", "src/private/FeetDistanceCost.cpp", "src/private/FeetRelativeHeightConstraint.cpp", "src/private/ForceMeanCost.cpp", "src/private/ForceRatioCost.cpp", "src/private/StaticTorquesCost.cpp: getFootRanges", "src/private/DynamicalConstraints.cpp: checkFootVariables"]}
{"id": "C57", "title": "The derivative of a frame velocity is the true derivative", "statement": "getFrameVelJointsDerivative returns the matrix whose column j is the partial derivative of the body fixed velocity of the frame with respect to the position of joint j (base velocity, joint velocities, other positions fixed); along any motion of the joints the derivative is the matrix times the direction; joints not between the base and the frame have null columns.", "quantifier": "all kinematic trees (any number of links and joints, any joints of one degree of freedom, travelled in either direction), all frames, all states", "why_tests_cant": "A test compares finite differences on one robot and a few states.", "anchors": ["src/private/SharedKinDynComputations.cpp: getFrameVelJointsDerivative"]}
{"id": "C58", "title": "The derivative of the momentum is the true derivative", "statement": "getLinearAngularMomentumJointsDerivative returns the matrix whose column j is the partial derivative of the momentum in the base frame with respect to the position of joint j, and its product with a direction is the derivative along any motion in that direction.", "quantifier": "all kinematic trees, all inertias, all states", "why_tests_cant": "A test compares finite differences on one robot and a few states.", "anchors": ["src/private/SharedKinDynComputations.cpp: getLinearAngularMomentumJointsDerivative, updateChildBuffersForMomentumDerivative"]}
{"id": "C59", "title": "The derivative of the static torques is the true derivative", "statement": "getStaticForcesJointsDerivative returns the matrix whose element (j, z) is the partial derivative of the static torque of joint j with respect to the position of joint z, for given external wrenches in the frames of the links: the accumulation over the tree counts each contribution exactly once. The static torques are those of the principle of virtual works.", "quantifier": "all kinematic trees (any branching and depth), all visiting orders with parents first, all inertias, wrenches, states, gravity", "why_tests_cant": "The accumulation is over all pairs of links of a tree: a test tries one robot.", "anchors": ["src/private/SharedKinDynComputations.cpp: getStaticForcesJointsDerivative, computeChildStaticForceDerivative, computeStaticForces"]}
{"id": "C60", "title": "Adjoint transforms between frames and their derivatives", "statement": "The adjoint transform (for velocities and for wrenches) between two frames of the robot evaluates to the adjoint of the transform between them, wherever the base is; its derivative with respect to the joints, of every order, is the true derivative, also inside any product and sum.", "quantifier": "all kinematic trees, all frames, all joint configurations, all sequences of joints", "why_tests_cant": "A test compares at a few configurations of one robot, with a tolerance.", "anchors": ["src/private/AdjointTransformExpression.cpp", "src/private/ExpressionsServer.cpp: adjointTransform, adjointTransformWrench"]}
{"id": "C61", "title": "Jacobians, relative positions and velocities are those of the robot", "statement": "The relative Jacobian times the joint velocities is the relative velocity; the absolute velocity is the one of the frame along any motion of the robot; the relative position is the one of the frame, its derivative is the true one; the derivatives of every order of the velocities with respect to joints positions, velocities and base twist are the true ones.", "quantifier": "all kinematic trees, all frames, all states, all sequences of variables", "why_tests_cant": "Continuum of states and unbounded set of trees.", "anchors": ["src/private/RelativeVelocityExpression.cpp", "src/private/RelativeJacobianExpression.cpp", "src/private/AbsoluteVelocityExpression.cpp", "src/private/RelativePositionExpression.cpp"]}
{"id": "C62", "title": "The momentum and its derivatives are those of the robot", "statement": "The expression of the momentum in the base frame evaluates to the sum of the momenta of the links; its derivatives of every order with respect to positions and velocities of the joints and to the base twist are the true ones: the hand written second derivative, that computes the columns of the joints above and takes the others by symmetry, included.", "quantifier": "all kinematic trees, all inertias, all states, all sequences of variables", "why_tests_cant": "Continuum of states and unbounded set of trees; the symmetry is exploited differently for each shape of the tree.", "anchors": ["src/private/MomentumInBaseExpression.cpp", "src/private/ExpressionsServer.cpp: compositeRigidBodyInertia, linkInertiaInBase, momentumInBaseJointsDoubleDerivative"]}
{"id": "C63", "title": "The centre of mass and its derivatives are those of the robot", "statement": "The position of the centre of mass in the base frame is the average of the centres of mass of the links weighted with their masses, wherever the base is; its Jacobian with respect to the joints is its derivative, the hand written second derivative is the derivative of the Jacobian for every pair of joints, and the derivatives of higher order are true too. The mass times the velocity of the centre of mass is the linear momentum, and the matrix that brings the momentum to the centre of mass yields the moment about it.", "quantifier": "all kinematic trees with total mass not zero, all inertias, all states and motions, all pairs of joints", "why_tests_cant": "Continuum of states and unbounded set of trees.", "anchors": ["src/private/CoMInBaseExpression.cpp", "src/private/CoMInBaseExpression.cpp: CoMAdjointTransformWrench"]}
{"id": "C64", "title": "The centroidal momentum constraint ties the momentum state to the robot", "statement": "The angular momentum constraint evaluates to the angular momentum of all the links about the centre of mass of the robot, oriented as the world, minus the angular part of the momentum stored in the state; its Jacobians and its multiplier-weighted second derivatives are the true ones wherever the base quaternion is not null; every entry that can be different from zero is declared; the result does not depend on the order in which the evaluations launched in parallel finish; the bounds accept exactly the points within half the tolerance of zero.", "quantifier": "all kinematic trees with total mass not zero, all inertias, all states, controls and multipliers with a non null quaternion, all completion orders", "why_tests_cant": "Continuum of states, unbounded set of trees and every completion order of the asynchronous evaluations.", "anchors": ["src/private/CentroidalMomentumConstraint.cpp: evaluateConstraint, constraintJacobianWRTState, constraintJacobianWRTControl, constraintSecondPartialDerivativeWRTState, constraintSecondPartialDerivativeWRTStateControl"]}
{"id": "C65", "title": "The CoM consistency constraint ties the CoM state to the robot", "statement": "The centre of mass constraint evaluates to the centre of mass of the robot in the world minus the one stored in the state; its Jacobians and multiplier-weighted second derivatives are the true ones wherever the base quaternion is not null, whatever velocities earlier calls left in the shared state; every entry that can be different from zero is declared; the bounds accept exactly the points within half the tolerance of zero.", "quantifier": "all kinematic trees with total mass not zero, all states and multipliers with a non null quaternion, all left-over velocities", "why_tests_cant": "Continuum of states, unbounded set of trees, any history of calls before.", "anchors": ["src/private/CoMPositionConstraint.cpp: evaluateConstraint, constraintJacobianWRTState, constraintSecondPartialDerivativeWRTState"]}
{"id": "C66", "title": "The contact position constraint ties a contact point to the robot", "statement": "For every contact point the constraint evaluates to the place of the point of the foot in the world minus the position stored in the state; its Jacobians and multiplier-weighted second derivatives are the true ones wherever the base quaternion is not null; every entry that can be different from zero is declared; the bounds accept exactly the points within half the tolerance of zero.", "quantifier": "all kinematic trees, foot frames, points, states and multipliers with a non null quaternion", "why_tests_cant": "Continuum of states and points, unbounded set of trees.", "anchors": ["src/private/ContactPositionConsistencyConstraint.cpp: evaluateConstraint, constraintJacobianWRTState, constraintSecondPartialDerivativeWRTState"]}
{"id": "C67", "title": "The feet distance constraint measures the lateral distance of the feet", "statement": "The constraint evaluates to the chosen coordinate of the origin of the other foot in the reference foot, wherever the base is; its Jacobians and second derivatives are the true ones; every entry that can be different from zero is declared; only the minimum is bounded, and a negative minimum is refused leaving the previous one.", "quantifier": "all kinematic trees, pairs of frames, coordinates, states and multipliers", "why_tests_cant": "Continuum of states, unbounded set of trees.", "anchors": ["src/private/FeetLateralDistanceConstraint.cpp: evaluateConstraint, constraintJacobianWRTState, constraintSecondPartialDerivativeWRTState, setMinimumDistance"]}
{"id": "C68", "title": "The static torques cost measures the torques that hold the robot", "statement": "The cost is half the weighted sum of the squares of the torques that, with the contact forces of the state and the weight of the links, keep the joints still; it is never negative for non-negative weights; its gradient by the state is the true one, whatever was evaluated before with the same object, and the gradient by the control is zero because the cost does not depend on it; weights of the wrong number are refused leaving the previous ones.", "quantifier": "all kinematic trees, foot frames, contact points, weights, histories of calls and states with a non null quaternion", "why_tests_cant": "Continuum of states, unbounded set of trees, any history of calls before.", "anchors": ["src/private/StaticTorquesCost.cpp: computeStaticTorques, computeStaticTorquesJacobian, costEvaluation, costFirstPartialDerivativeWRTState, setWeights"]}
{"id": "C69", "title": "The frame orientation cost measures the angle to the desired orientation", "statement": "The cost is the weight times one minus the cosine of half of the angle between the orientation of the frame and the desired one: it is never negative and zero exactly when the frame has the desired orientation. Its gradient and second derivatives by base quaternion and joints are the true ones for every frame, wherever the quaternion that the library gives for the orientation error does not jump, and they use the reference of this cost whatever was evaluated before; the control does not enter. Calls fail exactly when the reference or the weight are not valid at that time; null trajectories are refused.", "quantifier": "all kinematic trees, frames, weights, desired rotations, times, histories of calls and states with a non null quaternion", "why_tests_cant": "Continuum of states and rotations, unbounded set of trees, any history of calls before.", "anchors": ["src/private/FrameOrientationCost.cpp: costEvaluation, costFirstPartialDerivativeWRTState, costSecondPartialDerivativeWRTState, setDesiredRotation, setDesiredRotationTrajectory, setTimeVaryingWeight", "src/private/QuaternionErrorExpression.cpp: QuaternionErrorEvaluable", "src/private/ExpressionsServer.cpp: quaternionError"]}
{"id": "C70", "title": "The frame angular velocity cost penalises the angular velocity of the frame corrected by the orientation error", "statement": "The cost is half of the squared norm of the angular velocity of the frame in the world plus the gain times the orientation error (the vector of the skew symmetric part of the rotation from the desired orientation to the actual one). Its gradients by base quaternion, joints, quaternion derivative and joint velocities and its second derivatives (also by the control twice) are the true derivatives of the value it returns for that state and control, inside the declared entries. Calls fail exactly when the reference is not valid at that time; the default reference is the identity; a null trajectory is refused and changes nothing.", "quantifier": "all kinematic trees, frames, gains, desired rotations, states with a non null quaternion, controls and velocities left by earlier calls", "why_tests_cant": "Continuum of states, velocities and rotations, unbounded set of trees, any history of calls before.", "anchors": ["src/private/FrameAngularVelocityCost.cpp: updateRobotState, constructExpressions, costEvaluation, costFirstPartialDerivativeWRTState, costFirstPartialDerivativeWRTControl, costSecondPartialDerivativeWRTState, costSecondPartialDerivativeWRTStateControl, costSecondPartialDerivativeWRTControl, setDesiredRotationTrajectory", "src/private/AbsoluteVelocityExpression.cpp", "src/private/ExpressionsServer.cpp: absoluteVelocity, baseTwist"]}
{"id": "C71", "title": "Expressions are evaluated at the robot state of the requested time", "statement": "After the expressions server is updated for a time, its variables (base position, quaternion, joints and velocities) are the robot state that the kinematics of that time hold, up to the update tolerance of these kinematics (exactly if it is zero), and every expression evaluated afterwards is computed by the kinematics of that time for that state, whatever other classes did with the shared kinematics before or in between. Giving a robot state to the server makes the variables that state.", "quantifier": "all histories of server updates, evaluations, re-timings and calls of other classes on any of the shared kinematics; all times, states and tolerances", "why_tests_cant": "Unbounded interleavings of the users of the shared kinematics.", "anchors": ["src/private/ExpressionsServer.cpp: updateRobotState(double), updateRobotState(double, RobotState), currentState, currentKinDyn", "src/private/SharedKinDynComputations.cpp: sameState, updateRobotState", "src/private/TimelySharedKinDynComputations.cpp: get, setTimings"]}
{"id": "C72", "title": "The expressions server returns the expression that is asked", "statement": "Whatever was asked before, asking the expressions server for the expression of some frames, joint, links, variable and column returns the expression of exactly these arguments.", "quantifier": "all robots (names of frames and joints, indices of links) and all histories of calls of the twenty methods that remember their results", "why_tests_cant": "Every model with any names and any order of calls, of any length.", "anchors": ["src/private/ExpressionsServer.cpp: adjointTransform, adjointTransformJointsDerivative, adjointTransformWrench, relativePosition, relativeQuaternion, relativeRotation, relativeTransform, relativeLeftJacobian, relativeVelocity, absoluteVelocity, absoluteVelocityJointsDerivative, quaternionError, motionSubSpaceVector, motionSubSpaceAsCrossProduct, motionSubSpaceAsCrossProductWrench, linkInertia, linkInertiaInBase, momentumInBaseJointsDoubleDerivative, comInBaseHessian"]}
{"id": "C73", "title": "The expression of the relative quaternion is right", "statement": "The expression of the orientation of a frame in another is a unit quaternion of the rotation between the two frames, and its derivatives of every order with respect to the positions and velocities of the joints and to the base twist are right, as long as the rotation library does not jump to the opposite quaternion there; the first derivative stays tangent to the unit sphere and gives back the relative angular velocity.", "quantifier": "all robots, pairs of frames, joint positions, sequences of variables of any length and conversions from rotation to quaternion", "why_tests_cant": "Universally quantified kinematic trees, frames and orders of differentiation.", "anchors": ["src/private/RelativeQuaternionExpression.cpp: RelativeQuaternionEvaluable::evaluate, getNewColumnDerivative", "src/private/ExpressionsServer.cpp: relativeQuaternion", "src/private/QuaternionExpressions.cpp: G_Expression"]}
{"id": "C74", "title": "The saved solution is the solution", "statement": "When the solution vectors are saved, the file has, for each quantity of the first state (force and position of each contact point, momentum, center of mass, base position and quaternion, joints, time), a matrix whose i-th column is that quantity in the i-th state; the same for the controls; the computation times and the costs as rows; and nothing else. Different quantities never share a name. Saving goes through exactly when every state (control) has at least the contact points of the first and as many joints.", "quantifier": "all lists of states, controls, times and costs of any length, all numbers of contact points and joints", "why_tests_cant": "Unbounded trajectories and numbers of points; the names are built from numbers.", "anchors": ["src/Logger.cpp: Logger::saveSolutionVectorsToFile, addToLogger"]}
{"id": "C75", "title": "The visualizer shows the state", "statement": "Showing a state draws the robot with the base pose and the joints of the state, and one arrow per contact point, left foot first, at its position and along its force; whatever was shown before. Nothing can be shown before a model is loaded, and only one model can be loaded.", "quantifier": "all states with the joints of the model, all histories of states shown before", "why_tests_cant": "The arrows of the window are reused from one state to the next, so the picture depends on the history.", "anchors": ["src/Visualizer.cpp: Visualizer::setModel, Visualizer::visualizeState, updateViz"]}
{"id": "C76", "title": "A trajectory is shown in order and in time", "statement": "Showing a list of states draws, in order and once each, the states up to the first whose time is after the end time (no limit if the end time is not positive), each kept until the time of the next; with a list of camera poses each state is drawn with its own, and afterwards the camera is back where the user had put it.", "quantifier": "all lists of states of any length, all end times, all durations of the drawing", "why_tests_cant": "Unbounded lists; the waits depend on how long the drawing took.", "anchors": ["src/Visualizer.cpp: Visualizer::visualizeStates"]}
{"id": "C77", "title": "A saved animation has one image per state", "statement": "Saving the animation of a list of states saves, for each state up to the end time, one image whose name has its number, padded with zeros to the width that the video command expects; no two images share a name; and the video command is run with a frame rate equal to the number of states per second.", "quantifier": "all lists of states, all end times, all numbers of images", "why_tests_cant": "The width of the numbers is computed by a logarithm of the number of states: it must be right for all numbers.", "anchors": ["src/Visualizer.cpp: Visualizer::visualizeStatesAndSaveAnimation"]}
{"id": "C78", "title": "The animation of the predictions shows every prediction", "statement": "Saving the animation of the states of a receding horizon run and of their predictions saves, for each prediction, an image for each state predicted (with the state it was made in beside it) and an image for each state executed after it; the images are numbered; the camera is put back.", "quantifier": "all numbers of predictions, lengths of the predictions and numbers of states executed", "why_tests_cant": "The number of images is computed in advance by arithmetic on the sizes; whether it is right depends on all of them.", "anchors": ["src/Visualizer.cpp: Visualizer::visualizeMPCStatesAndSaveAnimation"]}
{"id": "C79", "title": "Compiled expressions have the value of the expressions", "statement": "The function generated for a list of expressions compiles, and when called with the current values of the leaves it stores, for each expression, the value of that expression; whatever sub-expressions were factored out into helper variables and common variables.", "quantifier": "all lists of expressions of any size, all values of the variables", "why_tests_cant": "The text is rewritten by searching and replacing in strings; whether an occurrence of a text is an occurrence of the sub-expression depends on operator precedence in all expressions.", "anchors": ["extern/levi/include/levi/AutogeneratedHelper.h: AutogeneratedHelper::expandElement, getScalarVariables, getCommonSubExpression, cleanHelpers, cleanCommonSubExpressions, getLiteralExpression, evaluateGenerics", "extern/levi/include/levi/AutogeneratedEvaluable.h: AutogeneratedEvaluable", "extern/levi/include/levi/MultipleCompiledExpressions.h: MultipleCompiledExpressions", "extern/levi/include/levi/TreeExpander.h: expandTree"]}
{"id": "C80", "title": "Breaking the generated text into lines does not change it", "statement": "The long lines of the generated function are broken only after an operator, by adding a new line and blanks and nothing else, and every line that can be broken has at most 152 characters.", "quantifier": "all texts of any length", "why_tests_cant": "Index arithmetic over texts of unbounded length: a boundary error loses or repeats a character only for particular positions of the operators.", "anchors": ["extern/levi/include/levi/AutogeneratedHelper.h: AutogeneratedHelper::splitExpression"]}
{"id": "C81", "title": "Compiled expressions can be named freely", "statement": "Whatever name the user gives to a compiled expression, the class generated for it has a name that is an identifier of C++, and different names give different classes, directories and libraries.", "quantifier": "all names", "why_tests_cant": "All strings.", "anchors": ["extern/levi/include/levi/AutogeneratedHelper.h: AutogeneratedHelper::setExpressions, compile"]}
{"id": "C82", "title": "A set of dependencies tells whether something is new", "statement": "A set of levi expressions answers to have something new exactly when at least one of its expressions would answer so on its own; if it answers no, every expression of the set still has the value it returned when it was last evaluated; asking changes no later answer and no later value; after all have been evaluated the answer is no until a variable is assigned.", "quantifier": "all sets of any size, all histories of constructions, copies, assignments, evaluations and questions", "why_tests_cant": "isNew changes counters shared by all the expressions: that asking one does not hide the news from another must hold for all sharing patterns and histories.", "anchors": ["extern/levi/include/levi/DependenciesSet.h: DependenciesSet::areNew, isNew, evaluate", "extern/levi/include/levi/Registrar.h: Registrar::isNew"]}
{"id": "C83", "title": "Feasible means consistent with the robot", "statement": "When the variables and the constraints are set without errors, the vectors made from a state and a control satisfy all the constraints of the problem if and only if, in terms of the fields of the state, of the control and of the settings: the centre of mass and the angular momentum of the state are the ones of the robot in that configuration and with those velocities, each contact point is at the place of its point on the foot, each force is in the friction cone, the quaternion has unit norm (each within half its tolerance), the feet are at least at the minimum lateral distance and their mean heights differ at most by the maximum, and the chosen complementarity mechanisms hold at each point.", "quantifier": "all robots (any number of links and joints, any tree), numbers of points, settings, states, controls; every way in which the optimal control problem accepts the constraints", "why_tests_cant": "The equivalence goes through labels, positions in the vectors, expressions, the foot names, the bounds: an error in one of them changes the meaning only for some configurations, and a missing constraint is not seen by tests on feasible points.", "anchors": ["src/Solver.cpp: setConstraints, setVariablesStructure", "src/CentroidalMomentumConstraint.cpp, CoMPositionConstraint.cpp, FeetLateralDistanceConstraint.cpp, QuaternionNormConstraint.cpp, FeetRelativeHeightConstraint.cpp, ContactFrictionConstraint.cpp, ContactPositionConsistencyConstraint.cpp, PlanarVelocityControlConstraints.cpp, ClassicalPlanarComplementarityConstraint.cpp, DynamicalComplementarityConstraint.cpp, ContactForceControlConstraints.cpp, ClassicalComplementarityConstraint.cpp: evaluateConstraint"]}
{"id": "C84", "title": "A solution obeys the equations of Newton and Euler", "statement": "Along every trajectory of states and controls that satisfies the differential equation and the constraints given to the optimiser: the centre of mass and the angular momentum of the robot are, within half the tolerances, those of a motion in which the momentum changes with the weight and the contact forces and the angular momentum with their moment; if the quaternion is constrained exactly each link moves with the velocity that the kinematics give for the velocities of the control; if the centre of mass is too, the linear momentum of the state is the linear momentum of the links, although no constraint says so; with exact constraints the robot itself obeys the equations of Newton and Euler, pushed at the points of its feet by the forces of the plan.", "quantifier": "all robots, settings, horizons, trajectories that satisfy the equation and the constraints, all instants", "why_tests_cant": "The statement is about continuous trajectories and derives a relation (the linear momentum) that is not among the constraints: it follows from the others only by differentiation along the trajectory.", "anchors": ["src/DynamicalConstraints.cpp: dynamics", "src/Solver.cpp: setConstraints, specifySettings"]}
{"id": "C85", "title": "Contact points of a solution do not slip", "statement": "Along every trajectory that satisfies the differential equation and the constraints given to the optimiser, with exact positions of the points and points that never go below the ground: a point of a foot that is on the ground and loaded has null velocity, for each choice of the planar and of the normal mechanism (the classical ones with null tolerance); with the classical complementarity and null tolerance, a loaded point is on the ground.", "quantifier": "all robots, settings, mechanisms, horizons, trajectories, points and instants", "why_tests_cant": "The mechanisms act in different places (constraints on the state, constraints on the control, the dynamics itself): that each choice has the same effect needs the composition for all heights, forces and velocities.", "anchors": ["src/Solver.cpp: setConstraints, specifySettings", "src/DynamicalConstraints.cpp: dynamics", "src/PlanarVelocityControlConstraints.cpp, ClassicalPlanarComplementarityConstraint.cpp, ClassicalComplementarityConstraint.cpp: evaluateConstraint"]}
{"id": "C86", "title": "Feet and forces along a solution", "statement": "Along every trajectory that satisfies the differential equation, the constraints and the bounds given to the optimiser for validated settings: every contact force pushes and is in the friction cone; no point of a foot is below the ground (within half the tolerance); with the dynamical complementarity the product of height and normal force is at every later time below the solution of a linear decay towards upper bound over dissipation; with either hyperbolic secant mechanism the normal force of a point that stays above a height decays exponentially to a level proportional to the secant at that height; with either hyperbolic tangent mechanism the planar velocity of a point is at most the tangent of its height times the maximum; after the active fraction of the horizon no point moves.", "quantifier": "all robots, validated settings, mechanisms, horizons, trajectories, points, pairs of instants", "why_tests_cant": "The statements are about pairs of instants of a continuous trajectory, and each needs the bounds, the dynamics and one constraint together (differential inequalities).", "anchors": ["src/Solver.cpp: setConstraints, setBounds, specifySettings", "src/DynamicalConstraints.cpp: dynamics", "src/DynamicalComplementarityConstraint.cpp, ContactForceControlConstraints.cpp, PlanarVelocityControlConstraints.cpp, ContactFrictionConstraint.cpp: evaluateConstraint"]}
{"id": "C87", "title": "What the optimiser minimises", "statement": "When the variables and the costs are set without errors, the value that the optimiser sees at an instant, for every state and control, is the sum, over exactly the costs that the settings activate and whose range contains the instant, of weight times what the cost measures on the fields of the state and of the control (weighted squared distances from the references, one minus the cosine of half the rotation between a frame and its target, the squared torques that hold the robot at rest, ...), up to a number that depends neither on the state nor on the control; it has no value exactly when a reference is not valid.", "quantifier": "all robots, settings, references, instants, states, controls, numbers of points", "why_tests_cant": "It composes the packing of the variables, the costs chosen by the settings, their parameters and ranges, and the expression of each cost; a wrong offset or weight shows only for some settings and states.", "anchors": ["src/Solver.cpp: setCosts, getRanges", "src/MeanPointPositionCost.cpp, StaticTorquesCost.cpp, FrameOrientationCost.cpp, SwingCost.cpp, PhantomForcesCost.cpp, FootYawCost.cpp, FeetDistanceCost.cpp, ForceMeanCost.cpp, ForceRatioCost.cpp, CoMVelocityCost.cpp, ComplementarityCost.cpp, JointsVelocityForPosturalCost.cpp, FrameAngularVelocityCost.cpp: costEvaluation"]}
{"id": "C88", "title": "Compiled expressions run their own code", "statement": "Whatever compiled expressions are made and deleted, in any order: every expression that is alive computes the code it was generated for; deleting one leaves the others usable, does not run code of a library that is not loaded, and frees its object and its library, so that in the end what is loaded is what was loaded before.", "quantifier": "all histories of creations and deletions, names, codes, environments and contents of the disk", "why_tests_cant": "Tests compile a few expressions with different names and keep them until the end; which library a name resolves to depends on what is alive, on the environment and on the disk.", "anchors": ["extern/levi/include/levi/AutogeneratedHelper.h: CompiledEvaluableFactory, compile", "extern/levi/include/levi/AutogeneratedEvaluable.h", "extern/levi/deps/sharedlibpp/src/SharedLibrary.cpp, SharedLibraryFactory.cpp, shlibpp/SharedLibraryClassFactory-inl.h"]}
{"id": "C89", "title": "A library factory tells the truth about its library", "statement": "Opening a library by name uses the first directory, in the order they were given and then in the order of the environment variable, that has it, and paths as they are; the answer, the status and the validity say exactly if the library was found, loaded, has the factory asked and passes its checks; after any sequence of calls a factory is valid exactly when the last opening succeeded, then objects can be created, and when the factory is deleted every library is open as many times as before.", "quantifier": "all sequences of calls, names, checks, environments, disks and loaded libraries", "why_tests_cant": "Tests open one or two libraries in one environment; the statement is about every order of openings, failures and directories.", "anchors": ["extern/levi/deps/sharedlibpp/src/SharedLibraryFactory.cpp: open, isValid, extendSearchPath, readExtendedPathFromEnvironment, findLibraryInExtendedPath", "extern/levi/deps/sharedlibpp/src/SharedLibrary.cpp", "extern/levi/deps/sharedlibpp/src/shlibpp/SharedLibraryClassApi.h"]}
{"id": "C90", "title": "Expressions evaluated in parallel give their values", "statement": "When several expressions, which may share sub-expressions, are evaluated at the same time by as many threads, every thread returns the value of its expression for the current values of the variables, whatever the interleaving of the threads and whatever was built, copied, assigned and evaluated before; later evaluations are right too; no two threads access the same memory at the same time with one of them writing; and the threads never block each other: from any point of any execution all of them can finish.", "quantifier": "all histories of expressions, all sets of expressions evaluated together, all interleavings of the single accesses to memory", "why_tests_cant": "The result depends on how the threads interleave; a test runs a few of the possible schedules and a wrong one can be arbitrarily rare.", "anchors": ["src/private/CentroidalMomentumConstraint.cpp: constraintSecondPartialDerivativeWRTState, constraintSecondPartialDerivativeWRTStateControl (std::async)", "extern/levi/include/levi/Evaluable.h: evaluateID, m_mutex", "extern/levi/include/levi/Registrar.h: isNew, resetEvaluationRegister, checkID, dependenciesChecked"]}
{"id": "C91", "title": "The gradient handed to the optimiser is the gradient of the objective", "statement": "With every choice of active costs, weights, ranges, references and contact points for which the problem is set without errors, at every time, state and control, the vectors that the costs return as first derivatives with respect to the state and to the control, summed with their weights, are there exactly when the objective has a value, and each entry is the derivative of the objective with respect to the entry of the vector of the optimiser with that index, whatever was evaluated before.", "quantifier": "all settings accepted, references, robots, times, states, controls, histories of previous evaluations where the kinematic costs are differentiable", "why_tests_cant": "The derivative with respect to every entry of two vectors whose length depends on the robot and on the number of contact points, for every subset of twenty-four kinds of costs; finite differences check one point with a tolerance.", "anchors": ["src/Solver.cpp: setCosts, setVariablesStructure", "src/private/*Cost.cpp: costFirstPartialDerivativeWRTState, costFirstPartialDerivativeWRTControl"]}
{"id": "C92", "title": "The constraints handed to the optimiser have the right rows, bounds, Jacobian and sparsity", "statement": "With every choice of settings for which the constraints of the problem are set without errors, at every state and control with a quaternion that is not zero: the rows are within the bounds returned exactly when the plan is physically consistent at that instant; every entry of the two Jacobians is the derivative of its row with respect to the entry of the vector of the optimiser with that index; every entry that is not zero is declared in the sparsity patterns; and no declared entry is outside the vectors.", "quantifier": "all settings accepted (all the contact mechanisms, numbers of points, tolerances), robots, states, controls", "why_tests_cant": "A matrix whose size depends on the robot and on the number of contact points, at every configuration; an entry missing from the declared pattern is silently dropped by the optimiser, and no finite-difference test on a sample of configurations excludes it.", "anchors": ["src/Solver.cpp: setConstraints, setVariablesStructure", "src/private/*Constraint.cpp: evaluateConstraint, constraintJacobianWRTState, constraintJacobianWRTControl, constraintJacobianWRTStateSparsity, constraintJacobianWRTControlSparsity"]}
{"id": "C93", "title": "The second derivatives of the constraints handed to the optimiser are exact, and their sparsity is enough", "statement": "With every choice of settings for which the constraints of the problem are set without errors, at every state and control with a quaternion that is not zero and for all the multipliers of the rows: the matrices returned for the state, for the control and for the mixed derivatives have, at each pair of indices of the vectors of the optimiser, the second derivative of the sum of the rows weighted with the multipliers, whatever the order in which the evaluations running in parallel end; every entry that is not zero is declared, and no declared entry is outside the matrices.", "quantifier": "all settings accepted, robots, states, controls, multipliers, completion orders", "why_tests_cant": "Three matrices whose size depends on the robot and on the number of contact points, for every vector of multipliers; a wrong entry only slows down or misdirects the optimiser, so that runs do not show it.", "anchors": ["src/Solver.cpp: setConstraints, setVariablesStructure", "src/private/*Constraint.cpp: constraintSecondPartialDerivativeWRTState, constraintSecondPartialDerivativeWRTControl, constraintSecondPartialDerivativeWRTStateControl and their sparsity"]}
{"id": "C94", "title": "The second derivatives of the objective handed to the optimiser are exact, and their sparsity is enough", "statement": "With every choice of settings for which the costs of the problem are set without errors, at every time and at every state and control at which the objective has a value and a gradient: the matrices returned for the state, for the control and for the mixed derivatives exist, have at each pair of indices of the vectors of the optimiser the second derivative of the weighted sum of the costs that are active at that time; every entry that is not zero is declared, and no declared entry is outside the matrices.", "quantifier": "all settings accepted, robots, times, states, controls, references", "why_tests_cant": "Three matrices whose size depends on the robot and on the number of contact points, for every combination of up to twenty-four kinds of costs; a wrong entry only slows down or misdirects the optimiser, so that runs do not show it.", "anchors": ["src/Solver.cpp: setCosts, setVariablesStructure", "src/private/*Cost.cpp: costSecondPartialDerivativeWRTState, costSecondPartialDerivativeWRTControl, costSecondPartialDerivativeWRTStateControl and their sparsity", "include/DynamicalPlannerPrivate/Costs/StaticTorquesCost.h"]}
{"id": "C95", "title": "The dynamics handed to the optimiser comes with its exact derivatives, in the vectors of the optimiser", "statement": "With every number of joints and of contact points, mass, dissipation and activation, at every state and control with a quaternion that is not zero and whatever the earlier calls left in the buffers: at each pair of indices of the vectors of the optimiser the two Jacobians have the derivative of that entry of the rate of the state, and for all the multipliers the matrices for the state, the control and the mixed derivatives have the second derivatives of the weighted sum of the rates; every entry that is not zero is declared, and no declared entry is outside the matrices.", "quantifier": "all robots, numbers of points, parameters, states, controls, multipliers, histories of calls", "why_tests_cant": "Matrices whose size depends on the robot and on the number of points, filled block by block at offsets computed at run time; a missing entry only slows down the optimiser, so that runs do not show it.", "anchors": ["src/private/DynamicalConstraints.cpp: dynamics, dynamicsStateFirstDerivative, dynamicsControlFirstDerivative, dynamicsSecondPartialDerivativeWRTState, dynamicsSecondPartialDerivativeWRTStateControl, setSparsity", "src/Solver.cpp: setVariablesStructure"]}
{"id": "C96", "title": "The settings saved next to a solution are the ones that were given, each under its own name", "statement": "For all settings, states and controls: whenever the solution is saved the file also has a structure called settings, which hides none of the variables of the solution; each of its 107 fields occurs once, has a name that MATLAB accepts and holds the value of the setting of that name (the two complementarity types as the name of the type, contact points and limits in order); two settings give the same structure exactly when they agree on everything that is saved, and the structure tells different settings apart.", "quantifier": "all settings, robot models, states, controls", "why_tests_cant": "More than a hundred copied lines: a copied name or value, or a field that overwrites another one, shows only with settings in which the two differ; that two settings are told apart speaks about all pairs.", "anchors": ["src/Logger.cpp: populateSettingsStruct, saveSolutionVectorsToFile", "include/DynamicalPlanner/Settings.h: SettingsStruct"]}
{"id": "C97", "title": "With weights that are not negative what the optimiser minimises is bounded from below", "statement": "When the variables and the costs are set without errors, the weights that are used at an instant are not negative and the desired orientation is a rotation, there is a number, zero if the constant part of the norms is added, such that the value seen by the optimiser at that instant is never below it, for all states and controls; it is equal to it exactly when each active cost with a positive weight measures zero (everything that is followed is on its reference).", "quantifier": "all robots, settings, instants, states, controls", "why_tests_cant": "A minimum over all states and controls: a cost that can become negative makes the problem unbounded only far from the points that a run visits.", "anchors": ["src/Solver.cpp: setCosts", "src/private/*Cost.cpp: costEvaluation", "include/DynamicalPlanner/Settings.h: SettingsStruct"]}
{"id": "C98", "title": "The exponential weight depends on the time only, decays to its offset and can be used as a weight", "statement": "The weight made with a, b, c, d answers at the time t, always validly and whatever it was asked before, a exp(b (t - d)) + c: a + c at the time d, strictly decreasing when a b is negative and strictly increasing when it is positive, tending to c when b is negative; with b not zero it is never negative exactly when a and c are not negative. A result that is kept by reference becomes the one of the following call.", "quantifier": "all parameters, histories of calls and times", "why_tests_cant": "Statements about all times, about a limit, and about all histories of calls.", "anchors": ["src/Utilities.cpp: ExponentialWeight::get", "include/DynamicalPlanner/Utilities.h: ExponentialWeight"]}
{"id": "C99", "title": "The caches of the derivatives do not change what is answered", "statement": "Let no two of the variables that derivatives are asked for have the same name. In any sequence of requests of column derivatives (of what was written, of the derivatives received, of their derivatives, in any order and any number of times), whatever the caches of the expressions have stored or were cleared of and whichever nodes are shared at each moment, each answer is the Jacobian of the requested column with respect to the requested variable; with the same sharing throughout, it is the same expression that is computed without any cache. With two different variables of the same name this fails: the second one gets the answer of the first.", "quantifier": "all well formed expressions, sequences of requests, states of the caches, sharing of nodes", "why_tests_cant": "The state of the caches depends on the whole history of the requests, on which objects are shared and on when they were cleared.", "anchors": ["extern/levi/include/levi/Evaluable.h: getColumnDerivative, clearDerivativesCache", "extern/levi/include/levi/OperatorsEvaluables.h: getNewColumnDerivative"]}
{"id": "C100", "title": "Objects of shared libraries are destroyed once, before their factory", "statement": "Let who makes a factory give up its reference at most once and not use the factory afterwards. After any sequence of openings, closings and deletions of handles, whatever the libraries answer: nothing that was deleted is used; an object that a handle has was not destroyed, its factory is alive and no other handle has it; no object is destroyed twice; a handle is valid exactly after a successful opening and before it is closed. Each object that no handle has was destroyed, and a factory is deleted exactly when it was given up and no handle has an object of it; handles can be copied.", "quantifier": "all sequences of operations on any number of factories and handles, all answers of the libraries", "why_tests_cant": "Double deletions and leaks depend on the order of openings, closings and failures of all the handles that share a factory.", "anchors": ["extern/levi/deps/sharedlibpp/src/shlibpp/SharedLibraryClass-inl.h: open, close, isValid", "extern/levi/deps/sharedlibpp/src/shlibpp/SharedLibraryClassFactory-inl.h: create, destroy", "extern/levi/deps/sharedlibpp/src/SharedLibraryFactory.cpp: addRef, removeRef"]}
{"id": "C101", "title": "Variables made from expressions are derived through", "statement": "Let variables be made from expressions (asVariable), treated as dependent or not, also from expressions that contain such variables. For every expression that contains them, every request for the derivative of a column with respect to any variable (plain or made) is answered, and the answer is the Jacobian of the column along the motion in which the components of that variable move, the dependent made variables follow their expressions and all other variables stay; the answer can be derived again, and if isDependentFrom answers no then the expression does not change along the motion. There is exactly one such motion.", "quantifier": "all expressions, all lists of made variables, all columns and variables, all points", "why_tests_cant": "The chain rule through any depth of definitions, for every point and every way of sharing or hiding a dependence, is not a finite set of cases.", "anchors": ["extern/levi/include/levi/AdvancedConstructors.h: VariableFromExpressionEvaluable", "extern/levi/include/levi/Expression.h: asVariable", "extern/levi/include/levi/Evaluable.h: getColumnDerivative"]}
{"id": "C102", "title": "Rows, columns and elements of constant matrices are those of the matrix", "statement": "Take a null matrix, an identity, or a matrix made from one or two entries, and take rows, columns and elements of it, one after the other and at any times, each in the range of the matrix it is taken from. Every one of them exists, has the size of a row or column, and its values are those of the part of the matrix it names.", "quantifier": "all sizes, all places and values of the entries, all sequences of rows, columns and elements, all times", "why_tests_cant": "The entries are placed by index arithmetic which a test tries on a few square matrices.", "anchors": ["extern/levi/include/levi/BasicEvaluables.h: NullEvaluable, IdentityEvaluable, SingleElementMatrix, TwoElementsMatrix", "extern/levi/include/levi/ExpressionImplementation.h: row, col, operator()"]}
{"id": "C103", "title": "Squeezed and compiled expressions follow the variables", "statement": "The squeezed and the compiled form of an expression depend on the same variables as the expression. In any sequence of assignments of variables and evaluations, a squeezed or compiled expression, which is computed again only if something it depends on was assigned, gives at each evaluation the value of what was written at the values the variables have then. Asked for the derivative of a column with respect to a variable, it answers with the Jacobian of the expression.", "quantifier": "all well formed expressions, all sequences of assignments and evaluations, all columns and variables", "why_tests_cant": "A forgotten dependency shows only with an expression in which it is the only thing that changes between two evaluations; there are infinitely many shapes in which a sub-expression is shared or stored once.", "anchors": ["extern/levi/include/levi/SqueezeEvaluable.h", "extern/levi/include/levi/AutogeneratedEvaluable.h", "extern/levi/include/levi/Evaluable.h: getColumnDerivative, evaluateID", "extern/levi/include/levi/Registrar.h: isNew, isDependentFrom"]}
{"id": "C104", "title": "Variables and matrices that are set keep their sizes, and expressions on them keep working", "statement": "Variables have the dimension they were declared with whatever they are set to, and matrices that can be set have the sizes they were declared with. Expressions built on them, before or after they are set, have the rows and columns of their value, never fail when evaluated, and have the value of what was written at the last values the objects were set to; the derivative of a variable with respect to itself is the identity of its dimension.", "quantifier": "all declarations, all expressions of sums, differences, products, transpositions, blocks and concatenations, all sequences of building, setting, evaluating, reading sizes and deriving", "why_tests_cant": "A size is stored in every node when it is made and read again at every evaluation: what happens depends on the order in which things are built, set and evaluated, and on which nodes resize themselves; tests set every object once to a value of the right size.", "anchors": ["extern/levi/include/levi/Variable.h", "extern/levi/include/levi/Assignable.h", "extern/levi/include/levi/BasicEvaluables.h: MutableEvaluable", "extern/levi/include/levi/Evaluable.h: rows, cols, getColumnDerivative", "extern/levi/include/levi/AdvancedConstructors.h: HorzcatEvaluable, VertcatEvaluable"]}
{"id": "C105", "title": "Expressions can be assigned to each other, and caller IDs are neither shared nor lost", "statement": "After an expression has been assigned from another one, also from itself or from an empty one of any type, evaluating it returns what evaluating the other one returned, it answers to be new until evaluated, and what other expressions return and answer does not change. Every expression has a caller ID that no other expression, operand or dependency has. Destroying and assigning expressions gives caller IDs back: the register of an evaluable never becomes larger than the largest number of users it had at the same time.", "quantifier": "every history of construction, copy, destruction, assignment (of values and of expressions), evaluation and isNew", "why_tests_cant": "An ID used twice or lost shows only after particular orders of copies, destructions and assignments, as a stale value or as memory growing in a loop.", "anchors": ["extern/levi/include/levi/ExpressionImplementation.h: operator=, casted_assignement, ~ExpressionComponent", "extern/levi/include/levi/Registrar.h: getNewCallerID, deleteID, addDependencies"]}
{"id": "C106", "title": "Expressions that compare equal are interchangeable", "statement": "The comparison of two expressions answers yes exactly when they are written in the same way: the same object, or the same operation (addends in any order) on operands that compare equal, with the same exponent, row, column and block. Expressions that compare equal have the same size, for all values of the variables the same value and the same derivatives, and depend on the same variables. The comparison is symmetric and transitive, an expression compares equal to itself written again from the same objects, and sums compare equal whatever the order of their addends.", "quantifier": "all pairs of expressions, all patterns of node sharing, all values of the variables", "why_tests_cant": "The comparison decides which terms are merged in a sum and which nodes are shared in a squeezed or compiled expression; a wrong yes on one shape of expression changes values silently, and the shapes are unbounded.", "anchors": ["extern/levi/include/levi/ExpressionImplementation.h: operator==", "extern/levi/include/levi/HelpersForwardDeclarations.h: BlockType", "extern/levi/include/levi/Evaluable.h: EvaluableInfo"]}
