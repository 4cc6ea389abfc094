import Verif.Props.Labeller
import Verif.Props.Timely
import Verif.Props.KinDynCache
import Verif.Props.RectangularFoot
import Verif.Props.Settings
import Verif.Props.State
import Verif.Props.Walking
import Verif.Props.Utilities
import Verif.Props.Constraints
import Verif.Props.Levi
import Verif.Props.QuaternionUtils
import Verif.Props.QuaternionExpressions
import Verif.Props.Dynamics
import Verif.Props.Costs
import Verif.Props.EvalCache
import Verif.Props.Squeeze
import Verif.Props.Packing
import Verif.Props.Bounds
import Verif.Props.Solver
import Verif.Props.Problem
import Verif.Props.Discovery
import Verif.Props.Kinematics
import Verif.Props.StaticForces
import Verif.Props.TreeExpr
import Verif.Props.VecExpr
import Verif.Props.MomentumExpr
import Verif.Props.CoMExpr
import Verif.Props.CentroidalMomentum
import Verif.Props.PointConstraints
import Verif.Props.StaticTorquesCost
import Verif.Props.FrameOrientationCost
import Verif.Props.FrameVelocityCost
import Verif.Props.ServerState
import Verif.Props.ServerMemo
import Verif.Props.RelativeQuaternion
import Verif.Props.Logger
import Verif.Props.Visualizer
import Verif.Props.VisualizerMPC
import Verif.Props.CodeGen
import Verif.Props.CodeText
import Verif.Props.DependenciesSet
import Verif.Props.Plan
import Verif.Props.PlanBounds
import Verif.Props.Objective
import Verif.Props.ObjectiveGradient
import Verif.Props.ConstraintStack
import Verif.Props.ConstraintHessians
import Verif.Props.Plugin
import Verif.Props.Parallel
import Verif.Props.ParallelCases
import Verif.Props.ObjectiveHessians
import Verif.Props.DynamicsVector
import Verif.Props.LoggedSettings
import Verif.Props.ObjectiveSign
import Verif.Props.ExponentialWeight
import Verif.Props.DerivativeCache
import Verif.Props.LibraryClass
import Verif.Props.AsVariable
import Verif.Props.BasicMatrices
import Verif.Props.SqueezeFollow
import Verif.Props.SetSizes
import Verif.Props.AssignExpr
import Verif.Props.EqualExpr
