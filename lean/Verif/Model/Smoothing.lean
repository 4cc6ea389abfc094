import Mathlib.Analysis.Complex.Trigonometric
/- Smoothing functions: src/private/SmoothingFunction.cpp, HyperbolicSecant.cpp, HyperbolicTangent.cpp. -/
namespace Verif.Smooth

/-- Members of `SmoothingFunction` (include/DynamicalPlannerPrivate/Utilities/SmoothingFunction.h) with the constructor's
values (src/private/SmoothingFunction.cpp:13-17). -/
structure Params where
  K : ℝ := 1
  disabled : Bool := false
  disabledValue : ℝ := 1

/-- src/private/SmoothingFunction.cpp:22-25 (`setScaling`). -/
def Params.setScaling (p : Params) (k : ℝ) : Params := { p with K := k }

/-- src/private/SmoothingFunction.cpp:27-31 (`disable`). -/
def Params.disable (p : Params) (v : ℝ) : Params := { p with disabled := true, disabledValue := v }

/-- Which of the two functions. -/
inductive Kind | secant | tangent
deriving DecidableEq

/-- A smoothing function object. -/
structure Fn where
  kind : Kind
  p : Params

noncomputable section

/-- HyperbolicSecant.cpp:19-25 and HyperbolicTangent.cpp:19-25 (`eval`). -/
def Fn.eval (f : Fn) (x : ℝ) : ℝ :=
  if f.p.disabled then f.p.disabledValue
  else match f.kind with
    | .secant => 1 / Real.cosh (f.p.K * x)
    | .tangent => Real.tanh (f.p.K * x)

/-- HyperbolicSecant.cpp:27-33 and HyperbolicTangent.cpp:27-34 (`evalDerivative`). -/
def Fn.evalDerivative (f : Fn) (x : ℝ) : ℝ :=
  if f.p.disabled then 0
  else match f.kind with
    | .secant => -f.eval x * Real.tanh (f.p.K * x) * f.p.K
    | .tangent =>
      let s := 1 / Real.cosh (f.p.K * x);
      f.p.K * s * s

/-- HyperbolicSecant.cpp:35-42 and HyperbolicTangent.cpp:36-43 (`evalDoubleDerivative`). -/
def Fn.evalDoubleDerivative (f : Fn) (x : ℝ) : ℝ :=
  if f.p.disabled then 0
  else match f.kind with
    | .secant =>
      let t := Real.tanh (f.p.K * x);
      -f.evalDerivative x * t * f.p.K - f.eval x * (1 - t * t) * f.p.K * f.p.K
    | .tangent =>
      let s := 1 / Real.cosh (f.p.K * x);
      -2 * f.p.K * f.p.K * f.eval x * s * s

end

end Verif.Smooth
