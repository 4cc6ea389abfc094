import Verif.Model.ConstraintHessians
/-
The dynamics handed to the optimiser: `DynamicalConstraints::dynamics`, `dynamicsStateFirstDerivative`, `dynamicsControlFirstDerivative`, `dynamicsSecondPartialDerivativeWRTState`,
`...WRTControl`, `...WRTStateControl` and the sparsity of each (src/private/DynamicalConstraints.cpp:428-612, patterns 256-320), in the vectors of the optimiser: the functions of Model/Dynamics.lean read and
write the ranges of the variables that `setVariablesStructure` (src/Solver.cpp:330-382) made.
-/
namespace Verif.Plan
open NLP NLP.Kin SolverM Rigid
noncomputable section
variable {n : ℕ}

/-- `dynamics` (DynamicalConstraints.cpp:428-458): the entry `a` of the result; `buffer` is what the earlier calls left in the vector of the result. -/
def dynamicsOn (P : Dynamics.Params) (r : Ranges) (n : ℕ) (buffer : SVec n) (v w : List ℝ) (a : ℕ) : ℝ :=
  stateVectorOf r (Dynamics.dynamics P (readState r v) (readControl r w) buffer) a

/-- The two Jacobians and the entries declared (DynamicalConstraints.cpp:460-533). -/
structure Jacobians where
  state : ℕ → ℕ → ℝ
  control : ℕ → ℕ → ℝ
  stateDeclared : ℕ → ℕ → Prop
  controlDeclared : ℕ → ℕ → Prop

/-- `dynamicsStateFirstDerivative`, `dynamicsControlFirstDerivative`, `dynamicsStateFirstDerivativeSparsity`, `dynamicsControlFirstDerivativeSparsity`. -/
def dynamicsJacobians (P : Dynamics.Params) (r : Ranges) (n : ℕ) (v w : List ℝ) : Jacobians where
  state := stateMatrixOf r (Dynamics.stateJac (n := n) P (readState r v) (readControl r w) fun _ _ => 0)
  control := mixedMatrixOf r (Dynamics.ctrlJac (n := n) P (readState r v) fun _ _ => 0)
  stateDeclared i j := ∃ p q, (p, q) ∈ Dynamics.stateJacPat (n := n) ∧ StateColumn r p i ∧ StateColumn r q j
  controlDeclared i j := ∃ p q, (p, q) ∈ Dynamics.ctrlJacPat (n := n) P.joints ∧ StateColumn r p i ∧ ControlColumn r q j

/-- `dynamicsSecondPartialDerivativeWRTState` and the two others (DynamicalConstraints.cpp:535-612); `lam` is the vector of the multipliers, one for each entry of the dynamics. -/
def dynamicsHessians (P : Dynamics.Params) (E : Dynamics.Exprs) (r : Ranges) (n : ℕ) (lam v w : List ℝ) : Hessians where
  state := stateMatrixOf r (Dynamics.stateHess (n := n) P E (readState r v) (readControl r w) (readState r lam) fun _ _ => 0)
  control := controlMatrixOf r (Dynamics.ctrlHess (n := n) fun _ _ => 0)
  mixed := mixedMatrixOf r (Dynamics.mixedHess (n := n) P E (readState r v) (readControl r w) (readState r lam) fun _ _ => 0)
  stateDeclared i j := ∃ p q, (p, q) ∈ Dynamics.stateHessPat (n := n) ∧ StateColumn r p i ∧ StateColumn r q j
  controlDeclared i j := ∃ p q, (p, q) ∈ Dynamics.ctrlHessPat (n := n) ∧ ControlColumn r p i ∧ ControlColumn r q j
  mixedDeclared i j := ∃ p q, (p, q) ∈ Dynamics.mixedHessPat (n := n) ∧ StateColumn r p i ∧ ControlColumn r q j

end
end Verif.Plan
