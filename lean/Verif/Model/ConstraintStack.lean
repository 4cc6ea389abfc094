import Verif.Model.ObjectiveGradient
/-
The constraints handed to the optimiser, stacked: the objects that `setConstraints` (src/Solver.cpp:911-1123) adds to the optimal control problem, row by row, in the order in
which they are added: values, bounds (`getLowerBound`, `getUpperBound`), Jacobians (`constraintJacobianWRTState`, `constraintJacobianWRTControl`) and the columns declared
(`constraintJacobianWRTStateSparsity`, `constraintJacobianWRTControlSparsity`), in the vectors of the optimiser.

External, and modelled here: `OptimalControlProblem::constraintsEvaluation`, `constraintsJacobianWRTState`, `...WRTControl`, and the functions for their bounds and sparsity: the
rows of each constraint one after the other, each constraint being given a matrix of zeros.
-/
namespace Verif.Plan
open NLP NLP.Kin SolverM Rigid
open Labeller (Range)
noncomputable section
variable {n nj : ℕ} {L F : Type} [DecidableEq L] [DecidableEq F] {m : Model L (Fin nj)}

/-- The object created for a constraint, Solver.cpp:911-1123 (`none`: an index out of range, which does not happen). -/
def constraintObject (n : ℕ) (R : Objects m F) : SolverM.Con ℝ → Option (Σ k, Constraint (Idx (SBlk n)) (Idx (CBlk n)) k)
  | .centroidalMomentum lower upper => some ⟨3, withBounds (centroidalMomentum R.server R.norm R.fuel R.order R.order' 0) lower upper⟩
  | .comPosition lower upper => some ⟨3, withBounds (comPositionConstraint R.server R.rot R.fuel R.leftover 0) lower upper⟩
  | .feetLateralDistance direction reference other lower =>
    if h : direction < 3 then some ⟨1, feetLateralDistance R.server (R.frame reference) (R.frame other) ⟨direction, h⟩ R.leftover lower⟩ else none
  | .quaternionNorm lower upper => some ⟨1, withBounds (quaternionNorm (n := n) 0) lower upper⟩
  | .feetRelativeHeight maximum => some ⟨1, feetRelativeHeight maximum⟩
  | .planarVelocityControl foot i scaling maximumX maximumY =>
    if h : i < n then some ⟨4, planarVelocityControl (side foot) ⟨i, h⟩ (activation scaling) maximumX maximumY R.stored⟩ else none
  | .classicalPlanarComplementarity foot i tolerance => if h : i < n then some ⟨2, classicalPlanarComplementarity (side foot) ⟨i, h⟩ tolerance⟩ else none
  | .dynamicalComplementarity foot i dissipation upper => if h : i < n then some ⟨1, dynamicalComplementarity (side foot) ⟨i, h⟩ dissipation upper⟩ else none
  | .forceControl foot i scaling maximum dissipation =>
    if h : i < n then some ⟨_, contactForceControl (side foot) ⟨i, h⟩ (activation scaling) maximum dissipation⟩ else none
  | .classicalComplementarity foot i tolerance => if h : i < n then some ⟨1, classicalComplementarity (side foot) ⟨i, h⟩ tolerance⟩ else none
  | .friction foot i coefficient => if h : i < n then some ⟨1, contactFriction (side foot) ⟨i, h⟩ coefficient⟩ else none
  | .contactPosition foot i frame point lower upper =>
    if h : i < n then
      some ⟨3, withBounds (contactPositionConstraint R.server R.rot (R.frame frame) R.leftover (side foot) ⟨i, h⟩ (toVec point) 0) lower upper⟩
    else none

/-- A row, as the optimiser sees it. -/
structure StackRow where
  value : ℝ
  /-- `none`: minus infinity -/
  lower : Option ℝ
  /-- `none`: plus infinity -/
  upper : Option ℝ
  state : ℕ → ℝ
  control : ℕ → ℝ
  stateDeclared : ℕ → Prop
  controlDeclared : ℕ → Prop

/-- The entry of the vector for a declared entry (`range.offset + k`), also beyond the range. -/
def StateColumn (r : Ranges) (p : Idx (SBlk n)) (i : ℕ) : Prop := ∃ rg, stateRange r p.1 = some rg ∧ rg.offset + p.2 = i
def ControlColumn (r : Ranges) (p : Idx (CBlk n)) (i : ℕ) : Prop := ∃ rg, controlRange r p.1 = some rg ∧ rg.offset + p.2 = i

/-- The rows of a constraint. -/
def rowsOf (r : Ranges) {k : ℕ} (c : Constraint (Idx (SBlk n)) (Idx (CBlk n)) k) (x : SVec n) (u : CVec n) : List StackRow :=
  List.ofFn fun a =>
    { value := c.value x u a
      lower := c.lower.map (· a)
      upper := c.upper.map (· a)
      state := stateVectorOf r (c.stateJac x u (fun _ _ => 0) a)
      control := controlVectorOf r (c.ctrlJac x u (fun _ _ => 0) a)
      stateDeclared := fun i => ∃ p, (a, p) ∈ c.stateJacPat ∧ StateColumn r p i
      controlDeclared := fun i => ∃ p, (a, p) ∈ c.ctrlJacPat ∧ ControlColumn r p i }

/-- All the rows, for the two vectors of the optimiser. -/
def stack (R : Objects m F) (r : Ranges) (n : ℕ) (constraints : List (SolverM.Con ℝ)) (v w : List ℝ) : List StackRow :=
  constraints.flatMap fun k =>
    match constraintObject n R k with
    | some o => rowsOf r o.2 (readState (n := n) r v) (readControl (n := n) r w)
    | none => []

/-- The row is within its bounds. -/
def StackRow.Within (row : StackRow) : Prop := (∀ l, row.lower = some l → l ≤ row.value) ∧ ∀ l, row.upper = some l → row.value ≤ l

end
end Verif.Plan
