import Verif.Model.ConstraintStack
/-
The second derivatives of the constraints handed to the optimiser: `constraintSecondPartialDerivativeWRTState`, `...WRTControl`, `...WRTStateControl` of the objects that
`setConstraints` (src/Solver.cpp:911-1123) adds, and the entries that they declare (`constraintSecondPartialDerivativeWRTStateSparsity`, ...), in the vectors of the optimiser.

External, and modelled here: `OptimalControlProblem::constraintsSecondPartialDerivativeWRTState` and the two others: each constraint is given its part of the multipliers and a matrix
of zeros, and the matrices are summed; `...Sparsity`: the union of the patterns.
-/
namespace Verif.Plan
open NLP NLP.Kin SolverM Rigid
noncomputable section
variable {n nj : ℕ} {L F : Type} [DecidableEq L] [DecidableEq F] {m : Model L (Fin nj)}

/-- A matrix that is written range by range. -/
def stateMatrixOf (r : Ranges) (H : Idx (SBlk n) → Idx (SBlk n) → ℝ) : ℕ → ℕ → ℝ := fun i j => stateVectorOf r (fun p => stateVectorOf r (H p) j) i
def controlMatrixOf (r : Ranges) (H : Idx (CBlk n) → Idx (CBlk n) → ℝ) : ℕ → ℕ → ℝ := fun i j => controlVectorOf r (fun p => controlVectorOf r (H p) j) i
def mixedMatrixOf (r : Ranges) (H : Idx (SBlk n) → Idx (CBlk n) → ℝ) : ℕ → ℕ → ℝ := fun i j => stateVectorOf r (fun p => controlVectorOf r (H p) j) i

/-- The three matrices, and the entries declared. -/
structure Hessians where
  state : ℕ → ℕ → ℝ
  control : ℕ → ℕ → ℝ
  mixed : ℕ → ℕ → ℝ
  stateDeclared : ℕ → ℕ → Prop
  controlDeclared : ℕ → ℕ → Prop
  mixedDeclared : ℕ → ℕ → Prop

/-- The matrices of a constraint. -/
def hessiansOf (r : Ranges) {k : ℕ} (c : Constraint (Idx (SBlk n)) (Idx (CBlk n)) k) (x : SVec n) (u : CVec n) (lam : Fin k → ℝ) : Hessians where
  state := stateMatrixOf r (c.stateHess x u lam fun _ _ => 0)
  control := controlMatrixOf r (c.ctrlHess x u lam fun _ _ => 0)
  mixed := mixedMatrixOf r (c.mixedHess x u lam fun _ _ => 0)
  stateDeclared i j := ∃ p q, (p, q) ∈ c.stateHessPat ∧ StateColumn r p i ∧ StateColumn r q j
  controlDeclared i j := ∃ p q, (p, q) ∈ c.ctrlHessPat ∧ ControlColumn r p i ∧ ControlColumn r q j
  mixedDeclared i j := ∃ p q, (p, q) ∈ c.mixedHessPat ∧ StateColumn r p i ∧ ControlColumn r q j

/-- The sum of the matrices of all the constraints; `lam a` is the multiplier of the row `a` of the stack. -/
def stackHessians (R : Objects m F) (r : Ranges) (n : ℕ) : List (SolverM.Con ℝ) → (ℕ → ℝ) → List ℝ → List ℝ → Hessians
  | [], _, _, _ => ⟨fun _ _ => 0, fun _ _ => 0, fun _ _ => 0, fun _ _ => False, fun _ _ => False, fun _ _ => False⟩
  | k :: l, lam, v, w =>
    match constraintObject n R k with
    | some o =>
      let a := hessiansOf r o.2 (readState (n := n) r v) (readControl (n := n) r w) fun i => lam i
      let b := stackHessians R r n l (fun i => lam (o.1 + i)) v w
      { state := fun i j => a.state i j + b.state i j
        control := fun i j => a.control i j + b.control i j
        mixed := fun i j => a.mixed i j + b.mixed i j
        stateDeclared := fun i j => a.stateDeclared i j ∨ b.stateDeclared i j
        controlDeclared := fun i j => a.controlDeclared i j ∨ b.controlDeclared i j
        mixedDeclared := fun i j => a.mixedDeclared i j ∨ b.mixedDeclared i j }
    | none => stackHessians R r n l lam v w

/-- The rows, weighted with the multipliers. -/
def weightedStack (R : Objects m F) (r : Ranges) (n : ℕ) (l : List (SolverM.Con ℝ)) (lam : ℕ → ℝ) (v w : List ℝ) : ℝ :=
  ((stack R r n l v w).mapIdx fun a row => lam a * row.value).sum

end
end Verif.Plan
