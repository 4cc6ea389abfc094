import Verif.Model.Vec
import Mathlib.Data.Real.Basic
/- Variables of the optimisation vector, dense matrices written entry by entry, sparsity patterns. -/
namespace Verif.NLP

/-- The two feet ("Left", "Right" in the labels, src/Solver.cpp:330-382). -/
inductive Side | left | right
deriving DecidableEq

/-- Labels of the state variables (src/Solver.cpp:330-382, 1298-1324) for `n` contact points per foot. -/
inductive SBlk (n : Nat)
  | force (s : Side) (i : Fin n)   -- "<foot>ForcePoint<i>", 3
  | pos (s : Side) (i : Fin n)     -- "<foot>PositionPoint<i>", 3
  | momentum                       -- "Momentum", 6
  | com                            -- "CoMPosition", 3
  | basePos                        -- "BasePosition", 3
  | baseQuat                       -- "BaseQuaternion", 4
  | joints                         -- "JointsPosition", number of joints
deriving DecidableEq

/-- Labels of the control variables (src/Solver.cpp:330-382, 1298-1324). -/
inductive CBlk (n : Nat)
  | velCtl (s : Side) (i : Fin n)    -- "<foot>VelocityControlPoint<i>", 3
  | forceCtl (s : Side) (i : Fin n)  -- "<foot>ForceControlPoint<i>", 3
  | baseVel                          -- "BaseLinearVelocity", 3
  | quatDer                          -- "BaseQuaternionDerivative", 4
  | jointVel                         -- "JointsVelocity", number of joints
deriving DecidableEq

/-- An entry of a labelled vector: label and position in its range, i.e. flat index `range.offset + k`.
Simplification: the flat position is kept symbolic; that different (label, position) pairs have different flat positions is
C01/C29.  Positions at or beyond the size of the range do not exist in the code; the model never reads or writes them. -/
abbrev Idx (B : Type) := B × Nat

/-- State and control vectors. -/
abbrev SVec (n : Nat) := Idx (SBlk n) → ℝ
abbrev CVec (n : Nat) := Idx (CBlk n) → ℝ

/-- Three consecutive entries (`iDynTree::Vector3 v = variables(range)`). -/
def vec3 {B : Type} (x : Idx B → ℝ) (b : B) : V3 ℝ := ⟨x (b, 0), x (b, 1), x (b, 2)⟩

/-- `matrix(i, j) = v`. -/
def put {ρ κ : Type} [DecidableEq ρ] [DecidableEq κ] (M : ρ → κ → ℝ) (i : ρ) (j : κ) (v : ℝ) : ρ → κ → ℝ :=
  fun a b => if a = i ∧ b = j then v else M a b

/-- `vector(i) = v`. -/
def putV {ρ : Type} [DecidableEq ρ] (M : ρ → ℝ) (i : ρ) (v : ℝ) : ρ → ℝ := fun a => if a = i then v else M a

/-- `matrix.block(row(b) + k0, col(c) + l0, r, s) = B`, for blocks addressed by labels. -/
def putBlock {B C : Type} [DecidableEq B] [DecidableEq C] (M : Idx B → Idx C → ℝ) (b : B) (k0 : Nat) (c : C) (l0 : Nat)
    (r s : Nat) (A : Nat → Nat → ℝ) : Idx B → Idx C → ℝ :=
  fun p q => if p.1 = b ∧ k0 ≤ p.2 ∧ p.2 < k0 + r ∧ q.1 = c ∧ l0 ≤ q.2 ∧ q.2 < l0 + s then A (p.2 - k0) (q.2 - l0) else M p q

/-- `matrix.block(...) += B`. -/
def addBlock {B C : Type} [DecidableEq B] [DecidableEq C] (M : Idx B → Idx C → ℝ) (b : B) (k0 : Nat) (c : C) (l0 : Nat)
    (r s : Nat) (A : Nat → Nat → ℝ) : Idx B → Idx C → ℝ :=
  fun p q => if p.1 = b ∧ k0 ≤ p.2 ∧ p.2 < k0 + r ∧ q.1 = c ∧ l0 ≤ q.2 ∧ q.2 < l0 + s
    then M p q + A (p.2 - k0) (q.2 - l0) else M p q

/-- `matrix.block(...) *= c`. -/
def scaleBlock {B C : Type} [DecidableEq B] [DecidableEq C] (M : Idx B → Idx C → ℝ) (b : B) (k0 : Nat) (c : C) (l0 : Nat)
    (r s : Nat) (a : ℝ) : Idx B → Idx C → ℝ :=
  fun p q => if p.1 = b ∧ k0 ≤ p.2 ∧ p.2 < k0 + r ∧ q.1 = c ∧ l0 ≤ q.2 ∧ q.2 < l0 + s then M p q * a else M p q

/-- Entries of an identity matrix (`setIdentity()`). -/
def eye : Nat → Nat → ℝ := fun k l => if k = l then 1 else 0

/-- `vector.segment(offset(b) + k0, r) = v`. -/
def putSeg {B : Type} [DecidableEq B] (M : Idx B → ℝ) (b : B) (k0 r : Nat) (v : Nat → ℝ) : Idx B → ℝ :=
  fun p => if p.1 = b ∧ k0 ≤ p.2 ∧ p.2 < k0 + r then v (p.2 - k0) else M p

/-- Sparsity patterns (`iDynTree::optimalcontrol::SparsityStructure`): the list of declared entries. -/
abbrev Pattern (ρ κ : Type) := List (ρ × κ)

/-- Consecutive entries of a range. -/
def seg {B : Type} (b : B) (k0 n : Nat) : List (Idx B) := (List.range n).map fun i => (b, k0 + i)

/-- `SparsityStructure::addDenseBlock`. -/
def dense {ρ κ : Type} (rows : List ρ) (cols : List κ) : Pattern ρ κ := rows.flatMap fun r => cols.map fun c => (r, c)

/-- `SparsityStructure::addIdentityBlock`. -/
def diag {ρ κ : Type} (rows : List ρ) (cols : List κ) : Pattern ρ κ := rows.zip cols

/-- What the optimiser uses of a constraint with `r` rows: value, Jacobians and multiplier-weighted second derivatives (each
takes the matrix handed in by the caller and returns it after the call), declared patterns and bounds
(`iDynTree::optimalcontrol::Constraint`). -/
structure Constraint (σ κ : Type) (r : Nat) where
  value : (σ → ℝ) → (κ → ℝ) → Fin r → ℝ
  stateJac : (σ → ℝ) → (κ → ℝ) → (Fin r → σ → ℝ) → Fin r → σ → ℝ
  ctrlJac : (σ → ℝ) → (κ → ℝ) → (Fin r → κ → ℝ) → Fin r → κ → ℝ
  stateHess : (σ → ℝ) → (κ → ℝ) → (Fin r → ℝ) → (σ → σ → ℝ) → σ → σ → ℝ
  ctrlHess : (σ → ℝ) → (κ → ℝ) → (Fin r → ℝ) → (κ → κ → ℝ) → κ → κ → ℝ
  mixedHess : (σ → ℝ) → (κ → ℝ) → (Fin r → ℝ) → (σ → κ → ℝ) → σ → κ → ℝ
  stateJacPat : Pattern (Fin r) σ
  ctrlJacPat : Pattern (Fin r) κ
  stateHessPat : Pattern σ σ
  ctrlHessPat : Pattern κ κ
  mixedHessPat : Pattern σ κ
  lower : Option (Fin r → ℝ)
  upper : Option (Fin r → ℝ)

/-- What the optimiser uses of a cost (`iDynTree::optimalcontrol::Cost`): as for constraints, derivatives take the vector or matrix
handed in by the caller and return it after the call. -/
structure Cost (σ κ : Type) where
  value : (σ → ℝ) → (κ → ℝ) → ℝ
  stateGrad : (σ → ℝ) → (κ → ℝ) → (σ → ℝ) → σ → ℝ
  ctrlGrad : (σ → ℝ) → (κ → ℝ) → (κ → ℝ) → κ → ℝ
  stateHess : (σ → ℝ) → (κ → ℝ) → (σ → σ → ℝ) → σ → σ → ℝ
  ctrlHess : (σ → ℝ) → (κ → ℝ) → (κ → κ → ℝ) → κ → κ → ℝ
  mixedHess : (σ → ℝ) → (κ → ℝ) → (σ → κ → ℝ) → σ → κ → ℝ
  stateHessPat : Pattern σ σ
  ctrlHessPat : Pattern κ κ
  mixedHessPat : Pattern σ κ

/-- The constraint is satisfied at `x`, `u` (bounds are inclusive). -/
def Constraint.Holds {σ κ : Type} {r : Nat} (c : Constraint σ κ r) (x : σ → ℝ) (u : κ → ℝ) : Prop :=
  (∀ l, c.lower = some l → ∀ i, l i ≤ c.value x u i) ∧ (∀ l, c.upper = some l → ∀ i, c.value x u i ≤ l i)

end Verif.NLP
