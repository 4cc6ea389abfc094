import Verif.Model.Vars
import Mathlib.Analysis.Calculus.Deriv.Basic
/- What "exact derivatives" means, independently of the code. -/
namespace Verif.NLP.Spec
open Function

/-- `g` is the vector of partial derivatives of `f` at `x`. -/
def GradAt {ι : Type} [DecidableEq ι] (f : (ι → ℝ) → ℝ) (g : ι → ℝ) (x : ι → ℝ) : Prop :=
  ∀ j, HasDerivAt (fun t => f (update x j t)) (g j) (x j)

/-- `H` is the matrix of second partial derivatives of `f` at `x`. -/
def HessAt {ι : Type} [DecidableEq ι] (f : (ι → ℝ) → ℝ) (H : ι → ι → ℝ) (x : ι → ℝ) : Prop :=
  ∃ g : (ι → ℝ) → ι → ℝ, (∀ y, GradAt f (g y) y) ∧ ∀ i, GradAt (fun y => g y i) (H i) x

/-- `M` is the matrix of mixed second partial derivatives (first argument, second argument) of `f` at `x`, `u`. -/
def MixedAt {ι κ : Type} [DecidableEq ι] [DecidableEq κ] (f : (ι → ℝ) → (κ → ℝ) → ℝ) (M : ι → κ → ℝ) (x : ι → ℝ)
    (u : κ → ℝ) : Prop :=
  ∃ g : (ι → ℝ) → (κ → ℝ) → ι → ℝ, (∀ y v, GradAt (fun y' => f y' v) (g y v) y) ∧ ∀ i, GradAt (fun v => g x v i) (M i) u

variable {σ κ : Type} [DecidableEq σ] [DecidableEq κ]

/-- First derivatives of a constraint are exact (the caller hands in zero matrices). -/
def ExactJacobians {r : Nat} (c : Constraint σ κ r) : Prop :=
  ∀ x u i, GradAt (fun y => c.value y u i) (c.stateJac x u (fun _ _ => 0) i) x ∧
    GradAt (fun v => c.value x v i) (c.ctrlJac x u (fun _ _ => 0) i) u

/-- The multiplier-weighted constraint. -/
def weighted {r : Nat} (c : Constraint σ κ r) (lam : Fin r → ℝ) (x : σ → ℝ) (u : κ → ℝ) : ℝ :=
  (List.ofFn fun i => lam i * c.value x u i).sum

/-- Second derivatives of a constraint are exact (the caller hands in zero matrices). -/
def ExactHessians {r : Nat} (c : Constraint σ κ r) : Prop :=
  ∀ x u lam, HessAt (fun y => weighted c lam y u) (c.stateHess x u lam fun _ _ => 0) x ∧
    HessAt (fun v => weighted c lam x v) (c.ctrlHess x u lam fun _ _ => 0) u ∧
    MixedAt (weighted c lam) (c.mixedHess x u lam fun _ _ => 0) x u

/-- Every entry that can be non-zero is declared. -/
def SparsityCovers {r : Nat} (c : Constraint σ κ r) : Prop :=
  (∀ x u i j, c.stateJac x u (fun _ _ => 0) i j ≠ 0 → (i, j) ∈ c.stateJacPat) ∧
  (∀ x u i j, c.ctrlJac x u (fun _ _ => 0) i j ≠ 0 → (i, j) ∈ c.ctrlJacPat) ∧
  (∀ x u lam i j, c.stateHess x u lam (fun _ _ => 0) i j ≠ 0 → (i, j) ∈ c.stateHessPat) ∧
  (∀ x u lam i j, c.ctrlHess x u lam (fun _ _ => 0) i j ≠ 0 → (i, j) ∈ c.ctrlHessPat) ∧
  (∀ x u lam i j, c.mixedHess x u lam (fun _ _ => 0) i j ≠ 0 → (i, j) ∈ c.mixedHessPat)

/-- Gradients of a cost are exact (the caller hands in zero vectors). -/
def ExactGradients (c : Cost σ κ) : Prop :=
  ∀ x u, GradAt (fun y => c.value y u) (c.stateGrad x u fun _ => 0) x ∧ GradAt (fun v => c.value x v) (c.ctrlGrad x u fun _ => 0) u

/-- Second derivatives of a cost are exact (the caller hands in zero matrices). -/
def ExactCostHessians (c : Cost σ κ) : Prop :=
  ∀ x u, HessAt (fun y => c.value y u) (c.stateHess x u fun _ _ => 0) x ∧
    HessAt (fun v => c.value x v) (c.ctrlHess x u fun _ _ => 0) u ∧
    MixedAt c.value (c.mixedHess x u fun _ _ => 0) x u

/-- Every second derivative of a cost that can be non-zero is declared. -/
def CostSparsityCovers (c : Cost σ κ) : Prop :=
  (∀ x u i j, c.stateHess x u (fun _ _ => 0) i j ≠ 0 → (i, j) ∈ c.stateHessPat) ∧
  (∀ x u i j, c.ctrlHess x u (fun _ _ => 0) i j ≠ 0 → (i, j) ∈ c.ctrlHessPat) ∧
  (∀ x u i j, c.mixedHess x u (fun _ _ => 0) i j ≠ 0 → (i, j) ∈ c.mixedHessPat)

end Verif.NLP.Spec
