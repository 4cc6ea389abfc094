import Verif.Spec.Calculus
import Mathlib.Topology.Instances.Real.Lemmas
import Mathlib.Topology.Constructions
/- Vocabulary for the statements about the dynamics: entries that exist, second derivatives near a point. -/
namespace Verif.NLP.Spec
open Filter Topology

/-- Number of entries of each state variable. -/
def stateSize {n : Nat} (joints : Nat) : SBlk n → Nat
  | .force _ _ | .pos _ _ | .com | .basePos => 3
  | .momentum => 6
  | .baseQuat => 4
  | .joints => joints

/-- The labels of the state variables. -/
def stateLabels (n : Nat) : List (SBlk n) :=
  (List.finRange n).flatMap (fun i => [.force .left i, .pos .left i]) ++
  (List.finRange n).flatMap (fun i => [.force .right i, .pos .right i]) ++ [.momentum, .com, .basePos, .baseQuat, .joints]

/-- All the entries of the state vector. -/
def stateEntries (n joints : Nat) : List (Idx (SBlk n)) :=
  (stateLabels n).flatMap fun b => (List.range (stateSize joints b)).map fun k => (b, k)

/-- The rows of a vector-valued function weighted with the multipliers. -/
noncomputable def weightedRows {n : Nat} (joints : Nat) (lam f : SVec n) : ℝ :=
  ((stateEntries n joints).map fun p => lam p * f p).sum

variable {ι κ : Type} [DecidableEq ι] [DecidableEq κ]

/-- `H` is the matrix of second partial derivatives of `f` at `x`, for functions that may be differentiable only near `x`. -/
def HessNear (f : (ι → ℝ) → ℝ) (H : ι → ι → ℝ) (x : ι → ℝ) : Prop :=
  ∃ g : (ι → ℝ) → ι → ℝ, (∀ᶠ y in 𝓝 x, GradAt f (g y) y) ∧ ∀ i, GradAt (fun y => g y i) (H i) x

/-- `M` is the matrix of mixed second partial derivatives of `f` at `x`, `u`: the derivatives with respect to the second argument of the
partial derivatives with respect to the first one. -/
def MixedNear (f : (ι → ℝ) → (κ → ℝ) → ℝ) (M : ι → κ → ℝ) (x : ι → ℝ) (u : κ → ℝ) : Prop :=
  ∃ g : (κ → ℝ) → ι → ℝ, (∀ v, GradAt (fun y => f y v) (g v) x) ∧ ∀ i, GradAt (fun v => g v i) (M i) u

end Verif.NLP.Spec
