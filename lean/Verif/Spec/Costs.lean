import Verif.Model.Vars
import Verif.Model.Vec
import Mathlib.Analysis.Complex.Trigonometric
/- What the costs are supposed to measure, independently of how they compute it. -/
namespace Verif.NLP.Spec
variable {n : Nat}
noncomputable section

/-- Force on point `i` of foot `s`, component `k`. -/
def forceOf (x : SVec n) (s : Side) (i : Fin n) (k : Nat) : ℝ := x (.force s i, k)

/-- Position of point `i` of foot `s`, component `k`. -/
def positionOf (x : SVec n) (s : Side) (i : Fin n) (k : Nat) : ℝ := x (.pos s i, k)

/-- Mean of the positions of the points of one foot, component `k`. -/
def footCentre (x : SVec n) (s : Side) (k : Nat) : ℝ := (∑ i, positionOf x s i k) / n

/-- Mean of the positions of all the points, component `k`. -/
def feetCentre (x : SVec n) (k : Nat) : ℝ := (footCentre x .left k + footCentre x .right k) / 2

/-- A cost is never negative, whatever the state and control. -/
def NonNegative {σ κ : Type} (c : Cost σ κ) : Prop := ∀ x u, 0 ≤ c.value x u

/-- A planar vector is parallel to the direction of angle `ψ`. -/
def ParallelTo (ψ vx vy : ℝ) : Prop := vx * Real.sin ψ = vy * Real.cos ψ

/-- A planar vector is orthogonal to the direction of angle `ψ`. -/
def OrthogonalTo (ψ vx vy : ℝ) : Prop := vx * Real.cos ψ + vy * Real.sin ψ = 0

/-- Foot `s` is a rigid body, whose points have coordinates `P` in the foot frame, lying flat, at position `tx`, `ty` with yaw `θ`. -/
def PlacedAt (P : Fin n → V3 ℝ) (s : Side) (tx ty θ : ℝ) (x : SVec n) : Prop :=
  ∀ i, positionOf x s i 0 = tx + (Real.cos θ * (P i).x - Real.sin θ * (P i).y) ∧
    positionOf x s i 1 = ty + (Real.sin θ * (P i).x + Real.cos θ * (P i).y)

/-- `k` is the position of a point that satisfies `Q` and, among these, has the largest `f`. -/
def IsLargest (points : List (V3 ℝ)) (Q : V3 ℝ → Prop) (f : V3 ℝ → ℝ) (k : Nat) : Prop :=
  ∃ p, points[k]? = some p ∧ Q p ∧ ∀ q ∈ points, Q q → f q ≤ f p

end
end Verif.NLP.Spec
