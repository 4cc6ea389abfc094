import Verif.Spec.Packing
import Mathlib.Order.Lattice
import Mathlib.Algebra.Order.Group.Unbundled.Abs
/- What the bounds of the optimisation variables mean for a state and a control.  No vectors. -/
namespace Verif.SolverM.Spec
open StateM
variable {K : Type}

/-- Each element of `v` is between the corresponding elements of `lower` and `upper` (all of the same length). -/
def Between [LE K] (lower upper v : List K) : Prop := List.Forall₂ (· ≤ ·) lower v ∧ List.Forall₂ (· ≤ ·) v upper

/-- `v` is in the box of half sides `m` around the origin. -/
def InBox [Lattice K] [AddGroup K] (m v : V3 K) : Prop := |v.x| ≤ m.x ∧ |v.y| ≤ m.y ∧ |v.z| ≤ m.z

/-- All that the bounds ask of a state but for the centre of mass. -/
structure StateAllowed [Lattice K] [AddGroup K] (maximumAngularMomentum : K) (jointsLimits : List (K × K)) (s : State K) : Prop where
  height : ∀ p ∈ s.left ++ s.right, 0 ≤ p.position.z
  normalForce : ∀ p ∈ s.left ++ s.right, 0 ≤ p.force.z
  angularMomentum : InBox ⟨maximumAngularMomentum, maximumAngularMomentum, maximumAngularMomentum⟩ s.angularMomentum
  joints : List.Forall₂ (fun l x => l.1 ≤ x ∧ x ≤ l.2) jointsLimits s.joints

/-- The points of a control are free to move, with limits. -/
def PointsLimited [Lattice K] [AddGroup K] (force velocity : V3 K) (c : Control K) : Prop :=
  ∀ p ∈ c.left ++ c.right, InBox force p.forceControl ∧ InBox velocity p.velocityControl

/-- The points of a control are not controlled. -/
def PointsFrozen [Zero K] (c : Control K) : Prop := ∀ p ∈ c.left ++ c.right, p.forceControl = ⟨0, 0, 0⟩ ∧ p.velocityControl = ⟨0, 0, 0⟩

/-- The joint velocities respect their limits. -/
def JointVelocitiesAllowed [LE K] (limits : List (K × K)) (c : Control K) : Prop :=
  List.Forall₂ (fun l x => l.1 ≤ x ∧ x ≤ l.2) limits c.jointsVelocity

end Verif.SolverM.Spec
