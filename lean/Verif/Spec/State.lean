import Verif.Model.State
import Mathlib.Algebra.BigOperators.Group.List.Basic
/- Specification vocabulary for states and controls. -/
namespace Verif.StateM.Spec
variable {K : Type}

/-- A state with `n` joints and `p` points per foot. -/
def HasSize (s : State K) (n p : Nat) : Prop := s.left.length = p ∧ s.right.length = p ∧ s.joints.length = n
def ControlHasSize (s : Control K) (n p : Nat) : Prop :=
  s.left.length = p ∧ s.right.length = p ∧ s.jointsVelocity.length = n

/-- Every numeric entry is zero (the base pose is the identity). -/
def AllZero [Zero K] [One K] (s : State K) : Prop :=
  (∀ p ∈ s.left, p.force = 0 ∧ p.position = 0) ∧ (∀ p ∈ s.right, p.force = 0 ∧ p.position = 0) ∧
  s.linearMomentum = 0 ∧ s.angularMomentum = 0 ∧ s.com = 0 ∧
  s.base.pos = 0 ∧ s.base.rot = ⟨⟨1, 0, 0⟩, ⟨0, 1, 0⟩, ⟨0, 0, 1⟩⟩ ∧ (∀ q ∈ s.joints, q = 0) ∧ s.time = 0
def ControlAllZero [Zero K] (s : Control K) : Prop :=
  (∀ p ∈ s.left, p.forceControl = 0 ∧ p.velocityControl = 0) ∧
  (∀ p ∈ s.right, p.forceControl = 0 ∧ p.velocityControl = 0) ∧
  s.baseLinearVelocity = 0 ∧ s.baseQuaternionDerivative = ⟨0, 0, 0, 0⟩ ∧ (∀ q ∈ s.jointsVelocity, q = 0) ∧ s.time = 0

/-- All contact points, both feet. -/
def allPoints (s : State K) : List (PointState K) := s.left ++ s.right

/-- `c` is the mean of the point positions: the deviations from it sum to zero. -/
def IsMean [Field K] (ps : List (PointState K)) (c : V3 K) : Prop := (ps.map fun p => p.position - c).sum = 0

/-- The same state with every contact point moved by `d`. -/
def shiftPoints [Field K] (d : V3 K) (s : State K) : State K :=
  { s with left := s.left.map fun p => { p with position := p.position + d }
           right := s.right.map fun p => { p with position := p.position + d } }

end Verif.StateM.Spec
