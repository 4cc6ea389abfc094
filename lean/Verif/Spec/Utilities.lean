import Verif.Model.Utilities
import Verif.Spec.State
import Verif.Spec.RectangularFoot
/- Specification vocabulary for the utilities. -/
namespace Verif.Util.Spec
open Verif.StateM
variable {K : Type} [Field K] [LinearOrder K]

/-- `s` is `s0` translated rigidly (base and contact points keep their positions relative to the centre of mass, the
orientation, joints and forces are the same) and at rest. -/
structure Translated (s0 s : State K) : Prop where
  rotation : s.base.rot = s0.base.rot
  base : s.base.pos - s.com = s0.base.pos - s0.com
  left : s.left.map (fun p => p.position - s.com) = s0.left.map (fun p => p.position - s0.com)
  right : s.right.map (fun p => p.position - s.com) = s0.right.map (fun p => p.position - s0.com)
  leftForces : s.left.map PointState.force = s0.left.map PointState.force
  rightForces : s.right.map PointState.force = s0.right.map PointState.force
  joints : s.joints = s0.joints
  rest : s.linearMomentum = 0 ∧ s.angularMomentum = 0

/-- Heights of all contact points for the pose and joints of `s`. -/
def heights (rel : Relative K) (pts : Points K) (s : State K) : List K :=
  pts.left.map (fun p => (worldPoint s.base (rel.left s.joints) p).z)
    ++ pts.right.map (fun p => (worldPoint s.base (rel.right s.joints) p).z)

/-- `h` is the smallest element of the list. -/
def IsLowest (l : List K) (h : K) : Prop := h ∈ l ∧ ∀ x ∈ l, h ≤ x

/-- Heights stored in the state's contact points. -/
def storedHeights (s : State K) : List K :=
  s.left.map (fun p => p.position.z) ++ s.right.map (fun p => p.position.z)

/-- Weight of the robot: the sum of the masses of its links times 9.81. -/
def robotWeight (kin : Kin K) : K := kin.linkMasses.sum * (981 / 100)

/-- Total vertical contact force of a state. -/
def totalVertical (s : State K) : K :=
  (s.left.map fun p => p.force.z).sum + (s.right.map fun p => p.force.z).sum

/-- Moment, about a point `c`, of a wrench whose moment is given at point `p`. -/
def momentAbout (c p : V3 K) (w : Foot.Wrench K) : V3 K := w.moment + V3.cross (p - c) w.force

/-- Sizes under which the routine reads nothing out of bounds, and the external library never refuses. -/
structure Ready (rel : Relative K) (pts : Points K) (s : State K) : Prop where
  same : pts.left.length = pts.right.length
  left : s.left.length = pts.left.length
  right : s.right.length = pts.left.length
  ok : ∀ s', rel.stateOk s' = true

/-- Two states agree on everything the routine must not change. -/
structure SameRobot (s s' : State K) : Prop where
  joints : s'.joints = s.joints
  rot : s'.base.rot = s.base.rot
  bx : s'.base.pos.x = s.base.pos.x
  bY : s'.base.pos.y = s.base.pos.y
  lin : s'.linearMomentum = s.linearMomentum
  ang : s'.angularMomentum = s.angularMomentum
  time : s'.time = s.time
  lf : s'.left.map PointState.force = s.left.map PointState.force
  rf : s'.right.map PointState.force = s.right.map PointState.force

/-- What the routine guarantees at the end. -/
def Lowered (rel : Relative K) (pts : Points K) (s s' : State K) : Prop :=
  SameRobot s s' ∧ (∃ z, IsLowest (storedHeights s') z ∧ 0 ≤ z ∧ z ≤ e8 K ∧
    IsLowest (heights rel pts s') (z - 2 * e8 K) ∧
    s'.com = { s'.base with pos := ⟨s'.base.pos.x, s'.base.pos.y, s'.base.pos.z + 2 * e8 K⟩ }.apply (rel.com s'.joints))

/-- The routine finishes within `n` activations. -/
def DoneIn (rel : Relative K) (pts : Points K) (n : Nat) (s : State K) : Prop :=
  ∃ s', (∀ m, n ≤ m → lower rel pts m s = some (.finished s' true)) ∧ Lowered rel pts s s'

end Verif.Util.Spec
