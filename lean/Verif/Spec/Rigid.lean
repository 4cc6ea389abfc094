import Verif.Model.Rigid
/- Specification: the velocity of a moving frame. -/
namespace Verif.Rigid
open Matrix

/-- The moving frame `a_H_b` has, at `x`, the velocity `s` expressed in `b` itself: each point fixed in `b`, with coordinates `y`,
moves in `a` with the velocity of the rigid motion `s`. -/
def HasTangent (T : ℝ → SE3) (s : Spatial) (x : ℝ) : Prop :=
  ∀ y : Vec, HasDerivAt (fun t => (T t).point y) ((T x).R *ᵥ (s.1 + s.2 ⨯₃ y)) x

end Verif.Rigid
