import Verif.Model.Kinematics
import Verif.Spec.Rigid
/- Specification of the kinematic trees. -/
namespace Verif.Rigid
variable {L J : Type}

/-- The joints move as they say: the derivative of the transform of a joint is its motion direction, at every position. -/
def Model.Regular (m : Model L J) : Prop := ∀ j x, HasTangent (m.T j) (m.S j) x

end Verif.Rigid
