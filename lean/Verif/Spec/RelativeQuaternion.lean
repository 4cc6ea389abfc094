import Verif.Model.RelativeQuaternion
import Verif.Spec.VecExpr
import Verif.Spec.Orientation
/- Specification for the expression of the relative quaternion. -/
namespace Verif.Rigid
open Verif.Quaternion
variable {L J F : Type} [DecidableEq L] [DecidableEq J] [DecidableEq F] {m : Model L J}

/-- The library does not jump to the opposite quaternion for the relative quaternions of the expression. -/
def QExp.Steady (s : Server m F) (asQuaternion : Matrix (Fin 3) (Fin 3) ℝ → Quat ℝ) (q : J → ℝ) : QExp J F → Prop
  | .zero => True
  | .const _ => True
  | .rho a b => Verif.Quaternion.Steady asQuaternion (s.transform q a b).R
  | .map X _ => X.Steady s asQuaternion q
  | .add X Y => X.Steady s asQuaternion q ∧ Y.Steady s asQuaternion q

/-- The adjoint transforms written explicitly have a link as target. -/
def QExp.LinkTargets (fr : Frames L F) : QExp J F → Prop
  | .zero => True
  | .const _ => True
  | .rho _ _ => True
  | .map X V => X.LinkTargets fr ∧ V.LinkTargets fr
  | .add X Y => X.LinkTargets fr ∧ Y.LinkTargets fr

end Verif.Rigid
