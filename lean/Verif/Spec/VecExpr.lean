import Verif.Model.VecExpr
import Verif.Spec.TreeExpr
/- Specification for the expressions of the velocities. -/
namespace Verif.Rigid
variable {L J F : Type} [DecidableEq J]

/-- The same state with one variable moved. -/
def KState.move (st : KState J) : KVar J → ℝ → KState J
  | .position j, x => { st with q := Function.update st.q j (st.q j + x) }
  | .velocity j, x => { st with dq := Function.update st.dq j (st.dq j + x) }
  | .twist e, x => { st with twist := st.twist + x • e }

/-- The adjoint transforms written explicitly have a link as target; the velocities and the Jacobians can be of any frame. -/
def VExp.LinkTargets (fr : Frames L F) : VExp J F → Prop
  | .zero => True
  | .const _ => True
  | .twist => True
  | .comb X => ∀ k, (X k).LinkTargets fr
  | .relVel _ _ => True
  | .absVel _ => True
  | .app A X => A.LinkTargets fr ∧ X.LinkTargets fr
  | .add X Y => X.LinkTargets fr ∧ Y.LinkTargets fr
  | .sub X Y => X.LinkTargets fr ∧ Y.LinkTargets fr
  | .neg X => X.LinkTargets fr

end Verif.Rigid
