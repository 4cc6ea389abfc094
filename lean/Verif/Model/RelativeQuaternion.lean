import Verif.Model.VecExpr
import Verif.Model.QuaternionUtils
/-
The expression of the quaternion of a frame in another, src/private/RelativeQuaternionExpression.cpp and `relativeQuaternion` of
src/private/ExpressionsServer.cpp.  The memoization of the server is left out (see C72); the quaternion that iDynTree gives for a rotation is a parameter.
-/
namespace Verif.Rigid
open Matrix Verif.Quaternion
variable {L J F : Type} [DecidableEq L] [DecidableEq J] [DecidableEq F]

/-- The expressions with four entries: null, a constant, the relative quaternion, `0.5 * G_Expression(X).transpose() * V.block(3, 0, 3, 1)`, the sum. -/
inductive QExp (J F : Type)
  | zero
  | const (q : Quat ℝ)
  | rho (a b : F)
  | map (X : QExp J F) (V : VExp J F)
  | add (X Y : QExp J F)

/-- `G_Expression`, QuaternionExpressions.cpp:29-37. -/
noncomputable def gExpression (q : Quat ℝ) : Matrix (Fin 3) (Fin 4) ℝ :=
  let minusQuaternion := -im q
  let otherColumns := (1 : Matrix (Fin 3) (Fin 3) ℝ) * (q 0 • 1) + skew minusQuaternion
  Matrix.of fun i j => Fin.cases (minusQuaternion i) (fun k => otherColumns i k) j

/-- `ExpressionsServer::relativeQuaternion`, ExpressionsServer.cpp:379-383: the first column of the identity when the frames have the same name. -/
noncomputable def relativeQuaternion (a b : F) : QExp J F :=
  if a = b then .const fun i => (1 : Matrix (Fin 4) (Fin 4) ℝ) i 0 else .rho a b

namespace Server
variable {m : Model L J} (s : Server m F) (asQuaternion : Matrix (Fin 3) (Fin 3) ℝ → Quat ℝ)

variable [Fintype J]

/-- The evaluation; RelativeQuaternionExpression.cpp:57-64 for the quaternion. -/
noncomputable def qeval (st : KState J) : QExp J F → Quat ℝ
  | .zero => 0
  | .const q => q
  | .rho a b => asQuaternion (s.transform st.q a b).R
  | .map X V => ((0.5 : ℝ) • (gExpression (qeval st X))ᵀ) *ᵥ (s.veval st V).2
  | .add X Y => qeval st X + qeval st Y

/-- `getColumnDerivative(0, variable)`, one column; RelativeQuaternionExpression.cpp:75-93 for the quaternion: the expression of line 84 is built
again from the names, directly and not through the server; the others as in levi. -/
noncomputable def qderiv : KVar J → QExp J F → QExp J F
  | _, .zero => .zero
  | _, .const _ => .zero
  | .position j, .rho a b => .map (.rho a b) (s.jacobianColumn a b j)
  | _, .rho _ _ => .zero
  | d, .map X V => .add (.map (qderiv d X) V) (.map X (s.vderiv d V))
  | d, .add X Y => .add (qderiv d X) (qderiv d Y)

/-- The derivatives with respect to several variables, one after the other. -/
noncomputable def qderivs (X : QExp J F) (ds : List (KVar J)) : QExp J F := ds.foldl (fun X d => s.qderiv d X) X

end Server
end Verif.Rigid
