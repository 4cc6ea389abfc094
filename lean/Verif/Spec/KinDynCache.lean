import Verif.Model.KinDynCache
/- Specification of closeness of robot states. -/
namespace Verif.KinDyn.Spec
variable {K : Type} [Field K] [LinearOrder K]

/-- Same size and every component closer than `tol`. -/
def CloseVec (tol : K) (v w : List K) : Prop :=
  v.length = w.length ∧ ∀ (i : Nat) (h : i < v.length) (h' : i < w.length), |v[i] - w[i]| < tol

/-- Robot states closer than `tol` in every component. -/
structure CloseState (tol : K) (a b : RobotState K) : Prop where
  basePosition : CloseVec tol a.basePosition b.basePosition
  baseQuaternion : CloseVec tol a.baseQuaternion b.baseQuaternion
  s : CloseVec tol a.s b.s
  baseLinearVelocity : CloseVec tol a.baseLinearVelocity b.baseLinearVelocity
  baseQuaternionVelocity : CloseVec tol a.baseQuaternionVelocity b.baseQuaternionVelocity
  sDot : CloseVec tol a.sDot b.sDot

end Verif.KinDyn.Spec
