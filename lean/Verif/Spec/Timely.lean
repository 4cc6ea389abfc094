import Mathlib.Algebra.Order.Field.Basic
import Mathlib.Algebra.Order.AbsoluteValue.Basic
/- Specification: nearest element of a time grid. -/
namespace Verif.Timely.Spec
variable {K : Type} [Field K] [LinearOrder K]

/-- `k` is the index of a grid point at minimal distance from `t`. -/
def Nearest (ts : List K) (t : K) (k : Nat) : Prop :=
  ∃ hk : k < ts.length, ∀ (m : Nat) (hm : m < ts.length), |t - ts[k]| ≤ |t - ts[m]|

/-- `k` is nearest, or at distance below `tol`. -/
def NearestUpTo (tol : K) (ts : List K) (t : K) (k : Nat) : Prop :=
  ∃ hk : k < ts.length, Nearest ts t k ∨ |t - ts[k]| < tol

/-- Nearest, ties resolved towards the later grid point. -/
def NearestLate (ts : List K) (t : K) (k : Nat) : Prop :=
  ∃ hk : k < ts.length, ∀ (m : Nat) (hm : m < ts.length),
    |t - ts[k]| < |t - ts[m]| ∨ (|t - ts[k]| = |t - ts[m]| ∧ m ≤ k)

end Verif.Timely.Spec
