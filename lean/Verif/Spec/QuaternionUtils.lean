import Verif.Model.QuaternionUtils
import Mathlib.Algebra.Quaternion
import Mathlib.Analysis.Calculus.Deriv.Basic
import Mathlib.Analysis.Real.Sqrt
/- Vocabulary of the statements about quaternions: Mathlib's quaternions and partial derivatives. -/
namespace Verif.Quaternion.Spec


/-- The quaternion with the given components. -/
def toH (q : Fin 4 → ℝ) : _root_.Quaternion ℝ := ⟨q 0, q 1, q 2, q 3⟩
/-- The purely imaginary quaternion of a vector. -/
def imag (v : Fin 3 → ℝ) : _root_.Quaternion ℝ := ⟨0, v 0, v 1, v 2⟩

/-- UnitQ norm. -/
def UnitQ (q : Fin 4 → ℝ) : Prop := q 0 ^ 2 + q 1 ^ 2 + q 2 ^ 2 + q 3 ^ 2 = 1
/-- `qd` is a direction along which the norm of `q` does not change. -/
def Tangent (q qd : Fin 4 → ℝ) : Prop := q 0 * qd 0 + q 1 * qd 1 + q 2 * qd 2 + q 3 * qd 3 = 0

/-- `J` is the Jacobian of `f` at `x`: its entries are the partial derivatives. -/
def IsJacobian {n m : Nat} (f : (Fin n → ℝ) → Fin m → ℝ) (x : Fin n → ℝ) (J : Matrix (Fin m) (Fin n) ℝ) : Prop :=
  ∀ i j, HasDerivAt (fun t => f (Function.update x j t) i) (J i j) (x j)

end Verif.Quaternion.Spec
