import Mathlib.LinearAlgebra.Matrix.Notation
import Mathlib.Algebra.Order.Field.Basic
/-
Model of `src/private/QuaternionUtils.cpp`.  A quaternion is (real part, imaginary part).  Simplifications: `double` is an ordered
field `K`; a square root is passed as the function `sqrt` (`Eigen` norms); Eigen's fixed-size vectors and matrices are functions
of indices, its block assignments are written entry by entry.
-/
namespace Verif.Quaternion
open Matrix
variable {K : Type} [Field K]

abbrev Quat (K : Type) := Fin 4 → K
abbrev Vec (K : Type) := Fin 3 → K

/-- `toEigen(q).tail<3>()`. -/
def im (q : Quat K) : Vec K := ![q 1, q 2, q 3]

/-- Assignment of `leftCols<1>()` and `rightCols<3>()` (Eigen, external). -/
def colCols {n : Nat} (c : Fin n → K) (M : Matrix (Fin n) (Fin 3) K) : Matrix (Fin n) (Fin 4) K :=
  Matrix.of fun i => ![c i, M i 0, M i 1, M i 2]
/-- Assignment of `topRows<1>()` and `bottomRows<3>()` (Eigen, external). -/
def rowRows {n : Nat} (r : Fin n → K) (M : Matrix (Fin 3) (Fin n) K) : Matrix (Fin 4) (Fin n) K :=
  Matrix.of ![r, M 0, M 1, M 2]

/-- `iDynTree::skew` (external). -/
def skew (x : Vec K) : Matrix (Fin 3) (Fin 3) K :=
  !![0, -x 2, x 1; x 2, 0, -x 0; -x 1, x 0, 0]

/-- `cross` of Eigen (external). -/
def cross (a b : Vec K) : Vec K := ![a 1 * b 2 - a 2 * b 1, a 2 * b 0 - a 0 * b 2, a 0 * b 1 - a 1 * b 0]

/-- `iDynTree::Rotation::RotationFromQuaternion` (external): `I + 2 s [r]x + 2 [r]x [r]x`. -/
def rotationFromQuaternion (q : Quat K) : Matrix (Fin 3) (Fin 3) K :=
  1 + (2 * q 0) • skew (im q) + (2 : K) • (skew (im q) * skew (im q))

/-- `QuaternionLeftTrivializedDerivative`, lines 11-21. -/
def leftTrivializedDerivative (q : Quat K) : Matrix (Fin 4) (Fin 3) K :=
  (1 / 2 : K) • rowRows (-im q) ((q 0) • (1 : Matrix (Fin 3) (Fin 3) K) + skew (im q))

/-- `QuaternionLeftTrivializedDerivativeInverse`, lines 23-36. -/
def leftTrivializedDerivativeInverse (q : Quat K) : Matrix (Fin 3) (Fin 4) K :=
  (2 : K) • colCols (-im q) ((q 0) • (1 : Matrix (Fin 3) (Fin 3) K) - skew (im q))

/-- `QuaternionSquaredNorm`, lines 50-53. -/
def squaredNorm (q : Quat K) : K := ∑ i, q i * q i

/-- `QuaternionNorm`, lines 45-48. -/
def norm (sqrt : K → K) (q : Quat K) : K := sqrt (squaredNorm q)

/-- `NormalizedQuaternion`, lines 38-43: `Eigen`'s `normalized()` divides by the norm when the squared norm is positive. -/
def normalized [LinearOrder K] (sqrt : K → K) (q : Quat K) : Quat K :=
  if 0 < squaredNorm q then fun i => q i / norm sqrt q else q

/-- `NormalizedQuaternionDerivative`, lines 55-67. -/
def normalizedDerivative (sqrt : K → K) (q : Quat K) : Matrix (Fin 4) (Fin 4) K :=
  (1 / (norm sqrt q * squaredNorm q)) •
    (squaredNorm q • (1 : Matrix (Fin 4) (Fin 4) K) - Matrix.of fun i j => q i * q j)

/-- `QuaternionLeftTrivializedDerivativeTimesOmegaJacobian`, lines 69-83. -/
def leftTrivializedDerivativeTimesOmegaJacobian (ω : Vec K) : Matrix (Fin 4) (Fin 4) K :=
  (1 / 2 : K) • rowRows ![0, -ω 0, -ω 1, -ω 2] (colCols ω (-skew ω))

/-- The Jacobian before it is scaled, lines 100-107. -/
def rotatedVectorUnscaled (x : Vec K) (q : Quat K) : Matrix (Fin 3) (Fin 4) K :=
  colCols (cross (im q) x) (-(q 0) • skew x - skew (cross (im q) x) - skew (im q) * skew x)

/-- `RotatedVectorQuaternionJacobian`, lines 85-111. -/
def rotatedVectorJacobian [LinearOrder K] (sqrt : K → K) (v : Vec K) (q : Quat K) : Matrix (Fin 3) (Fin 4) K :=
  if 1 < sqrt (∑ i, v i * v i) then
    (2 * sqrt (∑ i, v i * v i)) • rotatedVectorUnscaled (fun i => v i / sqrt (∑ i, v i * v i)) q
  else (2 * 1 : K) • rotatedVectorUnscaled v q

/-- `QuaternionBoundsRespected`, lines 113-128 (the message is not modelled). -/
def boundsRespected [LinearOrder K] (q : Quat K) : Bool :=
  decide (q 0 ≥ -1) && decide (q 0 ≤ 1 + 1 / 10 ^ 6) &&
  (List.finRange 3).all fun i => decide (im q i ≥ -1 - 1 / 10 ^ 6) && decide (im q i ≤ 1 + 1 / 10 ^ 6)

/-- `ErrorQuaternion`, lines 130-134; `asQuaternion` is the (external) method of `iDynTree::Rotation`, whose `inverse` is
the transpose. -/
def errorQuaternion (asQuaternion : Matrix (Fin 3) (Fin 3) K → Quat K) (frame desired : Matrix (Fin 3) (Fin 3) K) : Quat K :=
  asQuaternion (desiredᵀ * frame)

/-- `InverseQuaternion`, lines 137-143. -/
def inverse (q : Quat K) : Quat K := ![q 0, -im q 0, -im q 1, -im q 2]

/-- `InverseQuaternionDerivative`, lines 145-153. -/
def inverseDerivative : Matrix (Fin 4) (Fin 4) K := !![1, 0, 0, 0; 0, -1, 0, 0; 0, 0, -1, 0; 0, 0, 0, -1]

/-- `QuaternionLeftTrivializedDerivativeInverseTimesQuaternionDerivativeJacobian`, lines 155-168. -/
def leftTrivializedDerivativeInverseTimesJacobian (qd : Quat K) : Matrix (Fin 3) (Fin 4) K :=
  (2 : K) • colCols (im qd) (-(qd 0) • (1 : Matrix (Fin 3) (Fin 3) K) + skew (im qd))

end Verif.Quaternion
