import Verif.Model.Levi
/-
Expressions of the base rotation and velocity, as written in `src/private/ExpressionsServer.cpp` (constructor, lines 64-101) and
`src/private/QuaternionExpressions.cpp`.  The trees are what is written; `Ex.build` is what levi makes of them.
-/
namespace Verif.Levi.Quat
variable {K : Type} [Field K]
open Ex

/-- The variables of the server, ExpressionsServer.cpp:35-40 (`quaternion`, `baseLinearVelocity`, `baseQuaternionVelocity`). -/
def q : Var := ⟨"baseQuaternion", 4⟩
def vBase : Var := ⟨"baseLinVel", 3⟩
def qDot : Var := ⟨"baseQuatVel", 4⟩

/-- `2.0 *`. -/
def two : Ex K := const 1 1 fun _ _ => 2

/-- `quaternion / (quaternion.transpose() * quaternion).pow(0.5)`, ExpressionsServer.cpp:71, QuaternionExpressions.cpp:41-45. -/
def normalized (x : Ex K) : Ex K := div x (pow (mul (transpose x) x) (1 / 2))

/-- `quaternionNormalized(0,0)`, ExpressionsServer.cpp:72. -/
def re (n : Ex K) : Ex K := elem n 0 0
/-- `quaternionNormalized.block(1,0,3,1)`, ExpressionsServer.cpp:73. -/
def im (n : Ex K) : Ex K := block n 1 0 3 1

/-- `RotationExpression`, QuaternionExpressions.cpp:11-18, and `baseRotation`, ExpressionsServer.cpp:74-76. -/
def rotation (n : Ex K) : Ex K :=
  add (add (ident 3) (mul (re n) (mul two (skew (im n))))) (mul (mul two (skew (im n))) (skew (im n)))

/-- `E_Expression`, QuaternionExpressions.cpp:20-27. -/
def eMap (n : Ex K) : Ex K := hcat (neg (im n)) (add (mul (ident 3) (re n)) (skew (im n)))

/-- `G_Expression`, QuaternionExpressions.cpp:29-37. -/
def gMap (n : Ex K) : Ex K := hcat (neg (im n)) (add (mul (ident 3) (re n)) (skew (neg (im n))))

/-- `BodyTwistFromQuaternionVelocity`, QuaternionExpressions.cpp:47-52. -/
def bodyTwist (v qd n : Ex K) : Ex K := vcat v (mul (mul two (gMap n)) qd)

/-- `baseTwist` of the server, ExpressionsServer.cpp:82-85. -/
def serverTwist (v qd n : Ex K) : Ex K :=
  vcat v (mul two (add (mul (neg (im n)) (elem qd 0 0))
    (mul (sub (mul (elem (re n) 0 0) (ident 3)) (skew (neg (im n)))) (block qd 1 0 3 1))))

/-- `basePositionDerivative`, DynamicalConstraints.cpp:413. -/
def basePositionDerivative (v n : Ex K) : Ex K := mul (rotation n) v

end Verif.Levi.Quat
