import Verif.Model.Dynamics
import Verif.Model.CoMExpr
import Verif.Lemmas.QuaternionUtils
/-
What the kinematic constraints and costs read: the state of the robot built from the state and control vectors
(`updateRobotState` of each class, then SharedKinDynComputations.cpp:61-92), and columns of matrices with three or six rows.
Simplifications: `double` is ℝ; `sharedKinDyn` answers for the state just stored (C07, C10 are about its tolerance); assertions hold.
-/
namespace Verif.NLP.Kin
open Matrix Verif.Rigid
open Verif.Quaternion (rotationFromQuaternion normalized leftTrivializedDerivativeInverse)
open Verif.NLP.Dynamics (quatOf velOf baseRotation)
noncomputable section
variable {n nj : ℕ}

/-- `robotState.s`. -/
def jointsOf (x : SVec n) : Fin nj → ℝ := fun j => x (.joints, j)
/-- `robotState.s_dot`. -/
def jointVelOf (u : CVec n) : Fin nj → ℝ := fun j => u (.jointVel, j)
/-- `baseQuaternionVelocity`. -/
def quatVelOf (u : CVec n) : Fin 4 → ℝ := fun k => u (.quatDer, k)
/-- `basePosition`. -/
def basePosOf (x : SVec n) : Vec := fun k => x (.basePos, k)
/-- `baseQuaternionNormalized`. -/
def quatN (x : SVec n) : Fin 4 → ℝ := normalized Real.sqrt (quatOf x)

/-- The normalised quaternion is a unit quaternion, or null. -/
theorem normalized_cases (q : Fin 4 → ℝ) : Quaternion.Spec.UnitQ (normalized Real.sqrt q) ∨ normalized Real.sqrt q = 0 := by
  by_cases h : q = 0
  · right
    subst h
    simp [Quaternion.normalized, Quaternion.squaredNorm]
  · left
    have hp := Quaternion.quat_ne_zero h
    have sq : Real.sqrt (Quaternion.squaredNorm q) ^ 2 = Quaternion.squaredNorm q := Real.sq_sqrt hp.le
    unfold Quaternion.Spec.UnitQ normalized Verif.Quaternion.norm
    rw [if_pos hp]
    simp only [div_pow, sq]
    rw [Quaternion.squaredNorm_eq] at hp ⊢
    field_simp

theorem rotation_orthogonal (q : Fin 4 → ℝ) :
    rotationFromQuaternion (normalized Real.sqrt q) * (rotationFromQuaternion (normalized Real.sqrt q))ᵀ = 1 ∧
      (rotationFromQuaternion (normalized Real.sqrt q)).det = 1 := by
  rcases normalized_cases q with h | h
  · unfold Quaternion.Spec.UnitQ at h
    generalize normalized Real.sqrt q = a at *
    constructor
    · rw [Quaternion.rotation_entry]
      ext i j
      fin_cases i <;> fin_cases j <;> simp [Matrix.mul_apply, Fin.sum_univ_succ] <;> grind
    · rw [Quaternion.rotation_entry, Matrix.det_fin_three]
      simp
      grind
  · rw [h, show rotationFromQuaternion (0 : Fin 4 → ℝ) = 1 from by
      rw [Quaternion.rotation_entry]
      ext i j
      fin_cases i <;> fin_cases j <;> simp]
    simp

/-- `baseTransform`, SharedKinDynComputations.cpp:67-70. -/
def baseTransform (x : SVec n) : SE3 := ⟨baseRotation x, basePosOf x, (rotation_orthogonal _).1, (rotation_orthogonal _).2⟩

/-- The velocity of the base, in the base, SharedKinDynComputations.cpp:73-76. -/
def baseTwist (x : SVec n) (u : CVec n) : Spatial := (velOf u, leftTrivializedDerivativeInverse (quatN x) *ᵥ quatVelOf u)

/-- `matrix.middleCols(offset(b), k) = A`. -/
def putCols {B V : Type} [DecidableEq B] (M : Idx B → V) (b : B) (k : ℕ) (A : Fin k → V) : Idx B → V :=
  fun p => if h : p.1 = b ∧ p.2 < k then A ⟨p.2, h.2⟩ else M p

/-- `matrix.middleCols(offset(b), k) += A`. -/
def addCols {B V : Type} [DecidableEq B] [Add V] (M : Idx B → V) (b : B) (k : ℕ) (A : Fin k → V) : Idx B → V :=
  fun p => if h : p.1 = b ∧ p.2 < k then M p + A ⟨p.2, h.2⟩ else M p

/-- `matrix.middleCols(offset(b), k) *= a`. -/
def scaleCols {B V : Type} [DecidableEq B] [SMul ℝ V] (M : Idx B → V) (b : B) (k : ℕ) (a : ℝ) : Idx B → V :=
  fun p => if p.1 = b ∧ p.2 < k then a • M p else M p

/-- The columns of an identity matrix with three rows. -/
def unit3 (i : Fin 3) : Vec := Pi.single i 1
/-- The columns of an identity matrix with six rows. -/
def unit6 (i : Fin 6) : Spatial := Fin.append (m := 3) (n := 3) (fun k => (unit3 k, 0)) (fun k => (0, unit3 k)) i

end
end Verif.NLP.Kin
