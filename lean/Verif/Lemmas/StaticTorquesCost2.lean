import Verif.Lemmas.StaticTorquesCost
/- Lemmas: the derivatives of the wrenches of the feet and of the static torques. -/
set_option linter.unusedSectionVars false
namespace Verif.NLP.Kin
open Matrix Verif.Rigid Function Verif.NLP.Spec
open Verif.Quaternion (rotationFromQuaternion normalized normalizedDerivative rotatedVectorJacobian inverse inverseDerivative leftTrivializedDerivative)
open Verif.NLP.Dynamics (quatOf baseRotation)
noncomputable section
variable {n nj : ℕ} {L F : Type} [DecidableEq L] [DecidableEq F] {m : Model L (Fin nj)} {x : SVec n}

/-- The rotation of the inverse quaternion is the transpose. -/
theorem rotation_inverse (q : Fin 4 → ℝ) : rotationFromQuaternion (inverse q) = (rotationFromQuaternion q)ᵀ := by
  rw [Quaternion.rotation_entry, Quaternion.rotation_entry]
  ext i k
  fin_cases i <;> fin_cases k <;> simp [inverse, Quaternion.im] <;> ring

/-- The derivative of the rotated vector along a curve of quaternions. -/
theorem rotated_curve {q : ℝ → Fin 4 → ℝ} {q' : Fin 4 → ℝ} {t : ℝ} (hq : ∀ i, HasDerivAt (fun y => q y i) (q' i) t) (v : Vec) :
    HasDerivAt (fun y => rotationFromQuaternion (q y) *ᵥ v) (rotatedVectorJacobian Real.sqrt v (q t) *ᵥ q') t := by
  rw [Quaternion.rotatedVectorJacobian_eq, Quaternion.unscaled_entry]
  rw [hasDerivAt_pi]
  simp only [Quaternion.rotate_entry]
  have row : ∀ (k l m : Fin 4) (x y z : ℝ),
      HasDerivAt (fun t => x + 2 * q t 0 * (q t l * z - q t m * y) + 2 * (q t l * (q t k * y - q t l * x) - q t m * (q t m * x - q t k * z)))
        (2 * (q' 0 * (q t l * z - q t m * y) + q t 0 * (q' l * z - q' m * y)) +
          2 * (q' l * (q t k * y - q t l * x) + q t l * (q' k * y - q' l * x) - (q' m * (q t m * x - q t k * z) + q t m * (q' m * x - q' k * z)))) t := by
    intro k l m x y z
    have h1 := ((hq 0).const_mul 2).mul (((hq l).mul_const z).sub ((hq m).mul_const y))
    have h2 := (hq l).mul (((hq k).mul_const y).sub ((hq l).mul_const x))
    have h3 := (hq m).mul (((hq m).mul_const x).sub ((hq k).mul_const z))
    refine ((h1.const_add x).add ((h2.sub h3).const_mul 2)).congr_deriv ?_
    simp only [Pi.sub_apply]
    ring
  intro i
  fin_cases i
  · refine (row 1 2 3 (v 0) (v 1) (v 2)).congr_deriv ?_
    simp [mulVec, dotProduct, Fin.sum_univ_four]; ring
  · refine (row 2 3 1 (v 1) (v 2) (v 0)).congr_deriv ?_
    simp [mulVec, dotProduct, Fin.sum_univ_four]; ring
  · refine (row 3 1 2 (v 2) (v 0) (v 1)).congr_deriv ?_
    simp [mulVec, dotProduct, Fin.sum_univ_four]; ring

/-- A fixed vector seen from the base, when the quaternion changes. -/
theorem base_seen_hasDerivAt (hx : quatOf x ≠ 0) (k : Fin 4) (f : Vec) :
    HasDerivAt (fun t => (baseRotation (update x (.baseQuat, (k : ℕ)) t))ᵀ *ᵥ f) (fun i => StaticTorques.quatDer x f i k) (x (.baseQuat, (k : ℕ))) := by
  have hi : ∀ i, HasDerivAt (fun t => inverse (quatN (update x (.baseQuat, (k : ℕ)) t)) i)
      ((inverseDerivative * normalizedDerivative Real.sqrt (quatOf x) : Matrix (Fin 4) (Fin 4) ℝ) i k) (x (.baseQuat, (k : ℕ))) := by
    intro i
    fin_cases i
    · refine (quatN_hasDerivAt hx 0 k).congr_deriv ?_
      simp [inverseDerivative, Matrix.mul_apply, Fin.sum_univ_four]
    · refine (quatN_hasDerivAt hx 1 k).neg.congr_deriv ?_
      simp [inverseDerivative, Matrix.mul_apply, Fin.sum_univ_four]
    · refine (quatN_hasDerivAt hx 2 k).neg.congr_deriv ?_
      simp [inverseDerivative, Matrix.mul_apply, Fin.sum_univ_four]
    · refine (quatN_hasDerivAt hx 3 k).neg.congr_deriv ?_
      simp [inverseDerivative, Matrix.mul_apply, Fin.sum_univ_four]
  have h := rotated_curve (q := fun t => inverse (quatN (update x (.baseQuat, (k : ℕ)) t))) hi f
  simp only [rotation_inverse, update_eq_self] at h
  refine h.congr_deriv ?_
  funext i
  rw [StaticTorques.quatDer, Matrix.mul_assoc]
  rfl

/-- A fixed vector seen from a frame with unit quaternion `q`, for the angular velocity `ω` of the frame in the frame. -/
theorem turn_seen (q : Fin 4 → ℝ) (ω f : Vec) (hq : q 0 * q 0 + q 1 * q 1 + q 2 * q 2 + q 3 * q 3 = 1) :
    (rotatedVectorJacobian Real.sqrt f (inverse q) * inverseDerivative * leftTrivializedDerivative q) *ᵥ ω =
      -(ω ⨯₃ ((rotationFromQuaternion q)ᵀ *ᵥ f)) := by
  rw [← rotation_inverse, Quaternion.rotate_entry, Quaternion.rotatedVectorJacobian_eq, Quaternion.unscaled_entry]
  have hl : leftTrivializedDerivative q = (1 / 2 : ℝ) • !![-q 1, -q 2, -q 3; q 0, -q 3, q 2; q 3, q 0, -q 1; -q 2, q 1, q 0] := by
    ext i k
    fin_cases i <;> fin_cases k <;> simp [leftTrivializedDerivative, Quaternion.rowRows, Quaternion.skew, Quaternion.im]
  rw [hl]
  funext i
  fin_cases i <;> simp [mulVec, dotProduct, Matrix.mul_apply, Fin.sum_univ_four, Fin.sum_univ_three, inverse, inverseDerivative, Quaternion.im, cross_apply] <;> grind

end
end Verif.NLP.Kin
