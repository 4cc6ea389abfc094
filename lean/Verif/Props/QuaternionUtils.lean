import Verif.Lemmas.QuaternionUtils
import Mathlib.Analysis.Calculus.Deriv.Prod
import Mathlib.LinearAlgebra.Matrix.NonsingularInverse
/- Properties of the quaternion helpers (C33, C47). -/
namespace Verif.Quaternion
open Matrix Spec

/-- **C33.** `RotationFromQuaternion` (the external contract) is the rotation `v ↦ q v q*` for unit quaternions, and the left
trivialised derivative times an angular velocity is `½ q ω`; its inverse recovers `2 q* q̇`. -/
theorem C33_maps_are_the_quaternion_products (q qd : Fin 4 → ℝ) (v : Fin 3 → ℝ) :
    (UnitQ q → toH q * imag v * star (toH q) = imag (rotationFromQuaternion q *ᵥ v)) ∧
    toH (leftTrivializedDerivative q *ᵥ v) = (1 / 2 : ℝ) • (toH q * imag v) ∧
    imag (leftTrivializedDerivativeInverse q *ᵥ qd) = (2 : ℝ) • (star (toH q) * toH qd).im := by
  refine ⟨fun h => ?_, ?_, ?_⟩
  · rw [rotate_entry]
    unfold UnitQ at h
    ext <;> simp
    · ring
    · linear_combination (v 0) * h
    · linear_combination (v 1) * h
    · linear_combination (v 2) * h
  · ext <;> simp [leftTrivializedDerivative, rowRows, im, skew, Matrix.mulVec, dotProduct, Fin.sum_univ_succ, Matrix.one_apply] <;> ring
  · ext <;> simp [leftTrivializedDerivativeInverse, colCols, im, skew, Matrix.mulVec, dotProduct, Fin.sum_univ_succ, Matrix.one_apply] <;> ring

/-- **C33.** On unit quaternions the two maps invert each other: every angular velocity is recovered from its quaternion
derivative, and every derivative tangent to the unit sphere from its angular velocity. -/
theorem C33_left_trivialised_maps_invert_each_other (q : Fin 4 → ℝ) (h : UnitQ q) :
    (∀ ω, leftTrivializedDerivativeInverse q *ᵥ (leftTrivializedDerivative q *ᵥ ω) = ω) ∧
    (∀ qd, Tangent q qd → leftTrivializedDerivative q *ᵥ (leftTrivializedDerivativeInverse q *ᵥ qd) = qd) ∧
    ∀ ω, Tangent q (leftTrivializedDerivative q *ᵥ ω) := by
  unfold UnitQ at h
  refine ⟨fun ω => ?_, fun qd ht => ?_, fun ω => ?_⟩
  · ext i
    fin_cases i <;> simp [leftTrivializedDerivative, leftTrivializedDerivativeInverse, rowRows, colCols, im, skew, Matrix.mulVec,
      dotProduct, Fin.sum_univ_succ, Matrix.one_apply]
    · linear_combination (ω 0) * h
    · linear_combination (ω 1) * h
    · linear_combination (ω 2) * h
  · unfold Tangent at ht
    ext i
    fin_cases i <;> simp [leftTrivializedDerivative, leftTrivializedDerivativeInverse, rowRows, colCols, im, skew, Matrix.mulVec,
      dotProduct, Fin.sum_univ_succ, Matrix.one_apply]
    · linear_combination (qd 0) * h - (q 0) * ht
    · linear_combination (qd 1) * h - (q 1) * ht
    · linear_combination (qd 2) * h - (q 2) * ht
    · linear_combination (qd 3) * h - (q 3) * ht
  · simp [Tangent, leftTrivializedDerivative, rowRows, im, skew, Matrix.mulVec, dotProduct, Fin.sum_univ_succ, Matrix.one_apply]; ring

/-- **C33.** The declared Jacobians are Jacobians: of normalisation (away from zero), of the rotated vector, of the quaternion
derivative and of the angular velocity with respect to the quaternion, of the conjugate. -/
theorem C33_jacobians (q qd : Fin 4 → ℝ) (v : Fin 3 → ℝ) :
    (q ≠ 0 → IsJacobian (normalized Real.sqrt) q (normalizedDerivative Real.sqrt q)) ∧
    IsJacobian (fun q => rotationFromQuaternion q *ᵥ v) q (rotatedVectorJacobian Real.sqrt v q) ∧
    IsJacobian (fun q => leftTrivializedDerivative q *ᵥ v) q (leftTrivializedDerivativeTimesOmegaJacobian v) ∧
    IsJacobian (fun q => leftTrivializedDerivativeInverse q *ᵥ qd) q (leftTrivializedDerivativeInverseTimesJacobian qd) ∧
    IsJacobian inverse q inverseDerivative := by
  refine ⟨fun h => normalized_isJacobian q (quat_ne_zero h), rotated_isJacobian v q, ?_, ?_, ?_⟩
  · refine isJacobian_linear _ _ (fun x i => ?_) q
    fin_cases i <;> simp [leftTrivializedDerivative, leftTrivializedDerivativeTimesOmegaJacobian, rowRows, colCols, im, skew,
      Matrix.mulVec, dotProduct, Fin.sum_univ_succ, Matrix.one_apply] <;> ring
  · refine isJacobian_linear _ _ (fun x i => ?_) q
    fin_cases i <;> simp [leftTrivializedDerivativeInverse, leftTrivializedDerivativeInverseTimesJacobian, rowRows, colCols, im, skew,
      Matrix.mulVec, dotProduct, Fin.sum_univ_succ, Matrix.one_apply] <;> ring
  · refine isJacobian_linear _ _ (fun x i => ?_) q
    fin_cases i <;> simp [inverse, inverseDerivative, im, Fin.sum_univ_succ]

/-- **C33.** Normalisation gives a unit quaternion, and unit quaternions are left alone. -/
theorem C33_normalised_is_unit (q : Fin 4 → ℝ) (h : q ≠ 0) :
    UnitQ (normalized Real.sqrt q) ∧ (UnitQ q → normalized Real.sqrt q = q) := by
  have hp := quat_ne_zero h
  constructor
  · have hs : Real.sqrt (squaredNorm q) ≠ 0 := (Real.sqrt_pos.2 hp).ne'
    have sq : Real.sqrt (squaredNorm q) ^ 2 = squaredNorm q := Real.sq_sqrt hp.le
    unfold UnitQ normalized Verif.Quaternion.norm
    rw [if_pos hp]
    simp only [div_pow, sq]
    rw [squaredNorm_eq] at hp ⊢
    field_simp
  · intro hu
    unfold normalized Verif.Quaternion.norm
    have : squaredNorm q = 1 := by rw [squaredNorm_eq]; exact hu
    simp [this]

/-- **C33.** The conjugate gives the inverse rotation. -/
theorem C33_inverse_quaternion_is_inverse_rotation (q : Fin 4 → ℝ) :
    rotationFromQuaternion (inverse q) = (rotationFromQuaternion q)ᵀ ∧
    (UnitQ q → (rotationFromQuaternion q)ᵀ * rotationFromQuaternion q = 1 ∧ Matrix.det (rotationFromQuaternion q) = 1) := by
  refine ⟨?_, fun h => ⟨?_, ?_⟩⟩
  · rw [rotation_entry, rotation_entry]
    ext i j
    fin_cases i <;> fin_cases j <;> simp [inverse, im] <;> ring
  · unfold UnitQ at h
    rw [rotation_entry]
    ext i j
    fin_cases i <;> fin_cases j <;> simp [Matrix.mul_apply, Fin.sum_univ_succ] <;> grind
  · unfold UnitQ at h
    rw [rotation_entry, Matrix.det_fin_three]
    simp
    grind

/-- **C33.** When a differentiable curve of quaternions passes through a unit quaternion in a direction tangent to the unit quaternions, the rotation changes
by `R [ω]x` where `ω` is the angular velocity (in the rotating frame) returned by the inverse of the left trivialised derivative. -/
theorem C33_body_angular_velocity_at (q : ℝ → Fin 4 → ℝ) (qd : Fin 4 → ℝ) (t : ℝ) (h : UnitQ (q t)) (ht : Tangent (q t) qd)
    (hd : ∀ i, HasDerivAt (fun s => q s i) (qd i) t) (i j : Fin 3) :
    HasDerivAt (fun s => rotationFromQuaternion (q s) i j)
      ((rotationFromQuaternion (q t) * skew (leftTrivializedDerivativeInverse (q t) *ᵥ qd)) i j) t := by
  have hd0 := hd 0
  have hd1 := hd 1
  have hd2 := hd 2
  have hd3 := hd 3
  rw [rotation_rate _ _ h ht]
  simp only [rotation_entry]
  fin_cases i <;> fin_cases j <;> simp only [Fin.zero_eta, Fin.mk_one, Fin.reduceFinMk, Matrix.of_apply, Matrix.cons_val]
  · exact (((((hd2.mul hd2).add (hd3.mul hd3)).const_mul 2).const_sub 1).congr_deriv (by rfl))
  · exact ((((hd1.mul hd2).sub (hd0.mul hd3)).const_mul 2).congr_deriv (by rfl))
  · exact ((((hd1.mul hd3).add (hd0.mul hd2)).const_mul 2).congr_deriv (by rfl))
  · exact ((((hd1.mul hd2).add (hd0.mul hd3)).const_mul 2).congr_deriv (by rfl))
  · exact (((((hd1.mul hd1).add (hd3.mul hd3)).const_mul 2).const_sub 1).congr_deriv (by rfl))
  · exact ((((hd2.mul hd3).sub (hd0.mul hd1)).const_mul 2).congr_deriv (by rfl))
  · exact ((((hd1.mul hd3).sub (hd0.mul hd2)).const_mul 2).congr_deriv (by rfl))
  · exact ((((hd2.mul hd3).add (hd0.mul hd1)).const_mul 2).congr_deriv (by rfl))
  · exact (((((hd1.mul hd1).add (hd2.mul hd2)).const_mul 2).const_sub 1).congr_deriv (by rfl))

/-- **C33.** Along any differentiable curve of unit quaternions, the rotation changes by `R [ω]x` where `ω` is the angular
velocity (in the rotating frame) returned by the inverse of the left trivialised derivative. -/
theorem C33_body_angular_velocity (q : ℝ → Fin 4 → ℝ) (qd : Fin 4 → ℝ) (t : ℝ) (hu : ∀ s, UnitQ (q s))
    (hd : ∀ i, HasDerivAt (fun s => q s i) (qd i) t) (i j : Fin 3) :
    HasDerivAt (fun s => rotationFromQuaternion (q s) i j)
      ((rotationFromQuaternion (q t) * skew (leftTrivializedDerivativeInverse (q t) *ᵥ qd)) i j) t := by
  have h := hu t
  have ht : Tangent (q t) qd := by
    have e : HasDerivAt (fun s => q s 0 * q s 0 + q s 1 * q s 1 + q s 2 * q s 2 + q s 3 * q s 3) _ t :=
      ((((hd 0).mul (hd 0)).add ((hd 1).mul (hd 1))).add ((hd 2).mul (hd 2))).add ((hd 3).mul (hd 3))
    have c : (fun s => q s 0 * q s 0 + q s 1 * q s 1 + q s 2 * q s 2 + q s 3 * q s 3) = fun _ => (1 : ℝ) := by
      funext s
      have := hu s
      unfold UnitQ at this
      rw [← this]; ring
    rw [c] at e
    have := e.unique (hasDerivAt_const t 1)
    unfold Tangent
    linarith
  exact C33_body_angular_velocity_at q qd t h ht hd i j

/-- **C33.** Whatever `asQuaternion` does, as long as for the rotation at hand it returns a unit quaternion of that rotation
with non negative real part, the error quaternion is the identity exactly when the two rotations are the same. -/
theorem C33_error_quaternion_identity_iff_equal (asQuaternion : Matrix (Fin 3) (Fin 3) ℝ → Fin 4 → ℝ)
    (frame desired : Matrix (Fin 3) (Fin 3) ℝ) (hd : desiredᵀ * desired = 1)
    (hu : UnitQ (asQuaternion (desiredᵀ * frame))) (h0 : 0 ≤ asQuaternion (desiredᵀ * frame) 0)
    (hR : rotationFromQuaternion (asQuaternion (desiredᵀ * frame)) = desiredᵀ * frame) :
    errorQuaternion asQuaternion frame desired = ![1, 0, 0, 0] ↔ frame = desired := by
  unfold errorQuaternion
  constructor
  · intro h
    rw [h] at hR
    have : desiredᵀ * frame = 1 := by
      rw [← hR, rotation_entry]
      ext i j
      fin_cases i <;> fin_cases j <;> simp
    calc frame = desired * (desiredᵀ * frame) := by rw [← Matrix.mul_assoc, mul_eq_one_comm.1 hd, Matrix.one_mul]
      _ = desired := by rw [this, Matrix.mul_one]
  · rintro rfl
    rw [hd] at hu h0 hR
    rw [hd]
    set q := asQuaternion 1
    rw [rotation_entry] at hR
    unfold UnitQ at hu
    have r00 := congrFun (congrFun hR 0) 0
    have r11 := congrFun (congrFun hR 1) 1
    have r22 := congrFun (congrFun hR 2) 2
    simp at r00 r11 r22
    have q1 : q 1 = 0 := by nlinarith [sq_nonneg (q 1), sq_nonneg (q 2), sq_nonneg (q 3)]
    have q2 : q 2 = 0 := by nlinarith [sq_nonneg (q 1), sq_nonneg (q 2), sq_nonneg (q 3)]
    have q3 : q 3 = 0 := by nlinarith [sq_nonneg (q 1), sq_nonneg (q 2), sq_nonneg (q 3)]
    have q0 : q 0 = 1 := by
      rw [q1, q2, q3] at hu
      nlinarith
    ext i; fin_cases i <;> assumption

/-- **C47.** The bounds check accepts exactly the box; every unit quaternion passes. -/
theorem C47_unit_quaternions_respect_the_bounds (q : Fin 4 → ℝ) :
    (boundsRespected q = true ↔ (-1 ≤ q 0 ∧ q 0 ≤ 1 + 1 / 10 ^ 6) ∧
      ∀ i : Fin 3, -1 - 1 / 10 ^ 6 ≤ q i.succ ∧ q i.succ ≤ 1 + 1 / 10 ^ 6) ∧
    (UnitQ q → boundsRespected q = true) := by
  have key : boundsRespected q = true ↔ (-1 ≤ q 0 ∧ q 0 ≤ 1 + 1 / 10 ^ 6) ∧
      ∀ i : Fin 3, -1 - 1 / 10 ^ 6 ≤ q i.succ ∧ q i.succ ≤ 1 + 1 / 10 ^ 6 := by
    have : ∀ i : Fin 3, im q i = q i.succ := by intro i; fin_cases i <;> rfl
    simp [boundsRespected, this]
  refine ⟨key, fun h => key.2 ?_⟩
  unfold UnitQ at h
  have b : ∀ x : ℝ, x ^ 2 ≤ 1 → -1 ≤ x ∧ x ≤ 1 := fun x hx => abs_le.1 ((sq_le_one_iff_abs_le_one x).1 hx)
  have b0 := b (q 0) (by nlinarith [sq_nonneg (q 1), sq_nonneg (q 2), sq_nonneg (q 3)])
  have b1 := b (q 1) (by nlinarith [sq_nonneg (q 0), sq_nonneg (q 2), sq_nonneg (q 3)])
  have b2 := b (q 2) (by nlinarith [sq_nonneg (q 1), sq_nonneg (q 0), sq_nonneg (q 3)])
  have b3 := b (q 3) (by nlinarith [sq_nonneg (q 1), sq_nonneg (q 2), sq_nonneg (q 0)])
  refine ⟨⟨b0.1, by linarith [b0.2]⟩, fun i => ?_⟩
  fin_cases i
  · exact ⟨by show _ ≤ q 1; linarith [b1.1], by show q 1 ≤ _; linarith [b1.2]⟩
  · exact ⟨by show _ ≤ q 2; linarith [b2.1], by show q 2 ≤ _; linarith [b2.2]⟩
  · exact ⟨by show _ ≤ q 3; linarith [b3.1], by show q 3 ≤ _; linarith [b3.2]⟩

/-- Finding: the real part has no tolerance below. -/
theorem C47_finding_no_tolerance_below_minus_one :
    boundsRespected (![1 + 1 / 10 ^ 7, 0, 0, 0] : Fin 4 → ℝ) = true ∧ boundsRespected (![-1 - 1 / 10 ^ 7, 0, 0, 0] : Fin 4 → ℝ) = false := by
  constructor
  · rw [(C47_unit_quaternions_respect_the_bounds _).1]
    refine ⟨by simp; norm_num, fun i => ?_⟩
    fin_cases i <;> simp <;> norm_num
  · rw [Bool.eq_false_iff]
    intro h
    rw [(C47_unit_quaternions_respect_the_bounds _).1] at h
    have := h.1.1
    simp at this
    norm_num at this

/-! Concrete cases meeting the hypotheses. -/

example : UnitQ ![1 / 2, 1 / 2, -1 / 2, 1 / 2] ∧ Tangent ![1 / 2, 1 / 2, -1 / 2, 1 / 2] ![1, 0, 2, 1] := by
  constructor <;> simp [UnitQ, Tangent] <;> norm_num

/-- A quarter turn and a half turn about z: the error is a quarter turn. -/
example : errorQuaternion (fun _ => ![Real.sqrt (1 / 2), 0, 0, Real.sqrt (1 / 2)]) !![-1, 0, 0; 0, -1, 0; 0, 0, 1] !![0, -1, 0; 1, 0, 0; 0, 0, 1]
    ≠ ![1, 0, 0, 0] := by
  have s : Real.sqrt (1 / 2) * Real.sqrt (1 / 2) = 1 / 2 := Real.mul_self_sqrt (by norm_num)
  have e : (!![0, -1, 0; 1, 0, 0; 0, 0, 1] : Matrix (Fin 3) (Fin 3) ℝ)ᵀ * !![-1, 0, 0; 0, -1, 0; 0, 0, 1] = !![0, -1, 0; 1, 0, 0; 0, 0, 1] := by
    ext i j; fin_cases i <;> fin_cases j <;> simp [Matrix.mul_apply, Fin.sum_univ_succ]
  generalize hw : Real.sqrt (1 / 2) = w at s ⊢
  have w0 : 0 ≤ w := hw ▸ Real.sqrt_nonneg _
  rw [Ne, C33_error_quaternion_identity_iff_equal]
  · intro h
    have := congrFun (congrFun h 0) 0
    simp at this
  · ext i j; fin_cases i <;> fin_cases j <;> simp [Matrix.mul_apply, Fin.sum_univ_succ]
  · simp only [UnitQ]; simp; nlinarith
  · simpa using w0
  · rw [e, rotation_entry]
    ext i j; fin_cases i <;> fin_cases j <;> simp only [Fin.zero_eta, Fin.mk_one, Fin.reduceFinMk, Matrix.of_apply, Matrix.cons_val] <;> norm_num [s]

end Verif.Quaternion
