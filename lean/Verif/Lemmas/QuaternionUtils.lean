import Verif.Spec.QuaternionUtils
import Verif.Tac
import Mathlib.Analysis.SpecialFunctions.Sqrt
import Mathlib.Analysis.Calculus.Deriv.Mul
import Mathlib.Analysis.Calculus.Deriv.Add
import Mathlib.Analysis.Calculus.Deriv.Inv
namespace Verif.Quaternion
open Matrix Spec

@[simp] theorem toH_re (q : Quat ℝ) : (toH q).re = q 0 := rfl
@[simp] theorem toH_imI (q : Quat ℝ) : (toH q).imI = q 1 := rfl
@[simp] theorem toH_imJ (q : Quat ℝ) : (toH q).imJ = q 2 := rfl
@[simp] theorem toH_imK (q : Quat ℝ) : (toH q).imK = q 3 := rfl
@[simp] theorem imag_re (v : Vec ℝ) : (imag v).re = 0 := rfl
@[simp] theorem imag_imI (v : Vec ℝ) : (imag v).imI = v 0 := rfl
@[simp] theorem imag_imJ (v : Vec ℝ) : (imag v).imJ = v 1 := rfl
@[simp] theorem imag_imK (v : Vec ℝ) : (imag v).imK = v 2 := rfl

theorem hasDerivAt_update {n : Nat} (q : Fin n → ℝ) (j k : Fin n) :
    HasDerivAt (fun t => Function.update q j t k) (if k = j then 1 else 0) (q j) := by
  by_cases h : k = j
  · subst h
    simp only [Function.update_self, if_true]
    exact hasDerivAt_id' (q k)
  · simp only [Function.update_of_ne h, h, if_false]
    exact hasDerivAt_const _ _

theorem isJacobian_linear {n m : Nat} (f : (Fin n → ℝ) → Fin m → ℝ) (J : Matrix (Fin m) (Fin n) ℝ)
    (h : ∀ x i, f x i = ∑ k, J i k * x k) (x : Fin n → ℝ) : IsJacobian f x J := by
  intro i j
  simp only [h]
  have : HasDerivAt (fun t => ∑ k, J i k * Function.update x j t k) (∑ k, J i k * (if k = j then 1 else 0)) (x j) :=
    HasDerivAt.fun_sum fun k _ => (hasDerivAt_update x j k).const_mul _
  simpa using this

theorem rotate_entry (q : Quat ℝ) (v : Vec ℝ) :
    rotationFromQuaternion q *ᵥ v = ![
      v 0 + 2 * q 0 * (q 2 * v 2 - q 3 * v 1) + 2 * (q 2 * (q 1 * v 1 - q 2 * v 0) - q 3 * (q 3 * v 0 - q 1 * v 2)),
      v 1 + 2 * q 0 * (q 3 * v 0 - q 1 * v 2) + 2 * (q 3 * (q 2 * v 2 - q 3 * v 1) - q 1 * (q 1 * v 1 - q 2 * v 0)),
      v 2 + 2 * q 0 * (q 1 * v 1 - q 2 * v 0) + 2 * (q 1 * (q 3 * v 0 - q 1 * v 2) - q 2 * (q 2 * v 2 - q 3 * v 1))] := by
  ext i
  fin_cases i <;>
    simp [rotationFromQuaternion, skew, im, Matrix.mulVec, dotProduct, Fin.sum_univ_succ, Matrix.mul_apply, Matrix.one_apply] <;> ring


theorem unscaled_entry (x : Vec ℝ) (q : Quat ℝ) : rotatedVectorUnscaled x q = !![
    q 2 * x 2 - q 3 * x 1, q 2 * x 1 + q 3 * x 2, q 0 * x 2 + q 1 * x 1 - 2 * q 2 * x 0, -(q 0) * x 1 + q 1 * x 2 - 2 * q 3 * x 0;
    q 3 * x 0 - q 1 * x 2, -(q 0) * x 2 + q 2 * x 0 - 2 * q 1 * x 1, q 1 * x 0 + q 3 * x 2, q 0 * x 0 + q 2 * x 2 - 2 * q 3 * x 1;
    q 1 * x 1 - q 2 * x 0, q 0 * x 1 + q 3 * x 0 - 2 * q 1 * x 2, -(q 0) * x 0 + q 3 * x 1 - 2 * q 2 * x 2, q 1 * x 0 + q 2 * x 1] := by
  ext i j
  fin_cases i <;> fin_cases j <;>
    simp [rotatedVectorUnscaled, colCols, skew, im, cross, Matrix.mul_apply, Fin.sum_univ_succ] <;> ring

theorem rotatedVectorJacobian_eq (v : Vec ℝ) (q : Quat ℝ) :
    rotatedVectorJacobian Real.sqrt v q = (2 : ℝ) • rotatedVectorUnscaled v q := by
  unfold rotatedVectorJacobian
  split_ifs with h
  · have hs : Real.sqrt (∑ i, v i * v i) ≠ 0 := by positivity
    set s := Real.sqrt (∑ i, v i * v i) with hsd
    ext i j
    rw [unscaled_entry, unscaled_entry]
    fin_cases i <;> fin_cases j <;> simp <;> field_simp
  · rw [mul_one]

theorem rotated_isJacobian (v : Vec ℝ) (q : Quat ℝ) :
    IsJacobian (fun q => rotationFromQuaternion q *ᵥ v) q (rotatedVectorJacobian Real.sqrt v q) := by
  intro i j
  rw [rotatedVectorJacobian_eq, unscaled_entry]
  simp only [rotate_entry]
  have d := hasDerivAt_update q j
  -- the three rows have the same shape
  have row : ∀ (k l m : Fin 4) (x y z : ℝ),
      HasDerivAt (fun t => (fun Q : Quat ℝ => x + 2 * Q 0 * (Q l * z - Q m * y) + 2 * (Q l * (Q k * y - Q l * x) - Q m * (Q m * x - Q k * z)))
          (Function.update q j t))
        (2 * ((if 0 = j then 1 else 0) * (q l * z - q m * y) + q 0 * ((if l = j then 1 else 0) * z - (if m = j then 1 else 0) * y)) +
          2 * ((if l = j then 1 else 0) * (q k * y - q l * x) + q l * ((if k = j then 1 else 0) * y - (if l = j then 1 else 0) * x) -
            ((if m = j then 1 else 0) * (q m * x - q k * z) + q m * ((if m = j then 1 else 0) * x - (if k = j then 1 else 0) * z)))) (q j) := by
    intro k l m x y z
    have e := (((d 0).const_mul 2).mul (((d l).mul_const z).sub ((d m).mul_const y))).const_add x |>.add
      ((((d l).mul (((d k).mul_const y).sub ((d l).mul_const x))).sub ((d m).mul (((d m).mul_const x).sub ((d k).mul_const z)))).const_mul 2)
    refine HasDerivAt.congr_deriv e ?_
    simp only [Function.update_eq_self, Pi.sub_apply, Pi.mul_apply]
    ring
  fin_cases i
  · refine HasDerivAt.congr_deriv (row 1 2 3 (v 0) (v 1) (v 2)) ?_
    fin_cases j <;> simp <;> ring
  · refine HasDerivAt.congr_deriv (row 2 3 1 (v 1) (v 2) (v 0)) ?_
    fin_cases j <;> simp <;> ring
  · refine HasDerivAt.congr_deriv (row 3 1 2 (v 2) (v 0) (v 1)) ?_
    fin_cases j <;> simp <;> ring

theorem squaredNorm_eq (q : Quat ℝ) : squaredNorm q = q 0 ^ 2 + q 1 ^ 2 + q 2 ^ 2 + q 3 ^ 2 := by
  simp [squaredNorm, Fin.sum_univ_succ]; ring

theorem squaredNorm_hasDerivAt (q : Quat ℝ) (j : Fin 4) :
    HasDerivAt (fun t => squaredNorm (Function.update q j t)) (2 * q j) (q j) := by
  have : HasDerivAt (fun t => ∑ i, Function.update q j t i * Function.update q j t i)
      (∑ i, ((if i = j then 1 else 0) * Function.update q j (q j) i + Function.update q j (q j) i * (if i = j then 1 else 0))) (q j) :=
    HasDerivAt.fun_sum fun k _ => (hasDerivAt_update q j k).mul (hasDerivAt_update q j k)
  refine HasDerivAt.congr_deriv this ?_
  simp only [Function.update_eq_self, Finset.sum_add_distrib]
  simp; ring

theorem normalized_isJacobian (q : Quat ℝ) (h : 0 < squaredNorm q) :
    IsJacobian (normalized Real.sqrt) q (normalizedDerivative Real.sqrt q) := by
  intro i j
  have hn := squaredNorm_hasDerivAt q j
  have e : ∀ᶠ t in nhds (q j), 0 < squaredNorm (Function.update q j t) := by
    have := hn.continuousAt
    refine this.eventually (lt_mem_nhds ?_)
    simpa using h
  have hs := hn.sqrt (by simpa using h.ne')
  simp only [Function.update_eq_self] at hs
  have s0 : Real.sqrt (squaredNorm q) ≠ 0 := (Real.sqrt_pos.2 h).ne'
  have main := (hasDerivAt_update q j i).div hs (by simpa using s0)
  refine (main.congr_of_eventuallyEq ?_).congr_deriv ?_
  · filter_upwards [e] with t ht
    simp [normalized, ht, Verif.Quaternion.norm]
  · simp only [Function.update_eq_self, normalizedDerivative, Verif.Quaternion.norm]
    have sq : squaredNorm q = Real.sqrt (squaredNorm q) ^ 2 := (Real.sq_sqrt h.le).symm
    set s := Real.sqrt (squaredNorm q) with hsd
    rw [sq]
    simp only [Matrix.smul_apply, Matrix.sub_apply, Matrix.of_apply, Matrix.one_apply, smul_eq_mul]
    split_ifs <;> field_simp

theorem rotation_entry (q : Quat ℝ) : rotationFromQuaternion q = !![
    1 - 2 * (q 2 * q 2 + q 3 * q 3), 2 * (q 1 * q 2 - q 0 * q 3), 2 * (q 1 * q 3 + q 0 * q 2);
    2 * (q 1 * q 2 + q 0 * q 3), 1 - 2 * (q 1 * q 1 + q 3 * q 3), 2 * (q 2 * q 3 - q 0 * q 1);
    2 * (q 1 * q 3 - q 0 * q 2), 2 * (q 2 * q 3 + q 0 * q 1), 1 - 2 * (q 1 * q 1 + q 2 * q 2)] := by
  ext i j
  fin_cases i <;> fin_cases j <;>
    simp [rotationFromQuaternion, skew, im, Fin.sum_univ_succ, Matrix.mul_apply, Matrix.one_apply] <;> ring

theorem inverse_entry (q qd : Quat ℝ) : leftTrivializedDerivativeInverse q *ᵥ qd = ![
    2 * (-(q 1) * qd 0 + q 0 * qd 1 + q 3 * qd 2 - q 2 * qd 3),
    2 * (-(q 2) * qd 0 - q 3 * qd 1 + q 0 * qd 2 + q 1 * qd 3),
    2 * (-(q 3) * qd 0 + q 2 * qd 1 - q 1 * qd 2 + q 0 * qd 3)] := by
  ext i
  fin_cases i <;> simp [leftTrivializedDerivativeInverse, colCols, im, skew, Matrix.mulVec, dotProduct, Fin.sum_univ_succ,
    Matrix.one_apply] <;> ring

theorem quat_ne_zero {q : Quat ℝ} (h : q ≠ 0) : 0 < squaredNorm q := by
  rw [squaredNorm_eq]
  by_contra hn
  apply h
  have : q 0 ^ 2 + q 1 ^ 2 + q 2 ^ 2 + q 3 ^ 2 = 0 := le_antisymm (not_lt.1 hn) (by positivity)
  have h0 : q 0 = 0 := by nlinarith [sq_nonneg (q 0), sq_nonneg (q 1), sq_nonneg (q 2), sq_nonneg (q 3)]
  have h1 : q 1 = 0 := by nlinarith [sq_nonneg (q 0), sq_nonneg (q 1), sq_nonneg (q 2), sq_nonneg (q 3)]
  have h2 : q 2 = 0 := by nlinarith [sq_nonneg (q 0), sq_nonneg (q 1), sq_nonneg (q 2), sq_nonneg (q 3)]
  have h3 : q 3 = 0 := by nlinarith [sq_nonneg (q 0), sq_nonneg (q 1), sq_nonneg (q 2), sq_nonneg (q 3)]
  ext i; fin_cases i <;> assumption

theorem rotation_rate (q d : Quat ℝ) (h : UnitQ q) (ht : Tangent q d) :
    rotationFromQuaternion q * skew (leftTrivializedDerivativeInverse q *ᵥ d) = !![
    -(2 * (d 2 * q 2 + q 2 * d 2 + (d 3 * q 3 + q 3 * d 3))), 2 * (d 1 * q 2 + q 1 * d 2 - (d 0 * q 3 + q 0 * d 3)),
      2 * (d 1 * q 3 + q 1 * d 3 + (d 0 * q 2 + q 0 * d 2));
    2 * (d 1 * q 2 + q 1 * d 2 + (d 0 * q 3 + q 0 * d 3)), -(2 * (d 1 * q 1 + q 1 * d 1 + (d 3 * q 3 + q 3 * d 3))),
      2 * (d 2 * q 3 + q 2 * d 3 - (d 0 * q 1 + q 0 * d 1));
    2 * (d 1 * q 3 + q 1 * d 3 - (d 0 * q 2 + q 0 * d 2)), 2 * (d 2 * q 3 + q 2 * d 3 + (d 0 * q 1 + q 0 * d 1)),
      -(2 * (d 1 * q 1 + q 1 * d 1 + (d 2 * q 2 + q 2 * d 2)))] := by
  rw [inverse_entry, rotation_entry]
  unfold UnitQ at h
  unfold Tangent at ht
  generalize q 0 = a at *
  generalize q 1 = b at *
  generalize q 2 = c at *
  generalize q 3 = e at *
  generalize d 0 = a' at *
  generalize d 1 = b' at *
  generalize d 2 = c' at *
  generalize d 3 = e' at *
  have hc : e ^ 2 = 1 - a ^ 2 - b ^ 2 - c ^ 2 := by linarith
  ext i j
  fin_cases i <;> fin_cases j <;> simp [skew, Matrix.vecMul, dotProduct, Fin.sum_univ_succ] <;> grind

end Verif.Quaternion
