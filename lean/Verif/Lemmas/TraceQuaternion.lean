import Verif.Lemmas.QuaternionUtils
import Verif.Lemmas.Rigid
import Mathlib.LinearAlgebra.Matrix.Adjugate
import Mathlib.LinearAlgebra.Matrix.Trace
/- A quaternion of a rotation, from its trace: it satisfies what is asked of `iDynTree::Rotation::asQuaternion` away from half turns. -/
namespace Verif.Quaternion
open Matrix Verif.Quaternion.Spec
noncomputable section

/-- The quaternion with positive real part. -/
def traceQuaternion (R : Matrix (Fin 3) (Fin 3) ℝ) : Quat ℝ :=
  let s := Real.sqrt (1 + R.trace)
  ![s / 2, (R 2 1 - R 1 2) / (2 * s), (R 0 2 - R 2 0) / (2 * s), (R 1 0 - R 0 1) / (2 * s)]

/-- The entries of a rotation are its cofactors. -/
theorem cofactors {R : Matrix (Fin 3) (Fin 3) ℝ} (h : R * Rᵀ = 1) (hd : R.det = 1) : R.adjugate = Rᵀ := by
  have h1 : R.adjugate * R = 1 := by rw [adjugate_mul, hd, one_smul]
  calc R.adjugate = R.adjugate * (R * Rᵀ) := by rw [h, Matrix.mul_one]
    _ = Rᵀ := by rw [← Matrix.mul_assoc, h1, Matrix.one_mul]

structure Cof (R : Matrix (Fin 3) (Fin 3) ℝ) : Prop where
  c : ∀ i k, R.adjugate i k = R k i
  r : ∀ i k, R i 0 * R k 0 + R i 1 * R k 1 + R i 2 * R k 2 = if i = k then 1 else 0
  l : ∀ i k, R 0 i * R 0 k + R 1 i * R 1 k + R 2 i * R 2 k = if i = k then 1 else 0

theorem cof {R : Matrix (Fin 3) (Fin 3) ℝ} (h : R * Rᵀ = 1) (hd : R.det = 1) : Cof R where
  c i k := by rw [cofactors h hd]; rfl
  r i k := by
    have := congrFun (congrFun h i) k
    simpa [Matrix.mul_apply, Fin.sum_univ_three, Matrix.one_apply] using this
  l i k := by
    have h' : Rᵀ * R = 1 := mul_eq_one_comm.1 h
    have := congrFun (congrFun h' i) k
    simpa [Matrix.mul_apply, Fin.sum_univ_three, Matrix.one_apply] using this

theorem half_mul (s a : ℝ) (hs : s ≠ 0) : s / 2 * (a / (2 * s)) = a / 4 := by
  field_simp
  ring

theorem trace_quaternion {R : Matrix (Fin 3) (Fin 3) ℝ} (h : R * Rᵀ = 1) (hd : R.det = 1) (ht : -1 < R.trace) :
    UnitQ (traceQuaternion R) ∧ rotationFromQuaternion (traceQuaternion R) = R ∧ 0 < traceQuaternion R 0 := by
  have hp : 0 < 1 + R.trace := by linarith
  have hs : 0 < Real.sqrt (1 + R.trace) := Real.sqrt_pos.2 hp
  have hsq : Real.sqrt (1 + R.trace) ^ 2 = 1 + R.trace := Real.sq_sqrt hp.le
  have c := (cof h hd).c
  have r := (cof h hd).r
  have l := (cof h hd).l
  simp only [adjugate_fin_three] at c
  have c00 := c 0 0; have c01 := c 0 1; have c02 := c 0 2
  have c10 := c 1 0; have c11 := c 1 1; have c12 := c 1 2
  have c20 := c 2 0; have c21 := c 2 1; have c22 := c 2 2
  have r00 := r 0 0; have r01 := r 0 1; have r02 := r 0 2; have r11 := r 1 1; have r12 := r 1 2; have r22 := r 2 2
  have l00 := l 0 0; have l01 := l 0 1; have l02 := l 0 2; have l11 := l 1 1; have l12 := l 1 2; have l22 := l 2 2
  simp at c00 c01 c02 c10 c11 c12 c20 c21 c22 r00 r01 r02 r11 r12 r22 l00 l01 l02 l11 l12 l22
  have htr : R.trace = R 0 0 + R 1 1 + R 2 2 := by simp [Matrix.trace, Fin.sum_univ_three]
  have e0 : (1 + R.trace) = 1 + R 0 0 + R 1 1 + R 2 2 := by rw [htr]; ring
  rw [e0] at hp hs hsq
  have k1 : (R 2 1 - R 1 2) ^ 2 = (1 + R 0 0 + R 1 1 + R 2 2) * (1 + R 0 0 - R 1 1 - R 2 2) := by
    linear_combination (2 : ℝ) * c00 + r11 + r22 - l00
  have k2 : (R 0 2 - R 2 0) ^ 2 = (1 + R 0 0 + R 1 1 + R 2 2) * (1 - R 0 0 + R 1 1 - R 2 2) := by
    linear_combination (2 : ℝ) * c11 + r00 + r22 - l11
  have k3 : (R 1 0 - R 0 1) ^ 2 = (1 + R 0 0 + R 1 1 + R 2 2) * (1 - R 0 0 - R 1 1 + R 2 2) := by
    linear_combination (2 : ℝ) * c22 + r00 + r11 - l22
  have k12 : (R 2 1 - R 1 2) * (R 0 2 - R 2 0) = (1 + R 0 0 + R 1 1 + R 2 2) * (R 0 1 + R 1 0) := by
    grind
  have k13 : (R 2 1 - R 1 2) * (R 1 0 - R 0 1) = (1 + R 0 0 + R 1 1 + R 2 2) * (R 0 2 + R 2 0) := by
    grind
  have k23 : (R 0 2 - R 2 0) * (R 1 0 - R 0 1) = (1 + R 0 0 + R 1 1 + R 2 2) * (R 1 2 + R 2 1) := by
    grind
  have q0 : traceQuaternion R 0 = Real.sqrt (1 + R 0 0 + R 1 1 + R 2 2) / 2 := by simp [traceQuaternion, e0]
  have q1 : traceQuaternion R 1 = (R 2 1 - R 1 2) / (2 * Real.sqrt (1 + R 0 0 + R 1 1 + R 2 2)) := by simp [traceQuaternion, e0]
  have q2 : traceQuaternion R 2 = (R 0 2 - R 2 0) / (2 * Real.sqrt (1 + R 0 0 + R 1 1 + R 2 2)) := by simp [traceQuaternion, e0]
  have q3 : traceQuaternion R 3 = (R 1 0 - R 0 1) / (2 * Real.sqrt (1 + R 0 0 + R 1 1 + R 2 2)) := by simp [traceQuaternion, e0]
  have d1 : traceQuaternion R 1 ^ 2 = (1 + R 0 0 - R 1 1 - R 2 2) / 4 := by
    rw [q1, div_pow, k1, mul_pow, hsq]; field_simp; norm_num
  have d2 : traceQuaternion R 2 ^ 2 = (1 - R 0 0 + R 1 1 - R 2 2) / 4 := by
    rw [q2, div_pow, k2, mul_pow, hsq]; field_simp; norm_num
  have d3 : traceQuaternion R 3 ^ 2 = (1 - R 0 0 - R 1 1 + R 2 2) / 4 := by
    rw [q3, div_pow, k3, mul_pow, hsq]; field_simp; norm_num
  have d0 : traceQuaternion R 0 ^ 2 = (1 + R 0 0 + R 1 1 + R 2 2) / 4 := by
    rw [q0, div_pow, hsq]; norm_num
  have pr : ∀ a b : ℝ, (a / (2 * Real.sqrt (1 + R 0 0 + R 1 1 + R 2 2))) * (b / (2 * Real.sqrt (1 + R 0 0 + R 1 1 + R 2 2))) = a * b / (4 * (1 + R 0 0 + R 1 1 + R 2 2)) := by
    intro a b
    rw [div_mul_div_comm]
    congr 1
    linear_combination (4 : ℝ) * hsq
  have d12 : traceQuaternion R 1 * traceQuaternion R 2 = (R 0 1 + R 1 0) / 4 := by rw [q1, q2, pr, k12]; field_simp
  have d13 : traceQuaternion R 1 * traceQuaternion R 3 = (R 0 2 + R 2 0) / 4 := by rw [q1, q3, pr, k13]; field_simp
  have d23 : traceQuaternion R 2 * traceQuaternion R 3 = (R 1 2 + R 2 1) / 4 := by rw [q2, q3, pr, k23]; field_simp
  have d01 : traceQuaternion R 0 * traceQuaternion R 1 = (R 2 1 - R 1 2) / 4 := by rw [q0, q1, half_mul _ _ hs.ne']
  have d02 : traceQuaternion R 0 * traceQuaternion R 2 = (R 0 2 - R 2 0) / 4 := by rw [q0, q2, half_mul _ _ hs.ne']
  have d03 : traceQuaternion R 0 * traceQuaternion R 3 = (R 1 0 - R 0 1) / 4 := by rw [q0, q3, half_mul _ _ hs.ne']
  refine ⟨?_, ?_, ?_⟩
  · unfold UnitQ; linarith
  · rw [rotation_entry]
    ext i k
    fin_cases i <;> fin_cases k <;> simp <;> linarith
  · rw [q0]; positivity

theorem trace_transpose {R : Matrix (Fin 3) (Fin 3) ℝ} : traceQuaternion Rᵀ = inverse (traceQuaternion R) := by
  funext i
  fin_cases i <;> simp [traceQuaternion, inverse, im, Matrix.trace_transpose] <;> ring

theorem four_squares {a b c d : ℝ} (h : a ^ 2 + b ^ 2 + c ^ 2 + d ^ 2 = 0) : a = 0 ∧ b = 0 ∧ c = 0 ∧ d = 0 := by
  have ha := sq_nonneg a
  have hb := sq_nonneg b
  have hc := sq_nonneg c
  have hd := sq_nonneg d
  exact ⟨pow_eq_zero_iff (two_ne_zero) |>.1 (by linarith), pow_eq_zero_iff (two_ne_zero) |>.1 (by linarith), pow_eq_zero_iff (two_ne_zero) |>.1 (by linarith),
    pow_eq_zero_iff (two_ne_zero) |>.1 (by linarith)⟩

/-- Two unit quaternions of the same rotation are equal or opposite. -/
theorem unit_same {p q : Quat ℝ} (hp : UnitQ p) (hq : UnitQ q) (h : rotationFromQuaternion p = rotationFromQuaternion q) : p = q ∨ p = -q := by
  rw [rotation_entry, rotation_entry] at h
  have e := fun i k => congrFun (congrFun h i) k
  have e00 := e 0 0; have e01 := e 0 1; have e02 := e 0 2
  have e10 := e 1 0; have e11 := e 1 1; have e12 := e 1 2
  have e20 := e 2 0; have e21 := e 2 1; have e22 := e 2 2
  simp at e00 e01 e02 e10 e11 e12 e20 e21 e22
  unfold UnitQ at hp hq
  have a1 : p 1 * p 1 = q 1 * q 1 := by linear_combination (1 / 2 : ℝ) * (e11 + e22 - e00)
  have a2 : p 2 * p 2 = q 2 * q 2 := by linear_combination (1 / 2 : ℝ) * (e00 + e22 - e11)
  have a3 : p 3 * p 3 = q 3 * q 3 := by linear_combination (1 / 2 : ℝ) * (e00 + e11 - e22)
  have a0 : p 0 * p 0 = q 0 * q 0 := by linear_combination hp - hq - a1 - a2 - a3
  have b01 : p 0 * p 1 = q 0 * q 1 := by linear_combination (1 / 2 : ℝ) * e21 - (1 / 2 : ℝ) * e12
  have b02 : p 0 * p 2 = q 0 * q 2 := by linear_combination (1 / 2 : ℝ) * e02 - (1 / 2 : ℝ) * e20
  have b03 : p 0 * p 3 = q 0 * q 3 := by linear_combination (1 / 2 : ℝ) * e10 - (1 / 2 : ℝ) * e01
  have b12 : p 1 * p 2 = q 1 * q 2 := by linear_combination (1 / 2 : ℝ) * e10 + (1 / 2 : ℝ) * e01
  have b13 : p 1 * p 3 = q 1 * q 3 := by linear_combination (1 / 2 : ℝ) * e02 + (1 / 2 : ℝ) * e20
  have b23 : p 2 * p 3 = q 2 * q 3 := by linear_combination (1 / 2 : ℝ) * e21 + (1 / 2 : ℝ) * e12
  clear e e00 e01 e02 e10 e11 e12 e20 e21 e22 h
  have key : (p 0 * q 0 + p 1 * q 1 + p 2 * q 2 + p 3 * q 3) ^ 2 = 1 := by
    have : (p 0 * q 0 + p 1 * q 1 + p 2 * q 2 + p 3 * q 3) ^ 2 = (p 0 ^ 2 + p 1 ^ 2 + p 2 ^ 2 + p 3 ^ 2) * (q 0 ^ 2 + q 1 ^ 2 + q 2 ^ 2 + q 3 ^ 2) := by
      grind
    rw [this, hp, hq, one_mul]
  have key' : (p 0 * q 0 + p 1 * q 1 + p 2 * q 2 + p 3 * q 3 - 1) * (p 0 * q 0 + p 1 * q 1 + p 2 * q 2 + p 3 * q 3 + 1) = 0 := by linear_combination key
  rcases mul_eq_zero.1 key' with k | k
  · left
    have : (p 0 - q 0) ^ 2 + (p 1 - q 1) ^ 2 + (p 2 - q 2) ^ 2 + (p 3 - q 3) ^ 2 = 0 := by linear_combination hp + hq - 2 * k
    obtain ⟨h0, h1, h2, h3⟩ := four_squares this
    funext i
    fin_cases i <;> simp <;> linarith
  · right
    have : (p 0 + q 0) ^ 2 + (p 1 + q 1) ^ 2 + (p 2 + q 2) ^ 2 + (p 3 + q 3) ^ 2 = 0 := by linear_combination hp + hq + 2 * k
    obtain ⟨h0, h1, h2, h3⟩ := four_squares this
    funext i
    fin_cases i <;> simp <;> linarith

end
end Verif.Quaternion
