import Verif.Lemmas.Rigid
import Mathlib.Analysis.SpecialFunctions.Trigonometric.Deriv
/- The joints of one degree of freedom. -/
namespace Verif.Rigid
open Matrix

/-- A revolute joint about the third axis. -/
noncomputable def rotZ (x : ℝ) : SE3 where
  R := !![Real.cos x, -Real.sin x, 0; Real.sin x, Real.cos x, 0; 0, 0, 1]
  p := 0
  orthogonal := by
    have h := Real.cos_sq_add_sin_sq x
    ext i k
    fin_cases i <;> fin_cases k <;> simp [Matrix.mul_apply, Fin.sum_univ_three] <;> nlinarith
  det := by
    have h := Real.cos_sq_add_sin_sq x
    simp [det_fin_three]; nlinarith

/-- A prismatic joint along the third axis. -/
def transZ (x : ℝ) : SE3 := ⟨1, ![0, 0, x], by simp, by simp⟩

theorem hasTangent_rotZ (x : ℝ) : HasTangent rotZ (0, ![0, 0, 1]) x := by
  rw [hasTangent_iff]
  constructor
  · intro i k
    fin_cases i <;> fin_cases k <;> simp [rotZ, hat, Matrix.mul_apply, Fin.sum_univ_three, hasDerivAt_const, Real.hasDerivAt_cos, Real.hasDerivAt_sin]
    exact (Real.hasDerivAt_sin x).neg
  · simpa [rotZ] using hasDerivAt_const x (0 : Vec)

theorem hasTangent_transZ (x : ℝ) : HasTangent transZ (![0, 0, 1], 0) x := by
  rw [hasTangent_iff]
  constructor
  · intro i k
    simp only [transZ]
    refine (hasDerivAt_const x _).congr_deriv ?_
    fin_cases i <;> fin_cases k <;> simp [hat]
  · rw [hasDerivAt_pi]
    intro i
    fin_cases i <;> simp [transZ, hasDerivAt_const, hasDerivAt_id']

/-- A joint with its axis anywhere: `A` from the parent to the axis, `B` from the axis to the child. -/
theorem HasTangent.between {T : ℝ → SE3} {s : Spatial} {x : ℝ} (h : HasTangent T s x) (A B : SE3) :
    HasTangent (fun t => A * T t * B) (B⁻¹.act s) x := by
  have := ((hasTangent_const A x).mul h).mul (hasTangent_const B x)
  simpa using this

end Verif.Rigid
