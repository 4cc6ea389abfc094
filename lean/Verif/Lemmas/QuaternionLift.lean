import Verif.Lemmas.TraceQuaternion
import Verif.Lemmas.StaticTorquesCost
import Verif.Spec.Orientation
/- Lemmas: the quaternion of a moving rotation moves with half the angular velocity, as long as the library does not jump to the opposite quaternion. -/
namespace Verif.Quaternion
open Matrix Verif.Rigid Verif.Quaternion.Spec Filter Topology
noncomputable section

/-- The product of quaternions. -/
def mulQ (q p : Quat ℝ) : Quat ℝ := ![q 0 * p 0 - q 1 * p 1 - q 2 * p 2 - q 3 * p 3, q 0 * p 1 + q 1 * p 0 + q 2 * p 3 - q 3 * p 2,
  q 0 * p 2 - q 1 * p 3 + q 2 * p 0 + q 3 * p 1, q 0 * p 3 + q 1 * p 2 - q 2 * p 1 + q 3 * p 0]

theorem mulQ_unit {q p : Quat ℝ} (hq : UnitQ q) (hp : UnitQ p) : UnitQ (mulQ q p) := by
  unfold UnitQ at *
  simp only [mulQ, cons_val]
  have : (q 0 ^ 2 + q 1 ^ 2 + q 2 ^ 2 + q 3 ^ 2) * (p 0 ^ 2 + p 1 ^ 2 + p 2 ^ 2 + p 3 ^ 2) = 1 := by rw [hq, hp, one_mul]
  linear_combination this

/-- The rotation, for unit quaternions. -/
def homog (q : Quat ℝ) : Matrix (Fin 3) (Fin 3) ℝ :=
  !![q 0 ^ 2 + q 1 ^ 2 - q 2 ^ 2 - q 3 ^ 2, 2 * (q 1 * q 2 - q 0 * q 3), 2 * (q 1 * q 3 + q 0 * q 2);
     2 * (q 1 * q 2 + q 0 * q 3), q 0 ^ 2 - q 1 ^ 2 + q 2 ^ 2 - q 3 ^ 2, 2 * (q 2 * q 3 - q 0 * q 1);
     2 * (q 1 * q 3 - q 0 * q 2), 2 * (q 2 * q 3 + q 0 * q 1), q 0 ^ 2 - q 1 ^ 2 - q 2 ^ 2 + q 3 ^ 2]

theorem rotation_homog {q : Quat ℝ} (h : UnitQ q) : rotationFromQuaternion q = homog q := by
  unfold UnitQ at h
  rw [rotation_entry, homog]
  ext i k
  fin_cases i <;> fin_cases k <;> simp <;> linarith

theorem homog_mul (q p : Quat ℝ) : homog (mulQ q p) = homog q * homog p := by
  ext i k
  rw [mul_apply, Fin.sum_univ_three]
  fin_cases i <;> fin_cases k <;> simp [homog, mulQ] <;> ring

theorem rotation_mulQ {q p : Quat ℝ} (hq : UnitQ q) (hp : UnitQ p) : rotationFromQuaternion (mulQ q p) = rotationFromQuaternion q * rotationFromQuaternion p := by
  rw [rotation_homog (mulQ_unit hq hp), rotation_homog hq, rotation_homog hp, homog_mul]

theorem Steady.near {asQ : Matrix (Fin 3) (Fin 3) ℝ → Quat ℝ} {R : Matrix (Fin 3) (Fin 3) ℝ} (h : Steady asQ R) : ∀ᶠ R' in 𝓝[Rotations] R, Steady asQ R' :=
  eventually_eventually_nhdsWithin.2 h

theorem Steady.self {asQ : Matrix (Fin 3) (Fin 3) ℝ → Quat ℝ} {R : Matrix (Fin 3) (Fin 3) ℝ} (h : Steady asQ R) (hR : R ∈ Rotations) :
    (UnitQ (asQ R) ∧ rotationFromQuaternion (asQ R) = R) ∧ ContinuousWithinAt asQ Rotations R := h.self_of_nhdsWithin hR

theorem continuousAt_traceQuaternion {R : Matrix (Fin 3) (Fin 3) ℝ} (h : -1 < R.trace) : ContinuousAt traceQuaternion R := by
  have he : ∀ i k, ContinuousAt (fun R : Matrix (Fin 3) (Fin 3) ℝ => R i k) R := fun i k => (continuous_id.matrix_elem i k).continuousAt
  have ht : ContinuousAt (fun R : Matrix (Fin 3) (Fin 3) ℝ => R.trace) R := by
    simp only [Matrix.trace, diag_apply, Fin.sum_univ_three]
    exact ((he 0 0).add (he 1 1)).add (he 2 2)
  have hs : ContinuousAt (fun R : Matrix (Fin 3) (Fin 3) ℝ => Real.sqrt (1 + R.trace)) R := (continuousAt_const.add ht).sqrt
  have hn : 2 * Real.sqrt (1 + R.trace) ≠ 0 := by
    have : 0 < Real.sqrt (1 + R.trace) := Real.sqrt_pos.2 (by linarith)
    linarith
  refine continuousAt_pi.2 fun i => ?_
  fin_cases i
  · exact hs.div_const 2
  · exact ((he 2 1).sub (he 1 2)).div (continuousAt_const.mul hs) hn
  · exact ((he 0 2).sub (he 2 0)).div (continuousAt_const.mul hs) hn
  · exact ((he 1 0).sub (he 0 1)).div (continuousAt_const.mul hs) hn

/-- The quaternion from the trace is steady but for the half turns. -/
theorem steady_trace {R : Matrix (Fin 3) (Fin 3) ℝ} (h : -1 < R.trace) : Steady traceQuaternion R := by
  have he : ∀ i k, ContinuousAt (fun R : Matrix (Fin 3) (Fin 3) ℝ => R i k) R := fun i k => (continuous_id.matrix_elem i k).continuousAt
  have ht : ContinuousAt (fun R : Matrix (Fin 3) (Fin 3) ℝ => R.trace) R := by
    simp only [Matrix.trace, diag_apply, Fin.sum_univ_three]
    exact ((he 0 0).add (he 1 1)).add (he 2 2)
  have h1 : ∀ᶠ R' in 𝓝[Rotations] R, -1 < R'.trace := (ht.eventually (lt_mem_nhds h)).filter_mono nhdsWithin_le_nhds
  filter_upwards [h1, self_mem_nhdsWithin] with R' h1 h2
  have := trace_quaternion h2.1 h2.2 h1
  exact ⟨⟨this.1, this.2.1⟩, (continuousAt_traceQuaternion h1).continuousWithinAt⟩

theorem hasDerivAt_trace {S : ℝ → Matrix (Fin 3) (Fin 3) ℝ} {t : ℝ} {w : Fin 3 → ℝ} (h0 : S t = 1)
    (hS : ∀ i k, HasDerivAt (fun x => S x i k) (skew w i k) t) : HasDerivAt (fun x => traceQuaternion (S x)) ![0, w 0 / 2, w 1 / 2, w 2 / 2] t := by
  have htr : HasDerivAt (fun x => (S x).trace) 0 t := by
    have := ((hS 0 0).add (hS 1 1)).add (hS 2 2)
    simp only [Matrix.trace, diag_apply, Fin.sum_univ_three]
    exact this.congr_deriv (by simp [skew])
  have h4 : 1 + (S t).trace = 4 := by rw [h0]; simp; norm_num
  have hs : HasDerivAt (fun x => Real.sqrt (1 + (S x).trace)) 0 t := by
    exact ((htr.const_add 1).sqrt (by rw [h4]; norm_num)).congr_deriv (by simp)
  have hs2 : Real.sqrt (1 + (S t).trace) = 2 := by
    rw [h4, show (4 : ℝ) = 2 ^ 2 by norm_num]; exact Real.sqrt_sq (by norm_num)
  have hd : ∀ i k, HasDerivAt (fun x => (S x i k - S x k i) / (2 * Real.sqrt (1 + (S x).trace))) (skew w i k / 2) t := by
    intro i k
    refine (((hS i k).sub (hS k i)).div (hs.const_mul 2) (by rw [hs2]; norm_num)).congr_deriv ?_
    rw [hs2]
    have : skew w k i = -skew w i k := by fin_cases i <;> fin_cases k <;> simp [skew]
    rw [this]; ring
  rw [hasDerivAt_pi]
  intro i
  fin_cases i
  · exact (hs.div_const 2).congr_deriv (by simp)
  · exact (hd 2 1).congr_deriv (by simp [skew])
  · exact (hd 0 2).congr_deriv (by simp [skew])
  · exact (hd 1 0).congr_deriv (by simp [skew])

/-- The quaternion of a moving rotation: half the angular velocity (seen by the body) times the quaternion. -/
theorem hasDerivAt_asQuaternion {asQ : Matrix (Fin 3) (Fin 3) ℝ → Quat ℝ} {R : ℝ → Matrix (Fin 3) (Fin 3) ℝ} {t : ℝ} {w : Fin 3 → ℝ}
    (hR : ∀ x, R x ∈ Rotations) (hd : ∀ i k, HasDerivAt (fun x => R x i k) ((R t * skew w) i k) t)
    (hQ : Steady asQ (R t)) :
    HasDerivAt (fun x => asQ (R x)) (leftTrivializedDerivative (asQ (R t)) *ᵥ w) t := by
  have hRR : (R t)ᵀ * R t = 1 := mul_eq_one_comm.1 (hR t).1
  have hdetT : (R t)ᵀ.det = 1 := by rw [det_transpose]; exact (hR t).2
  set q0 := asQ (R t) with hq0
  have hu0 := (hQ.self (hR t)).1
  have hc := (hQ.self (hR t)).2
  have hS0 : (R t)ᵀ * R t = 1 := hRR
  have hS : ∀ i k, HasDerivAt (fun x => ((R t)ᵀ * R x) i k) (skew w i k) t := by
    intro i k
    simp only [mul_apply]
    refine (HasDerivAt.fun_sum (u := Finset.univ) fun l _ => (hd l k).const_mul ((R t)ᵀ i l)).congr_deriv ?_
    have : ∑ l, (R t)ᵀ i l * (R t * skew w) l k = ((R t)ᵀ * (R t * skew w) : Matrix _ _ ℝ) i k := by rw [mul_apply]
    rw [this, ← Matrix.mul_assoc, hRR, Matrix.one_mul]
  have hSrot : ∀ x, ((R t)ᵀ * R x) * ((R t)ᵀ * R x)ᵀ = 1 ∧ ((R t)ᵀ * R x).det = 1 := by
    intro x
    refine ⟨?_, by rw [det_mul, hdetT, (hR x).2, one_mul]⟩
    rw [transpose_mul, transpose_transpose, Matrix.mul_assoc, ← Matrix.mul_assoc (R x), (hR x).1, Matrix.one_mul, hRR]
  have hp := hasDerivAt_trace hS0 hS
  have hp0 : traceQuaternion ((R t)ᵀ * R t) = ![1, 0, 0, 0] := by
    rw [hS0]
    have : Real.sqrt (1 + 3) = 2 := by rw [show (1 + 3 : ℝ) = 2 ^ 2 by norm_num]; exact Real.sqrt_sq (by norm_num)
    funext i
    fin_cases i <;> simp [traceQuaternion, this]
  have hm : HasDerivAt (fun x => mulQ q0 (traceQuaternion ((R t)ᵀ * R x))) (leftTrivializedDerivative q0 *ᵥ w) t := by
    rw [hasDerivAt_pi] at hp ⊢
    have h0 := hp 0; have h1 := hp 1; have h2 := hp 2; have h3 := hp 3
    intro i
    fin_cases i
    · exact ((((h0.const_mul (q0 0)).sub (h1.const_mul (q0 1))).sub (h2.const_mul (q0 2))).sub (h3.const_mul (q0 3))).congr_deriv (by
        simp [leftTrivializedDerivative, rowRows, im, mulVec, dotProduct, Fin.sum_univ_three]; ring)
    · exact ((((h1.const_mul (q0 0)).add (h0.const_mul (q0 1))).add (h3.const_mul (q0 2))).sub (h2.const_mul (q0 3))).congr_deriv (by
        simp [leftTrivializedDerivative, rowRows, im, skew, mulVec, dotProduct, Fin.sum_univ_three]; ring)
    · exact ((((h2.const_mul (q0 0)).sub (h3.const_mul (q0 1))).add (h0.const_mul (q0 2))).add (h1.const_mul (q0 3))).congr_deriv (by
        simp [leftTrivializedDerivative, rowRows, im, skew, mulVec, dotProduct, Fin.sum_univ_three]; ring)
    · exact ((((h3.const_mul (q0 0)).add (h2.const_mul (q0 1))).sub (h1.const_mul (q0 2))).add (h0.const_mul (q0 3))).congr_deriv (by
        simp [leftTrivializedDerivative, rowRows, im, skew, mulVec, dotProduct, Fin.sum_univ_three]; ring)
  refine hm.congr_of_eventuallyEq ?_
  have hcR : ContinuousAt R t := by
    exact continuousAt_pi.2 fun i => continuousAt_pi.2 fun k => (hd i k).continuousAt
  have hRW : Tendsto R (𝓝 t) (𝓝[Rotations] R t) := tendsto_nhdsWithin_iff.2 ⟨hcR, Eventually.of_forall hR⟩
  have hcq : ContinuousAt (fun x => asQ (R x)) t :=
    (show Tendsto asQ (𝓝[Rotations] R t) (𝓝 (asQ (R t))) from hc).comp hRW
  have hcS : ContinuousAt (fun x => ((R t)ᵀ * R x).trace) t := by
    have : ∀ i, ContinuousAt (fun x => ((R t)ᵀ * R x) i i) t := fun i => (hS i i).continuousAt
    simp only [Matrix.trace, diag_apply, Fin.sum_univ_three]
    exact ((this 0).add (this 1)).add (this 2)
  have e1 : ∀ᶠ x in 𝓝 t, -1 < ((R t)ᵀ * R x).trace := by
    refine hcS.eventually (lt_mem_nhds ?_)
    dsimp only
    rw [hS0]; simp; norm_num
  have hcd : ContinuousAt (fun x => asQ (R x) ⬝ᵥ mulQ q0 (traceQuaternion ((R t)ᵀ * R x))) t := by
    have h1 : ∀ i, ContinuousAt (fun x => asQ (R x) i) t := fun i => continuousAt_pi.1 hcq i
    have h2 : ∀ i, ContinuousAt (fun x => mulQ q0 (traceQuaternion ((R t)ᵀ * R x)) i) t := fun i => continuousAt_pi.1 hm.continuousAt i
    simp only [dotProduct, Fin.sum_univ_four]
    exact ((((h1 0).mul (h2 0)).add ((h1 1).mul (h2 1))).add ((h1 2).mul (h2 2))).add ((h1 3).mul (h2 3))
  have e2 : ∀ᶠ x in 𝓝 t, 0 < asQ (R x) ⬝ᵥ mulQ q0 (traceQuaternion ((R t)ᵀ * R x)) := by
    refine hcd.eventually (lt_mem_nhds ?_)
    dsimp only
    rw [hp0, ← hq0]
    have := hu0.1
    unfold UnitQ at this
    simp only [dotProduct, Fin.sum_univ_four, mulQ, cons_val]
    nlinarith
  filter_upwards [e1, e2, hRW.eventually hQ] with x hx1 hx2 hx3
  have hT := trace_quaternion (hSrot x).1 (hSrot x).2 hx1
  have hux := hx3.1
  have hum := mulQ_unit hu0.1 hT.1
  rcases unit_same hux.1 hum (by
    rw [hux.2, rotation_mulQ hu0.1 hT.1, hu0.2, hT.2.1, ← Matrix.mul_assoc, (hR t).1, Matrix.one_mul]) with h | h
  · exact h
  · exfalso
    rw [h, neg_dotProduct] at hx2
    have : 0 ≤ mulQ q0 (traceQuaternion ((R t)ᵀ * R x)) ⬝ᵥ mulQ q0 (traceQuaternion ((R t)ᵀ * R x)) := by
      rw [dotProduct]; exact Finset.sum_nonneg fun i _ => mul_self_nonneg _
    linarith

end
end Verif.Quaternion
