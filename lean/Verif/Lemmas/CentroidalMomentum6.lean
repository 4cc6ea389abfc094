import Verif.Lemmas.CentroidalMomentum5
/- Lemmas: the value of the centroidal momentum constraint and its hand written Jacobians. -/
set_option linter.unusedSectionVars false
namespace Verif.NLP.Kin
open Matrix Verif.Rigid Function Verif.NLP.Spec
open Verif.Quaternion (rotationFromQuaternion normalized normalizedDerivative leftTrivializedDerivativeInverse leftTrivializedDerivativeInverseTimesJacobian
  rotatedVectorJacobian)
open Verif.NLP.Dynamics (quatOf velOf baseRotation rpow)
noncomputable section
variable {n nj : ℕ} {L F : Type} [DecidableEq L] [DecidableEq F] {m : Model L (Fin nj)} (s : Server m F) {x : SVec n} {u : CVec n}

/-- The momentum about the centre of mass, in a frame oriented as the world. -/
def aboutCoM (R : Matrix (Fin 3) (Fin 3) ℝ) (c : Vec) (h : Spatial) : Spatial := (R *ᵥ h.1, R *ᵥ (h.2 - c ⨯₃ h.1))

theorem comPos_eq : comPos s x = (baseTransform x).point (s.comInBase (baseTransform x) (jointsOf x)) := by
  rw [Server.comInBase, ← Server.point_comp, mul_inv_cancel]
  simp only [SE3.point]
  show _ = (0 : Vec) + (1 : Matrix (Fin 3) (Fin 3) ℝ) *ᵥ _
  rw [zero_add, one_mulVec]; rfl

theorem comToBase_actF (h : Spatial) : (comToBase s x).actF h = aboutCoM (baseRotation x) (s.comInBase (baseTransform x) (jointsOf x)) h := by
  have hR : (comToBase s x).R = (baseTransform x).R := by
    show (1 : Matrix (Fin 3) (Fin 3) ℝ) * (baseTransform x).R = _; rw [Matrix.one_mul]
  have hp : (comToBase s x).p = -((baseTransform x).R *ᵥ s.comInBase (baseTransform x) (jointsOf x)) := by
    show (0 - comPos s x) + (1 : Matrix (Fin 3) (Fin 3) ℝ) *ᵥ (baseTransform x).p = _
    rw [comPos_eq, one_mulVec, SE3.point]; abel
  have hb : baseRotation x = (baseTransform x).R := rfl
  simp only [SE3.actF, hR, hp, map_neg, LinearMap.neg_apply, SE3.cross, aboutCoM, hb, mulVec_sub]
  rw [sub_eq_add_neg]

theorem centroidalValue_eq (hM : m.totalMass ≠ 0) : centroidalValue s x u =
    aboutCoM (baseRotation x) (s.comInBase 1 (jointsOf x)) (s.kin.momentum 1 (baseTwist x u) (jointsOf x) (jointVelOf u)) -
      ((fun k : Fin 3 => x (.momentum, (k : ℕ)), fun k : Fin 3 => x (.momentum, 3 + (k : ℕ))) : Spatial) := by
  rw [centroidalValue, ← SE3.actF_mul]
  change (comToBase s x).actF _ - _ = _
  rw [comToBase_actF, momentumInBase, s.kin.momentum_base, s.comInBase_base hM]

/-! ### Derivatives of the pieces -/

theorem aboutCoM_hasDerivAt (R : Matrix (Fin 3) (Fin 3) ℝ) {c : ℝ → Vec} {c' : Vec} {h : ℝ → Spatial} {h' : Spatial} {t : ℝ} (hc : HasDerivAt c c' t)
    (hh : HasDerivAt h h' t) (i : Fin 3) :
    HasDerivAt (fun y => (aboutCoM R (c y) (h y)).2 i) ((R *ᵥ (h'.2 - (c' ⨯₃ (h t).1 + c t ⨯₃ h'.1))) i) t := by
  have h1 : HasDerivAt (fun y => (h y).1) h'.1 t := hh.fst
  have h2 : HasDerivAt (fun y => (h y).2) h'.2 t := hh.snd
  have h3 : HasDerivAt (fun y => (h y).2 - c y ⨯₃ (h y).1) (h'.2 - (c' ⨯₃ (h t).1 + c t ⨯₃ h'.1)) t := h2.sub (hasDerivAt_cross hc h1)
  have h4 := hasDerivAt_mulVec (R := fun _ => R) (R' := 0) (fun i j => hasDerivAt_const t (R i j)) h3
  rw [Matrix.zero_mulVec, zero_add] at h4
  exact hasDerivAt_pi.1 h4 i

theorem rotate_hasDerivAt (hx : quatOf x ≠ 0) (k : Fin 4) {y : ℝ → Vec} {y' : Vec} (hy : HasDerivAt y y' (x (.baseQuat, (k : ℕ)))) (i : Fin 3) :
    HasDerivAt (fun t => (baseRotation (update x (.baseQuat, (k : ℕ)) t) *ᵥ y t) i)
      ((rotatedVectorJacobian Real.sqrt (y (x (.baseQuat, (k : ℕ)))) (quatN x) * normalizedDerivative Real.sqrt (quatOf x)) i k + (baseRotation x *ᵥ y') i)
      (x (.baseQuat, (k : ℕ))) := by
  have hR : ∀ v : Vec, HasDerivAt (fun t => (baseRotation (update x (.baseQuat, (k : ℕ)) t) *ᵥ v) i)
      ((rotatedVectorJacobian Real.sqrt v (quatN x) * normalizedDerivative Real.sqrt (quatOf x)) i k) (x (.baseQuat, (k : ℕ))) := by
    intro v
    have := Dynamics.rotated_normalized_isJacobian v (quatOf x) hx i k
    simp only [baseRotation, Dynamics.quatOf_update_quat x k k.2]
    exact this
  have hj : ∀ j, HasDerivAt (fun t => baseRotation (update x (.baseQuat, (k : ℕ)) t) i j)
      ((rotatedVectorJacobian Real.sqrt (Pi.single j 1) (quatN x) * normalizedDerivative Real.sqrt (quatOf x)) i k) (x (.baseQuat, (k : ℕ))) := by
    intro j
    have := hR (Pi.single j 1)
    simpa using this
  have hsum : ∀ v : Vec, (rotatedVectorJacobian Real.sqrt v (quatN x) * normalizedDerivative Real.sqrt (quatOf x)) i k =
      ∑ j, (rotatedVectorJacobian Real.sqrt (Pi.single j 1) (quatN x) * normalizedDerivative Real.sqrt (quatOf x)) i k * v j := by
    intro v
    have := HasDerivAt.fun_sum (u := Finset.univ) fun j _ => (hj j).mul_const (v j)
    exact (hR v).unique this
  have h := HasDerivAt.fun_sum (u := Finset.univ) fun j _ => (hj j).mul (hasDerivAt_pi.1 hy j)
  rw [Finset.sum_add_distrib, ← hsum] at h
  simp only [update_eq_self] at h
  exact h

theorem rotated_add (a b : Vec) (q : Fin 4 → ℝ) : rotatedVectorJacobian Real.sqrt (a + b) q = rotatedVectorJacobian Real.sqrt a q + rotatedVectorJacobian Real.sqrt b q := by
  simp only [Quaternion.rotatedVectorJacobian_eq, Quaternion.unscaled_entry]
  ext i j
  fin_cases i <;> fin_cases j <;> simp <;> ring

theorem inverse_linear (q qd : Fin 4 → ℝ) : leftTrivializedDerivativeInverse q *ᵥ qd = leftTrivializedDerivativeInverseTimesJacobian qd *ᵥ q := by
  funext i
  fin_cases i <;> simp [leftTrivializedDerivativeInverse, leftTrivializedDerivativeInverseTimesJacobian, Quaternion.colCols, Quaternion.im, Quaternion.skew,
    Matrix.mulVec, dotProduct, Fin.sum_univ_four] <;> ring

/-- The momentum when the angular velocity of the base moves. -/
theorem momentum_angular (v : Vec) {w : ℝ → Vec} {w' : Vec} {t : ℝ} (hw : ∀ i, HasDerivAt (fun y => w y i) (w' i) t) (q dq : Fin nj → ℝ) :
    HasDerivAt (fun y => s.kin.momentum 1 (v, w y) q dq) (∑ i, w' i • s.kin.momentum 1 (0, unit3 i) q (fun _ => 0)) t := by
  have e : ∀ w : Vec, s.kin.momentum 1 (v, w) q dq = s.kin.momentum 1 (v, 0) q dq + ∑ i, w i • s.kin.momentum 1 (0, unit3 i) q (fun _ => 0) := by
    intro w
    have hw : ((v, w) : Spatial) = (v, 0) + (w 0 • ((0, unit3 0) : Spatial) + (w 1 • ((0, unit3 1) : Spatial) + w 2 • ((0, unit3 2) : Spatial))) := by
      ext i <;> fin_cases i <;> simp [unit3]
    rw [hw, s.momentum_add, s.momentum_add, s.momentum_add, s.momentum_smul, s.momentum_smul, s.momentum_smul, Fin.sum_univ_three, add_assoc]
  rw [funext fun y => e (w y)]
  have h : HasDerivAt (fun y => ∑ i, w y i • s.kin.momentum 1 (0, unit3 i) q (fun _ => 0)) (∑ i, w' i • s.kin.momentum 1 (0, unit3 i) q (fun _ => 0)) t :=
    HasDerivAt.fun_sum fun i _ => Server.hasDerivAt_smul_const (hw i) _
  exact h.const_add _

theorem momentum_linear {v : ℝ → Vec} {v' : Vec} {t : ℝ} (hv : ∀ i, HasDerivAt (fun y => v y i) (v' i) t) (w : Vec) (q dq : Fin nj → ℝ) :
    HasDerivAt (fun y => s.kin.momentum 1 (v y, w) q dq) (∑ i, v' i • s.kin.momentum 1 (unit3 i, 0) q (fun _ => 0)) t := by
  have e : ∀ v : Vec, s.kin.momentum 1 (v, w) q dq = s.kin.momentum 1 (0, w) q dq + ∑ i, v i • s.kin.momentum 1 (unit3 i, 0) q (fun _ => 0) := by
    intro v
    have hw : ((v, w) : Spatial) = (0, w) + (v 0 • ((unit3 0, 0) : Spatial) + (v 1 • ((unit3 1, 0) : Spatial) + v 2 • ((unit3 2, 0) : Spatial))) := by
      ext i <;> fin_cases i <;> simp [unit3]
    rw [hw, s.momentum_add, s.momentum_add, s.momentum_add, s.momentum_smul, s.momentum_smul, s.momentum_smul, Fin.sum_univ_three, add_assoc]
  rw [funext fun y => e (v y)]
  have h : HasDerivAt (fun y => ∑ i, v y i • s.kin.momentum 1 (unit3 i, 0) q (fun _ => 0)) (∑ i, v' i • s.kin.momentum 1 (unit3 i, 0) q (fun _ => 0)) t :=
    HasDerivAt.fun_sum fun i _ => Server.hasDerivAt_smul_const (hv i) _
  exact h.const_add _

theorem aboutCoM_linear_hasDerivAt (R : Matrix (Fin 3) (Fin 3) ℝ) (c : Vec) {h : ℝ → Spatial} {h' : Spatial} {t : ℝ}
    (hh : HasDerivAt h h' t) (i : Fin 3) : HasDerivAt (fun y => (aboutCoM R c (h y)).2 i) ((aboutCoM R c h').2 i) t := by
  have := aboutCoM_hasDerivAt R (hasDerivAt_const t c) hh i
  refine this.congr_deriv ?_
  simp [aboutCoM]

end
end Verif.NLP.Kin
