import Verif.Lemmas.FrameOrientation
import Verif.Lemmas.StaticTorquesCost
import Verif.Props.StaticForces
/- Lemmas: the error quaternion of a frame and the gradient of the cost. -/
set_option linter.unusedSectionVars false
namespace Verif.NLP.Kin
open Matrix Verif.Rigid Function Verif.NLP.Spec Filter Topology
open Verif.Quaternion (normalizedDerivative rotationFromQuaternion normalized leftTrivializedDerivativeInverse leftTrivializedDerivative skew im rowRows
  Rotations Steady hasDerivAt_asQuaternion squaredNorm)
open Verif.Quaternion.Spec (UnitQ)
open Verif.NLP.Dynamics (quatOf baseRotation)
noncomputable section
variable {n nj : ℕ} {L F : Type} [DecidableEq L] [DecidableEq F] {m : Model L (Fin nj)} (c : Orientation m F) {x : SVec n}
  {Rd : Matrix (Fin 3) (Fin 3) ℝ}

theorem right_left {q : Fin 4 → ℝ} (hq : UnitQ q) (w : Vec) :
    Orientation.rightTrivialized q *ᵥ (rotationFromQuaternion q *ᵥ w) = leftTrivializedDerivative q *ᵥ w := by
  unfold UnitQ at hq
  rw [Orientation.rightTrivialized, leftTrivializedDerivative, Quaternion.rotation_entry]
  funext i
  fin_cases i <;> simp [rowRows, im, skew, mulVec, dotProduct, Fin.sum_univ_three, vecHead, vecTail] <;> grind

theorem right_left_inverse {q : Fin 4 → ℝ} (hq : q 0 * q 0 + q 1 * q 1 + q 2 * q 2 + q 3 * q 3 = 1) (d : Fin 4 → ℝ) :
    rotationFromQuaternion q *ᵥ (leftTrivializedDerivativeInverse q *ᵥ d) = rightTrivializedInverse q *ᵥ d := by
  rw [rightTrivializedInverse, Quaternion.inverse_entry, Quaternion.rotation_entry]
  funext i
  fin_cases i <;> simp [mulVec, dotProduct, Fin.sum_univ_succ, vecHead, vecTail] <;> grind

namespace Orientation

theorem angularColumn_eq (x : SVec n) (j : Fin nj) : c.angularColumn x j = c.frameRotation x *ᵥ c.bodyJoint x j := by
  rw [angularColumn, bodyJoint]
  congr 2
  rw [← direction_linkDirection, Traversal.frameVel]
  congr 1
  rw [c.server.kin.vel_single 1, Traversal.linkDirection, c.server.frames.link_ofLink]

theorem quaternionMap_eq (hx : quatOf x ≠ 0) (k : Fin 4) : (fun i => quaternionMap x i k) = c.frameRotation x *ᵥ c.bodyQuat x k := by
  rw [bodyQuat, frameRotation_eq, ← mulVec_mulVec, mulVec_mulVec _ (c.server.transform _ _ _).R, SE3.orthogonal, one_mulVec]
  exact (right_left_inverse (quatN_unit hx) _).symm

theorem error_joint (hm : m.Regular) (hRd : Rd ∈ Rotations) (hS : Steady c.asQuaternion (Rdᵀ * c.frameRotation x)) (j : Fin nj) :
    HasDerivAt (fun t => c.error Rd (update x (.joints, (j : ℕ)) t)) (leftTrivializedDerivative (c.error Rd x) *ᵥ c.bodyJoint x j) (x (.joints, (j : ℕ))) := by
  have h := hasDerivAt_asQuaternion (asQ := c.asQuaternion) (R := fun t => Rdᵀ * c.frameRotation (update x (.joints, (j : ℕ)) t)) (t := x (.joints, (j : ℕ)))
    (w := c.bodyJoint x j) (fun t => rotation_transpose_mul hRd (c.frameRotation_mem _)) (fun i k => by
      simp only [mul_apply (M := Rdᵀ), update_eq_self]
      refine (HasDerivAt.fun_sum (u := Finset.univ) fun l _ => (c.frame_joint hm j l k).const_mul (Rdᵀ i l)).congr_deriv ?_
      rw [Matrix.mul_assoc, mul_apply]) (by simpa only [update_eq_self] using hS)
  simp only [update_eq_self] at h
  exact h

theorem error_quat (hx : quatOf x ≠ 0) (hRd : Rd ∈ Rotations) (hS : Steady c.asQuaternion (Rdᵀ * c.frameRotation x)) (k : Fin 4) :
    HasDerivAt (fun t => c.error Rd (update x (.baseQuat, (k : ℕ)) t)) (leftTrivializedDerivative (c.error Rd x) *ᵥ c.bodyQuat x k) (x (.baseQuat, (k : ℕ))) := by
  have h := hasDerivAt_asQuaternion (asQ := c.asQuaternion) (R := fun t => Rdᵀ * c.frameRotation (update x (.baseQuat, (k : ℕ)) t)) (t := x (.baseQuat, (k : ℕ)))
    (w := c.bodyQuat x k) (fun t => rotation_transpose_mul hRd (c.frameRotation_mem _)) (fun i l => by
      simp only [mul_apply (M := Rdᵀ), update_eq_self]
      refine (HasDerivAt.fun_sum (u := Finset.univ) fun p _ => (c.frame_quat hx k p l).const_mul (Rdᵀ i p)).congr_deriv ?_
      rw [Matrix.mul_assoc, mul_apply]) (by simpa only [update_eq_self] using hS)
  simp only [update_eq_self] at h
  exact h

theorem frameRotation_other (p : Idx (SBlk n)) (h1 : ¬ (p.1 = .baseQuat ∧ p.2 < 4)) (h2 : ¬ (p.1 = .joints ∧ p.2 < nj)) (t : ℝ) :
    c.frameRotation (update x p t) = c.frameRotation x := by
  rw [frameRotation_eq, frameRotation_eq, jointsOf_update_other _ _ h2, baseRotation_congr (quatOf_other x _ h1 t)]

/-- The column of the derivative of the error, as computed in the gradient, is the one of the body angular velocity. -/
theorem errorColumn_eq (hRd : Rd ∈ Rotations) (hS : Steady c.asQuaternion (Rdᵀ * c.frameRotation x)) (w : Vec) :
    c.errorColumn Rd x (c.frameRotation x *ᵥ w) = leftTrivializedDerivative (c.error Rd x) *ᵥ w := by
  have hu : UnitQ (c.error Rd x) ∧ rotationFromQuaternion (c.error Rd x) = Rdᵀ * c.frameRotation x := (hS.self (rotation_transpose_mul hRd (c.frameRotation_mem x))).1
  rw [errorColumn, ← mulVec_mulVec, mulVec_mulVec _ Rdᵀ, ← right_left hu.1, hu.2]

theorem value_hasDerivAt {w : ℝ} {p : Idx (SBlk n)} {e' : Fin 4 → ℝ} (h : HasDerivAt (fun t => c.error Rd (update x p t)) e' (x p)) :
    HasDerivAt (fun t => c.value w Rd (update x p t)) (w * (e' ⬝ᵥ c.difference Rd x)) (x p) := by
  have hi : ∀ i, HasDerivAt (fun t => c.difference Rd (update x p t) i) (e' i) (x p) := by
    intro i
    have := (hasDerivAt_pi.1 h i).sub_const (c.identity i)
    exact this
  have hs : HasDerivAt (fun t => squaredNorm (c.difference Rd (update x p t))) (2 * (e' ⬝ᵥ c.difference Rd x)) (x p) := by
    simp only [squaredNorm]
    refine (HasDerivAt.fun_sum (u := Finset.univ) fun i _ => (hi i).mul (hi i)).congr_deriv ?_
    simp only [update_eq_self, dotProduct, Finset.mul_sum]
    exact Finset.sum_congr rfl fun i _ => by ring
  refine (hs.const_mul (0.5 * w)).congr_deriv ?_
  ring

theorem gradient_quat (w : ℝ) (k : Fin 4) : c.gradient w Rd x (.baseQuat, (k : ℕ)) = c.reduced w Rd x (fun i => quaternionMap x i k) := by
  simp [gradient, putCols]
theorem gradient_joint (w : ℝ) (j : Fin nj) : c.gradient w Rd x (.joints, (j : ℕ)) = c.reduced w Rd x (c.angularColumn x j) := by
  simp [gradient, putCols]
theorem gradient_other (w : ℝ) (p : Idx (SBlk n)) (h1 : ¬ (p.1 = .baseQuat ∧ p.2 < 4)) (h2 : ¬ (p.1 = .joints ∧ p.2 < nj)) : c.gradient w Rd x p = 0 := by
  simp only [gradient, putCols, dif_neg h1, dif_neg h2]

theorem gradient_right (hm : m.Regular) (hx : quatOf x ≠ 0) (hRd : Rd ∈ Rotations) (hS : Steady c.asQuaternion (Rdᵀ * c.frameRotation x)) (w : ℝ) :
    GradAt (c.value w Rd) (c.gradient w Rd x) x := by
  intro p
  by_cases h1 : p.1 = .baseQuat ∧ p.2 < 4
  · obtain ⟨b, k⟩ := p
    have hb : b = .baseQuat := h1.1
    have hk : k < 4 := h1.2
    subst hb
    refine (c.value_hasDerivAt (c.error_quat hx hRd hS ⟨k, hk⟩)).congr_deriv ?_
    rw [c.gradient_quat w ⟨k, hk⟩, reduced, c.quaternionMap_eq hx, c.errorColumn_eq hRd hS]
  · by_cases h2 : p.1 = .joints ∧ p.2 < nj
    · obtain ⟨b, k⟩ := p
      have hb : b = .joints := h2.1
      have hk : k < nj := h2.2
      subst hb
      refine (c.value_hasDerivAt (c.error_joint hm hRd hS ⟨k, hk⟩)).congr_deriv ?_
      rw [c.gradient_joint w ⟨k, hk⟩, reduced, c.angularColumn_eq, c.errorColumn_eq hRd hS]
    · rw [c.gradient_other w p h1 h2]
      have : ∀ t, c.value w Rd (update x p t) = c.value w Rd x := fun t => by
        simp only [value, difference, error, c.frameRotation_other p h1 h2]
      simp only [this]; exact hasDerivAt_const _ _

end Orientation
end
end Verif.NLP.Kin
