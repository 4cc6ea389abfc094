import Verif.Lemmas.PointConstraints6
import Verif.Lemmas.QuaternionLift
import Verif.Model.FrameOrientationCost
/- Lemmas: the rotation of a frame. -/
set_option linter.unusedSectionVars false
namespace Verif.NLP.Kin
open Matrix Verif.Rigid Function Verif.NLP.Spec Filter Topology
open Verif.Quaternion (normalizedDerivative rotationFromQuaternion normalized leftTrivializedDerivativeInverse leftTrivializedDerivative skew im rowRows Rotations)
open Verif.NLP.Dynamics (quatOf baseRotation)
noncomputable section
variable {n nj : ℕ} {L F : Type} [DecidableEq L] [DecidableEq F] {m : Model L (Fin nj)} (c : Orientation m F) {x : SVec n}

theorem skew_hat (v : Vec) : skew v = hat v := rfl

theorem rotation_mem (T : SE3) : T.R ∈ Rotations := ⟨T.orthogonal, T.det⟩

theorem rotation_transpose_mul {A B : Matrix (Fin 3) (Fin 3) ℝ} (hA : A ∈ Rotations) (hB : B ∈ Rotations) : Aᵀ * B ∈ Rotations := by
  refine ⟨?_, by rw [det_mul, det_transpose, hA.2, hB.2, one_mul]⟩
  rw [transpose_mul, transpose_transpose, Matrix.mul_assoc, ← Matrix.mul_assoc B, hB.1, Matrix.one_mul, mul_eq_one_comm.1 hA.1]

namespace Orientation

theorem frameRotation_eq (x : SVec n) : c.frameRotation x = baseRotation x * (c.server.transform (jointsOf x) c.server.baseFrame c.frame).R := by
  have hT : c.server.transform (jointsOf x) c.server.baseFrame c.frame = (baseTransform x)⁻¹ *
      (c.server.kin.world (baseTransform x) (jointsOf x) (c.server.frames.link c.frame) * c.server.frames.offset c.frame) := by
    rw [Server.transform, c.server.frames.offset_ofLink, c.server.frames.link_ofLink, inv_one, one_mul, ← c.server.kin.rel_base (baseTransform x), Traversal.rel,
      ← c.server.kin_root, Traversal.world_root, mul_assoc]
  have h2 : c.server.kin.world (baseTransform x) (jointsOf x) (c.server.frames.link c.frame) * c.server.frames.offset c.frame =
      baseTransform x * c.server.transform (jointsOf x) c.server.baseFrame c.frame := by rw [hT, mul_inv_cancel_left]
  rw [frameRotation, h2, SE3.mul_R]; rfl

theorem frameRotation_mem (x : SVec n) : c.frameRotation x ∈ Rotations := rotation_mem _

end Orientation

/-! ### Continuity -/

theorem continuousAt_matrix_mul {X : Type} [TopologicalSpace X] {A B : X → Matrix (Fin 3) (Fin 3) ℝ} {a : X} (hA : ContinuousAt A a) (hB : ContinuousAt B a) :
    ContinuousAt (fun y => A y * B y) a := by
  have hA' : ∀ i k, ContinuousAt (fun y => A y i k) a := fun i k => continuousAt_pi.1 (continuousAt_pi.1 hA i) k
  have hB' : ∀ i k, ContinuousAt (fun y => B y i k) a := fun i k => continuousAt_pi.1 (continuousAt_pi.1 hB i) k
  refine continuousAt_pi.2 fun i => continuousAt_pi.2 fun k => ?_
  simp only [mul_apply, Fin.sum_univ_three]
  exact (((hA' i 0).mul (hB' 0 k)).add ((hA' i 1).mul (hB' 1 k))).add ((hA' i 2).mul (hB' 2 k))

theorem continuousAt_transpose {X : Type} [TopologicalSpace X] {A : X → Matrix (Fin 3) (Fin 3) ℝ} {a : X} (hA : ContinuousAt A a) :
    ContinuousAt (fun y => (A y)ᵀ) a :=
  continuousAt_pi.2 fun i => continuousAt_pi.2 fun k => continuousAt_pi.1 (continuousAt_pi.1 hA k) i

theorem continuous_world (hm : m.Regular) (t : Traversal m) (l : L) : Continuous fun q : Fin nj → ℝ => (t.world 1 q l).R := by
  rw [continuous_iff_continuousAt]
  intro q
  induction l using t.ind with
  | root => simp only [Traversal.world_root]; exact continuousAt_const
  | step l h ih =>
    simp only [t.world_step 1 _ h, SE3.mul_R]
    refine continuousAt_matrix_mul ih ?_
    have hT : ContinuousAt (fun q : Fin nj → ℝ => (m.T (t.joint l) (q (t.joint l))).R) q := by
      have h1 : ContinuousAt (fun y : ℝ => (m.T (t.joint l) y).R) (q (t.joint l)) :=
        continuousAt_pi.2 fun i => continuousAt_pi.2 fun k => ((hasTangent_iff.1 (hm (t.joint l) (q (t.joint l)))).1 i k).continuousAt
      exact ContinuousAt.comp (f := fun q : Fin nj → ℝ => q (t.joint l)) h1 (continuous_apply _).continuousAt
    unfold Traversal.jointTransform
    by_cases e : m.second (t.joint l) = l
    · simp only [if_pos e]; exact hT
    · simp only [if_neg e, SE3.inv_R]; exact continuousAt_transpose hT

theorem continuous_transform (s : Server m F) (hm : m.Regular) (a b : F) : Continuous fun q : Fin nj → ℝ => (s.transform q a b).R := by
  rw [continuous_iff_continuousAt]
  intro q
  simp only [Server.transform, SE3.mul_R, SE3.inv_R, Traversal.rel]
  exact continuousAt_matrix_mul (continuousAt_matrix_mul continuousAt_const (continuousAt_matrix_mul
    (continuousAt_transpose (continuous_world hm _ _).continuousAt) (continuous_world hm _ _).continuousAt)) continuousAt_const

theorem continuousAt_quatN (hx : quatOf x ≠ 0) : ContinuousAt (quatN : SVec n → Fin 4 → ℝ) x := by
  have h0 : ∀ i, Continuous fun y : SVec n => quatOf y i := fun i => continuous_apply _
  have hs : Continuous fun y : SVec n => Quaternion.squaredNorm (quatOf y) := by
    simp only [Quaternion.squaredNorm]
    exact continuous_finsetSum _ fun i _ => (h0 i).mul (h0 i)
  have hp := Quaternion.quat_ne_zero hx
  have hev : (quatN : SVec n → Fin 4 → ℝ) =ᶠ[𝓝 x] fun y i => quatOf y i / Real.sqrt (Quaternion.squaredNorm (quatOf y)) := by
    filter_upwards [hs.continuousAt.eventually (lt_mem_nhds hp)] with y hy
    funext i
    simp only [quatN, normalized, if_pos hy, Quaternion.norm]
  refine ContinuousAt.congr ?_ hev.symm
  refine continuousAt_pi.2 fun i => ?_
  exact (h0 i).continuousAt.div (Real.continuous_sqrt.comp hs).continuousAt (Real.sqrt_pos.2 hp).ne'

theorem continuousAt_baseRotation (hx : quatOf x ≠ 0) : ContinuousAt (baseRotation : SVec n → Matrix (Fin 3) (Fin 3) ℝ) x := by
  have h := continuousAt_quatN hx
  have hq : ∀ i, ContinuousAt (fun y : SVec n => quatN y i) x := fun i => continuousAt_pi.1 h i
  have e : (baseRotation : SVec n → Matrix (Fin 3) (Fin 3) ℝ) = fun y => rotationFromQuaternion (quatN y) := rfl
  rw [e]
  have hr : Continuous (rotationFromQuaternion : (Fin 4 → ℝ) → Matrix (Fin 3) (Fin 3) ℝ) := by
    refine continuous_pi fun i => continuous_pi fun k => ?_
    simp only [Quaternion.rotation_entry]
    fin_cases i <;> fin_cases k <;> simp <;> fun_prop
  exact ContinuousAt.comp (f := (quatN : SVec n → Fin 4 → ℝ)) hr.continuousAt h

namespace Orientation

theorem continuousAt_frameRotation (hm : m.Regular) (hx : quatOf x ≠ 0) : ContinuousAt (c.frameRotation : SVec n → Matrix (Fin 3) (Fin 3) ℝ) x := by
  have e : (c.frameRotation : SVec n → Matrix (Fin 3) (Fin 3) ℝ) = fun y => baseRotation y * (c.server.transform (jointsOf y) c.server.baseFrame c.frame).R :=
    funext fun y => c.frameRotation_eq y
  rw [e]
  refine continuousAt_matrix_mul (continuousAt_baseRotation hx) ?_
  have hj : Continuous fun y : SVec n => (jointsOf y : Fin nj → ℝ) := continuous_pi fun j => continuous_apply _
  exact ((continuous_transform c.server hm _ _).comp hj).continuousAt

/-! ### Derivatives -/

/-- The angular velocity of the frame, seen by the frame, when a joint moves. -/
def bodyJoint (x : SVec n) (j : Fin nj) : Vec := (c.server.direction (jointsOf x) c.server.baseFrame c.frame j).2

/-- The angular velocity of the frame, seen by the frame, when an entry of the quaternion of the base moves. -/
def bodyQuat (x : SVec n) (k : Fin 4) : Vec := (c.server.transform (jointsOf x) c.server.baseFrame c.frame).Rᵀ *ᵥ
  (leftTrivializedDerivativeInverse (quatN x) *ᵥ fun i => normalizedDerivative Real.sqrt (quatOf x) i k)

theorem frame_joint (hm : m.Regular) (j : Fin nj) (i k : Fin 3) :
    HasDerivAt (fun t => c.frameRotation (update x (.joints, (j : ℕ)) t) i k) ((c.frameRotation x * skew (c.bodyJoint x j)) i k) (x (.joints, (j : ℕ))) := by
  have h := (hasTangent_iff.1 (c.server.hasTangent_transform hm (jointsOf x) c.server.baseFrame c.frame j)).1
  have e : ∀ t, c.frameRotation (update x (.joints, (j : ℕ)) t) = baseRotation x * (c.server.transform (update (jointsOf x) j t) c.server.baseFrame c.frame).R := by
    intro t
    rw [frameRotation_eq, jointsOf_update_joint, baseRotation_congr (quatOf_other x _ (by simp) t)]
  simp only [e, mul_apply (M := baseRotation x)]
  refine (HasDerivAt.fun_sum (u := Finset.univ) fun l _ => (h l k).const_mul (baseRotation x i l)).congr_deriv ?_
  rw [frameRotation_eq, Matrix.mul_assoc, mul_apply, update_eq_self]
  rfl

theorem rotated_left (q d : Fin 4 → ℝ) (v : Vec) (hq : q 0 * q 0 + q 1 * q 1 + q 2 * q 2 + q 3 * q 3 = 1)
    (hd : q 0 * d 0 + q 1 * d 1 + q 2 * d 2 + q 3 * d 3 = 0) :
    Quaternion.rotatedVectorJacobian Real.sqrt v q *ᵥ d = rotationFromQuaternion q *ᵥ (skew (leftTrivializedDerivativeInverse q *ᵥ d) *ᵥ v) := by
  rw [Quaternion.rotatedVectorJacobian_eq, Quaternion.unscaled_entry, Quaternion.rotate_entry, Quaternion.inverse_entry]
  funext i
  fin_cases i <;> simp [skew, mulVec, dotProduct, Fin.sum_univ_succ, vecHead, vecTail] <;> grind

theorem base_quat (hx : quatOf x ≠ 0) (l : Fin 4) (i k : Fin 3) :
    HasDerivAt (fun t => baseRotation (update x (.baseQuat, (l : ℕ)) t) i k)
      ((baseRotation x * skew (leftTrivializedDerivativeInverse (quatN x) *ᵥ fun i => normalizedDerivative Real.sqrt (quatOf x) i l)) i k) (x (.baseQuat, (l : ℕ))) := by
  have h := rotate_hasDerivAt hx l (hasDerivAt_const (x (.baseQuat, (l : ℕ))) (Pi.single k 1 : Vec)) i
  simp only [mulVec_single_one, col_apply, mulVec_zero, Pi.zero_apply, add_zero] at h
  refine h.congr_deriv ?_
  have := congrFun (rotated_left (quatN x) (fun i => normalizedDerivative Real.sqrt (quatOf x) i l) (Pi.single k 1) (quatN_unit hx) (normalizedDerivative_perp hx l)) i
  rw [mulVec_mulVec, mulVec_single_one] at this
  exact this

theorem frame_quat (hx : quatOf x ≠ 0) (l : Fin 4) (i k : Fin 3) :
    HasDerivAt (fun t => c.frameRotation (update x (.baseQuat, (l : ℕ)) t) i k) ((c.frameRotation x * skew (c.bodyQuat x l)) i k) (x (.baseQuat, (l : ℕ))) := by
  have e : ∀ t, c.frameRotation (update x (.baseQuat, (l : ℕ)) t) = baseRotation (update x (.baseQuat, (l : ℕ)) t) *
      (c.server.transform (jointsOf x) c.server.baseFrame c.frame).R := by
    intro t
    rw [frameRotation_eq, jointsOf_update_other _ _ (by simp)]
  simp only [e, mul_apply (N := (c.server.transform (jointsOf x) c.server.baseFrame c.frame).R)]
  refine (HasDerivAt.fun_sum (u := Finset.univ) fun p _ => (base_quat hx l i p).mul_const ((c.server.transform (jointsOf x) c.server.baseFrame c.frame).R p k)).congr_deriv ?_
  rw [frameRotation_eq, bodyQuat]
  set T := (c.server.transform (jointsOf x) c.server.baseFrame c.frame) with hT
  set ω := leftTrivializedDerivativeInverse (quatN x) *ᵥ fun i => normalizedDerivative Real.sqrt (quatOf x) i l with hω
  have key : skew ω * T.R = T.R * skew (T.Rᵀ *ᵥ ω) := by
    refine Matrix.ext_of_mulVec_single fun k => ?_
    rw [← mulVec_mulVec, ← mulVec_mulVec, skew_hat, skew_hat, hat_mulVec, hat_mulVec, ← T.cross, mulVec_mulVec ω, T.orthogonal, one_mulVec]
  have : ∑ p, (baseRotation x * skew ω) i p * T.R p k = ((baseRotation x * skew ω) * T.R : Matrix (Fin 3) (Fin 3) ℝ) i k := by rw [mul_apply]
  rw [this, Matrix.mul_assoc, key, ← Matrix.mul_assoc]

end Orientation

end
end Verif.NLP.Kin
