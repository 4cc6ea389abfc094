import Verif.Lemmas.CoMExpr2
import Verif.Props.VecExpr
/- C63: the position of the centre of mass in the base and its symbolic derivatives. -/
namespace Verif.Rigid
open Matrix
variable {L J F : Type} [DecidableEq L] [DecidableEq J] [DecidableEq F] [Fintype J] {m : Model L J} (s : Server m F)

/-- C63: the value is the average of the centres of mass of the links, weighted with the masses, seen from the base, wherever the base is. -/
theorem C63_position (hM : (m.links.map fun l => (m.inertia l).mass).sum ≠ 0) (H H' : SE3) (q : J → ℝ) :
    (m.links.map fun l => (m.inertia l).mass).sum • s.comInBase H q =
      (m.links.map fun l => (m.inertia l).mass • ((s.kin.world H' q s.base)⁻¹ * s.kin.world H' q l).point (m.inertia l).com).sum := by
  rw [← Server.totalMass_eq] at hM ⊢
  rw [s.comInBase_eq hM, vec_sum_hom (fun x => m.totalMass • x) (fun a b => smul_add _ a b) (smul_zero _)]
  congr 1
  refine List.map_congr_left fun l _ => ?_
  rw [smul_smul, Model.relativeMass, mul_div_cancel₀ _ hM, ← s.kin.rel_base H']; rfl

/-- C63: the Jacobian is the derivative. -/
theorem C63_jacobian (hm : m.Regular) (H : SE3) (q : J → ℝ) (j : J) :
    HasDerivAt (fun x => s.comInBase H (Function.update q j x)) (s.comInBaseJacobian H q j) (q j) := s.hasDerivAt_comInBase hm H q j

/-- C63: the hand written second derivative is the derivative of the Jacobian, for every pair of joints. -/
theorem C63_hessian (hm : m.Regular) (H : SE3) (st : KState J) (depth : ℕ) (j k : J) :
    HasDerivAt (fun x => s.comInBaseJacobian H (Function.update st.q k x) j) (s.veval st (s.comHessianCols (depth + 1) j k)).1 (st.q k) := by
  rw [s.veval_comHessianCols]
  exact s.hasDerivAt_comInBaseJacobian hm H st.q j k

/-- C63: and so are the derivatives of the third order and more. -/
theorem C63_higher (hm : m.Regular) (st : KState J) (depth : ℕ) (j k : J) (ds : List (KVar J)) (d : KVar J) :
    HasDerivAt (fun x => (s.veval (st.move d x) (s.vderivs (s.comHessianCols depth j k) ds)).1)
      (s.veval st (s.vderivs (s.comHessianCols depth j k) (ds ++ [d]))).1 0 := by
  have h := C61_derivatives s hm _ (s.comHessianCols_linkTargets depth j k) st ds d
  exact h.fst

/-- C63: along any motion of the robot, the linear part of the momentum in the base, turned in the world, is the mass times the velocity
of the centre of mass. -/
theorem C63_linear_momentum (hm : m.Regular) {H : ℝ → SE3} {v : Spatial} {q : ℝ → J → ℝ} {dq : J → ℝ} {x : ℝ} (hH : HasTangent H v x)
    (hq : ∀ j, HasDerivAt (fun y => q y j) (dq j) x) (hM : m.totalMass ≠ 0) :
    ∃ c', HasDerivAt (fun y => s.kin.comPosition (H y) (q y)) c' x ∧
      (H x).R *ᵥ (s.kin.momentum 1 v (q x) dq).1 = m.totalMass • c' := by
  refine ⟨_, hasDerivAt_vec_sum m.links (f := fun l y => m.relativeMass l • (s.kin.world (H y) (q y) l).point (m.inertia l).com)
    (f' := fun l => m.relativeMass l • (s.kin.world (H x) (q x) l).R *ᵥ ((s.kin.vel v (q x) dq l).1 + (s.kin.vel v (q x) dq l).2 ⨯₃ (m.inertia l).com)) fun l => ?_, ?_⟩
  · exact (s.kin.hasTangent_world_motion hm hH hq l (m.inertia l).com).const_smul (m.relativeMass l)
  · rw [Traversal.momentum, fst_sum, vec_sum_hom (fun y => (H x).R *ᵥ y) (fun a b => mulVec_add _ a b) (mulVec_zero _),
      vec_sum_hom (fun y => m.totalMass • y) (fun a b => smul_add _ a b) (smul_zero _)]
    congr 1
    refine List.map_congr_left fun l _ => ?_
    have hr : (s.kin.world (H x) (q x) l).R = (H x).R * (s.kin.rel 1 (q x) s.kin.root l).R := by
      have : s.kin.world (H x) (q x) l = H x * s.kin.rel 1 (q x) s.kin.root l := by
        rw [← s.kin.rel_base (H x), Traversal.rel, Traversal.world_root, mul_inv_cancel_left]
      rw [this]; rfl
    rw [smul_smul, Model.relativeMass, mul_div_cancel₀ _ hM, hr, ← mulVec_mulVec]
    congr 1
    rw [SE3.actF, ← mulVec_smul]
    congr 1
    simp only [Inertia.mul, map_smul, LinearMap.smul_apply]
    rw [← cross_anticomm (m.inertia l).com, ← sub_eq_add_neg, ← smul_sub, mulVec_smul]

/-- C63: the matrix that brings the momentum to the centre of mass is the one of the transform with the orientation of the base seen from
the world and the origin in the centre of mass: the angular part is the moment about the centre of mass. -/
theorem C63_transform (T G : SE3) (hG : G.R = 1) (c : Vec) (hc : G.p = T.point c) (h : Spatial) :
    Server.comAdjointTransformWrench T.R c h = (G⁻¹ * T).actF h ∧
    Server.comAdjointTransformWrench T.R c h = (T.R *ᵥ h.1, T.R *ᵥ (h.2 - c ⨯₃ h.1)) := by
  have e2 : Server.comAdjointTransformWrench T.R c h = (T.R *ᵥ h.1, T.R *ᵥ (h.2 - c ⨯₃ h.1)) := by
    ext1
    · rfl
    · simp only [Server.comAdjointTransformWrench, map_neg, LinearMap.neg_apply, mulVec_neg, mulVec_sub]; abel
  refine ⟨?_, e2⟩
  rw [e2]
  have hR : (G⁻¹ * T).R = T.R := by show G.Rᵀ * T.R = T.R; rw [hG, transpose_one, Matrix.one_mul]
  have hp : (G⁻¹ * T).p = -(T.R *ᵥ c) := by
    show -(G.Rᵀ *ᵥ G.p) + G.Rᵀ *ᵥ T.p = _
    rw [hG, transpose_one, one_mulVec, one_mulVec, hc, SE3.point]; abel
  ext1
  · simp only [SE3.actF, hR]
  · simp only [SE3.actF, hR, hp, map_neg, LinearMap.neg_apply, T.cross, mulVec_sub]; abel

/-! ### The hypotheses are met -/

theorem sample_mass : (sampleModel.links.map fun l => (sampleModel.inertia l).mass).sum ≠ 0 := by
  simp [sampleModel]
  norm_num
example (H H' : SE3) := C63_position sampleServer sample_mass H H' ![1, 2]
example := C63_hessian sampleServer sample_regular 1 sampleState 2 0 1
example := C63_higher sampleServer sample_regular sampleState 2 1 0 [.position 0] (.position 1)
example := C63_transform ⟨!![0, -1, 0; 1, 0, 0; 0, 0, 1], ![1, 2, 3], by ext i j; fin_cases i <;> fin_cases j <;> simp [Matrix.mul_apply, Fin.sum_univ_three],
  by simp [Matrix.det_fin_three]⟩ ⟨1, ![1, 2, 3] + !![0, -1, 0; 1, 0, 0; 0, 0, 1] *ᵥ ![1, 0, 0], by simp, by simp⟩ rfl ![1, 0, 0] rfl

end Verif.Rigid
