import Verif.Lemmas.TreeExpr4
import Verif.Lemmas.SampleServer
/- C61: the Jacobians, the relative positions, the relative and absolute velocities and their symbolic derivatives. -/
namespace Verif.Rigid
open Matrix
variable {L J F : Type} [DecidableEq L] [DecidableEq J] [DecidableEq F] [Fintype J] {m : Model L J} (s : Server m F)

/-- C61: the columns of the Jacobian are the velocities of the target with respect to the base, given by each joint, expressed in the target. -/
theorem C61_jacobian (hm : m.Regular) (st : KState J) (a b : F) (j : J) :
    HasTangent (fun x => (s.kin.world 1 (Function.update st.q j x) (s.frames.link a) * s.frames.offset a)⁻¹ *
        (s.kin.world 1 (Function.update st.q j x) (s.frames.link b) * s.frames.offset b)) (s.veval st (s.jacobianColumn a b j)) (st.q j) := by
  rw [s.veval_jacobianColumn]
  have h := s.hasTangent_transform hm st.q a b j
  have e : ∀ q, s.transform q a b = (s.kin.world 1 q (s.frames.link a) * s.frames.offset a)⁻¹ * (s.kin.world 1 q (s.frames.link b) * s.frames.offset b) := by
    intro q; simp [Server.transform, Traversal.rel, mul_assoc]
  simpa only [e] using h

/-- C61: the relative velocity does not depend on the velocity of the base; it is the Jacobian times the velocities of the joints. -/
theorem C61_relative_velocity (hm : m.Regular) (st : KState J) (a b : F) :
    s.veval st (.relVel a b) = ∑ j, st.dq j • s.veval st (s.jacobianColumn a b j) := by
  simp only [s.veval_jacobianColumn]; exact s.relativeVelocity_eq hm st a b

/-- C61: the absolute velocity is the velocity of the frame when the base moves with the base twist and the joints with their velocities. -/
theorem C61_absolute_velocity (hm : m.Regular) (st : KState J) (b : F) {H : ℝ → SE3} {q : ℝ → J → ℝ} {x : ℝ} (hq0 : q x = st.q)
    (hH : HasTangent H st.twist x) (hq : ∀ j, HasDerivAt (fun y => q y j) (st.dq j) x) :
    HasTangent (fun y => s.kin.world (H y) (q y) (s.frames.link b) * s.frames.offset b) (s.veval st (.absVel b)) x := by
  rw [s.veval_absVel hm, ← hq0]
  have := (s.kin.hasTangent_world_motion hm hH hq (s.frames.link b)).mul (hasTangent_const (s.frames.offset b) x)
  simpa [Traversal.frameVel] using this

/-- C61: for every expression made of Jacobians and velocities of any frames, the base twist, constants, adjoint transforms towards links,
products and sums, the derivatives of every order with respect to any sequence of positions and velocities of the joints and
directions of the base twist are right. -/
theorem C61_derivatives (hm : m.Regular) (X : VExp J F) (hX : X.LinkTargets s.frames) (st : KState J) (ds : List (KVar J)) (d : KVar J) :
    HasDerivAt (fun x => s.veval (st.move d x) (s.vderivs X ds)) (s.veval st (s.vderivs X (ds ++ [d]))) 0 := by
  rw [s.vderivs_snoc]
  exact s.hasDerivAt_veval hm st d _ (s.vderivs_linkTargets ds X hX)

/-- C61: the same for the columns of the Jacobians and for the velocities, of any frames. -/
theorem C61_velocity_derivatives (hm : m.Regular) (a b : F) (j : J) (st : KState J) (ds : List (KVar J)) (d : KVar J) :
    HasDerivAt (fun x => s.veval (st.move d x) (s.vderivs (s.jacobianColumn a b j) ds)) (s.veval st (s.vderivs (s.jacobianColumn a b j) (ds ++ [d]))) 0 ∧
    HasDerivAt (fun x => s.veval (st.move d x) (s.vderivs (.relVel a b) ds)) (s.veval st (s.vderivs (.relVel a b) (ds ++ [d]))) 0 ∧
    HasDerivAt (fun x => s.veval (st.move d x) (s.vderivs (.absVel b) ds)) (s.veval st (s.vderivs (.absVel b) (ds ++ [d]))) 0 :=
  ⟨C61_derivatives s hm _ (s.jacobianColumn_linkTargets a b j) st ds d, C61_derivatives s hm (.relVel a b) trivial st ds d,
    C61_derivatives s hm (.absVel b) trivial st ds d⟩

/-- C61: the value of the relative position and its derivative with respect to each joint. -/
theorem C61_position (hm : m.Regular) (st : KState J) (a b : F) (j : J) :
    s.relativePosition st a b = ((s.kin.world 1 st.q (s.frames.link a) * s.frames.offset a)⁻¹ * (s.kin.world 1 st.q (s.frames.link b) * s.frames.offset b)).p ∧
    HasDerivAt (fun x => s.relativePosition { st with q := Function.update st.q j x } a b) (s.relativePositionJacobian st a b j) (st.q j) := by
  constructor
  · unfold Server.relativePosition
    split_ifs with h
    · subst h; simp
    · simp [Server.transform, Traversal.rel, mul_assoc]
  · unfold Server.relativePosition Server.relativePositionJacobian
    split_ifs with h
    · exact hasDerivAt_const _ _
    · have h1 := s.hasTangent_transform hm st.q a b j 0
      simp only [SE3.point, mulVec_zero, add_zero, map_zero, s.veval_jacobianColumn, s.eval_adj] at h1 ⊢
      simpa [SE3.act] using h1

/-- What the second derivative of the relative position should be. -/
theorem hasDerivAt_relativePositionJacobian (hm : m.Regular) (st : KState J) (a b : F) (hab : a ≠ b) (j k : J) :
    HasDerivAt (fun x => s.relativePositionJacobian { st with q := Function.update st.q k x } a b j)
      ((s.transform st.q a b).R *ᵥ ((s.direction st.q a b k).2 ⨯₃ (s.veval st (s.jacobianColumn a b j)).1) +
        (s.transform st.q a b).R *ᵥ (s.veval st (s.vderiv (.position k) (s.jacobianColumn a b j))).1) (st.q k) := by
  unfold Server.relativePositionJacobian
  simp only [if_neg hab]
  have hcol := s.hasDerivAt_position hm st k (s.jacobianColumn a b j) (s.jacobianColumn_linkTargets a b j)
  have hcol1 : HasDerivAt (fun x => (s.veval { st with q := Function.update st.q k x } (s.jacobianColumn a b j)).1)
    (s.veval st (s.vderiv (.position k) (s.jacobianColumn a b j))).1 (st.q k) := hcol.fst
  have hp : HasDerivAt (fun x => ((s.veval { st with q := Function.update st.q k x } (s.jacobianColumn a b j)).1, (0 : Vec)))
    ((s.veval st (s.vderiv (.position k) (s.jacobianColumn a b j))).1, (0 : Vec)) (st.q k) := hcol1.prodMk (hasDerivAt_const _ _)
  have ht := (s.hasTangent_transform hm st.q a b k).act hp
  have ht1 := ht.fst
  simp only [s.eval_adj]
  refine HasDerivAt.congr_deriv (f := fun x => ((s.transform (Function.update st.q k x) a b).act
    ((s.veval { st with q := Function.update st.q k x } (s.jacobianColumn a b j)).1, (0 : Vec))).1) ht1 ?_
  have hup : Function.update st.q k (st.q k) = st.q := Function.update_eq_self _ _
  simp [hup, SE3.act, crossM, mulVec_add]

/-- C61: the second derivatives of the relative position are right, with respect to all the joints but the one just above the target. -/
theorem C61_position_hessian (hm : m.Regular) (st : KState J) (a b : F) (j k : J) (h : (s.tree (s.frames.link a)).child k ≠ s.frames.link b) :
    HasDerivAt (fun x => s.relativePositionJacobian { st with q := Function.update st.q k x } a b j) (s.relativePositionHessian st a b j k) (st.q k) := by
  by_cases hab : a = b
  · unfold Server.relativePositionJacobian Server.relativePositionHessian; simp only [if_pos hab]; exact hasDerivAt_const _ _
  · refine (hasDerivAt_relativePositionJacobian s hm st a b hab j k).congr_deriv ?_
    unfold Server.relativePositionHessian
    rw [if_neg hab]
    show _ = (s.eval st.q (s.adjDerivative a b k) _).1 + _
    rw [s.eval_adjDerivative, if_neg h, s.eval_adj]
    simp [SE3.act, crossM]

/-- C61 (finding): with respect to the joint just above the target, they are right if and only if the rotation of the target on its link does not
move the axis of the joint, as far as the column can see it. -/
theorem C61_finding_position_hessian (hm : m.Regular) (st : KState J) (a b : F) (j k : J) (h : (s.tree (s.frames.link a)).child k = s.frames.link b) :
    HasDerivAt (fun x => s.relativePositionJacobian { st with q := Function.update st.q k x } a b j) (s.relativePositionHessian st a b j k) (st.q k) ↔
      ((s.frames.offset b).Rᵀ *ᵥ ((s.tree (s.frames.link a)).subspace (s.frames.link b)).2) ⨯₃ (s.veval st (s.jacobianColumn a b j)).1 =
        ((s.tree (s.frames.link a)).subspace (s.frames.link b)).2 ⨯₃ (s.veval st (s.jacobianColumn a b j)).1 := by
  have hab : a ≠ b := by
    rintro rfl
    exact Traversal.child_ne (s.tree (s.frames.link a)) k (by rw [h, s.root_tree])
  have h1 := hasDerivAt_relativePositionJacobian s hm st a b hab j k
  have h2 : s.relativePositionHessian st a b j k =
      (s.transform st.q a b).R *ᵥ (((s.tree (s.frames.link a)).subspace (s.frames.link b)).2 ⨯₃ (s.veval st (s.jacobianColumn a b j)).1) +
        (s.transform st.q a b).R *ᵥ (s.veval st (s.vderiv (.position k) (s.jacobianColumn a b j))).1 := by
    unfold Server.relativePositionHessian
    rw [if_neg hab]
    show (s.eval st.q (s.adjDerivative a b k) _).1 + _ = _
    rw [s.eval_adjDerivative, if_pos h, s.eval_adj]
    simp [SE3.act, crossM]
  have h3 : (s.direction st.q a b k).2 = (s.frames.offset b).Rᵀ *ᵥ ((s.tree (s.frames.link a)).subspace (s.frames.link b)).2 := by
    rw [s.direction_above st.q a b k h]; simp [SE3.act]
  rw [h3] at h1
  constructor
  · intro hd
    have := h1.unique hd
    rw [h2] at this
    exact Server.mulVec_R_injective _ (add_right_cancel this)
  · intro he
    rw [h2, ← he]
    exact h1

/-- C61: so they are all right towards a link. -/
theorem C61_position_hessian_link (hm : m.Regular) (st : KState J) (a : F) (l : L) (j k : J) :
    HasDerivAt (fun x => s.relativePositionJacobian { st with q := Function.update st.q k x } a (s.frames.ofLink l) j)
      (s.relativePositionHessian st a (s.frames.ofLink l) j k) (st.q k) := by
  by_cases h : (s.tree (s.frames.link a)).child k = s.frames.link (s.frames.ofLink l)
  · rw [C61_finding_position_hessian s hm st a _ j k h, s.frames.offset_ofLink]; simp
  · exact C61_position_hessian s hm st a _ j k h

/-- C61: and towards the frames whose rotation on their link keeps the axes of the joints; the order of the joints does not matter. -/
theorem C61_position_hessian_keepsAxes (hm : m.Regular) (st : KState J) (a b : F) (hb : s.KeepsAxes b) (j k : J) :
    HasDerivAt (fun x => s.relativePositionJacobian { st with q := Function.update st.q k x } a b j) (s.relativePositionHessian st a b j k) (st.q k) ∧
      s.relativePositionHessian st a b j k = s.relativePositionHessian st a b k j := by
  have h1 : ∀ j k, HasDerivAt (fun x => s.relativePositionJacobian { st with q := Function.update st.q k x } a b j) (s.relativePositionHessian st a b j k) (st.q k) := by
    intro j k
    by_cases h : (s.tree (s.frames.link a)).child k = s.frames.link b
    · have hne : s.frames.link a ≠ s.frames.link b := by
        intro e
        exact Traversal.child_ne _ k (h.trans (e.symm.trans (s.root_tree _).symm))
      rw [C61_finding_position_hessian s hm st a _ j k h, hb a hne]
    · exact C61_position_hessian s hm st a _ j k h
  refine ⟨h1 j k, ?_⟩
  by_cases hab : a = b
  · simp [Server.relativePositionHessian, hab]
  · have e : ∀ j k, s.relativePositionHessian st a b j k = (s.transform st.q a b).R *ᵥ ((s.direction st.q a b k).2 ⨯₃ (s.direction st.q a b j).1) +
        (s.transform st.q a b).R *ᵥ (s.directionDer st.q a b j k).1 := by
      intro j k
      have h2 := hasDerivAt_relativePositionJacobian s hm st a b hab j k
      rw [(h1 j k).unique h2, s.veval_jacobianColumn]
      have h3 := s.hasDerivAt_position hm st k (s.jacobianColumn a b j) (s.jacobianColumn_linkTargets a b j)
      simp only [s.veval_jacobianColumn] at h3
      rw [h3.unique (s.hasDerivAt_direction' hm st.q a b j k)]
      rfl
    rw [e j k, e k j, ← mulVec_add, ← mulVec_add]
    congr 1
    have h := s.directionDer_cases st.q a b j k
    have e : s.directionDer st.q a b j k = crossM (s.direction st.q a b j) (s.direction st.q a b k) + s.directionDer st.q a b k j := by
      rw [← h]; abel
    rw [e]
    generalize s.direction st.q a b j = x
    generalize s.direction st.q a b k = y
    generalize s.directionDer st.q a b k j = z
    ext i
    fin_cases i <;> simp [crossM, cross_apply, vecHead, vecTail] <;> ring

/-! ### The hypotheses are met -/

noncomputable def sampleState : KState (Fin 2) where
  stateVel := (![1, 0, 0], ![0, 1, 0])
  twist := (![1, 2, 0], ![0, 1, 3])
  q := ![1, 2]
  dq := ![3, 4]

/-- The velocity of the last link, minus the one of the turned frame, differentiated three times. -/
example := C61_derivatives sampleServer sample_regular
  (.sub (.absVel (some 2)) (.app (.mul (.adj none (some 1)) (.const (crossM (0, ![0, 0, 1])))) (.relVel (some 2) none)))
  ⟨trivial, ⟨⟨1, rfl⟩, smooth_crossM _⟩, trivial⟩ sampleState [.position 0, .velocity 1] (.twist (0, ![1, 0, 0]))

/-- The second derivative of the position of the turned frame is wrong. -/
theorem C61_finding_example : ¬ HasDerivAt (fun x => sampleServer.relativePositionJacobian { sampleState with q := Function.update sampleState.q 0 x } (some 0) none 0)
    (sampleServer.relativePositionHessian sampleState (some 0) none 0 0) (sampleState.q 0) := by
  rw [C61_finding_position_hessian sampleServer sample_regular sampleState (some 0) none 0 0 rfl, sampleServer.veval_jacobianColumn,
    sampleServer.direction_above _ (some 0) none 0 rfl]
  intro h
  have h1 := congrFun h 0
  simp [sampleServer, quarterX, Traversal.subspace, sampleTraversal, sampleModel, sampleAxes, Axis.S, SE3.act, mulVec, dotProduct, Fin.sum_univ_three,
    cross_apply] at h1
  rw [show (![0, 0, 0] : Fin 3 → ℝ) = 0 from by ext i; fin_cases i <;> rfl, mulVec_zero] at h1
  simp [vecHead, vecTail] at h1

end Verif.Rigid
