import Verif.Lemmas.RelativeQuaternion
import Verif.Props.FrameOrientationCost
import Verif.Props.VecExpr
/- C73: the expression of the quaternion of a frame in another. -/
namespace Verif.Rigid
open Matrix Verif.Quaternion Verif.Quaternion.Spec
variable {L J F : Type} [DecidableEq L] [DecidableEq J] [DecidableEq F] [Fintype J] {m : Model L J} (s : Server m F)
  (asQ : Matrix (Fin 3) (Fin 3) ℝ → Quat ℝ)

/-- The rotation of the frame `b` seen from the frame `a`, from where the forward kinematics put the two frames. -/
noncomputable def relativeRotation (q : J → ℝ) (a b : F) : Matrix (Fin 3) (Fin 3) ℝ :=
  (s.kin.world 1 q (s.frames.link a) * s.frames.offset a).Rᵀ * (s.kin.world 1 q (s.frames.link b) * s.frames.offset b).R

theorem relativeRotation_eq (q : J → ℝ) (a b : F) : (s.transform q a b).R = relativeRotation s q a b := by
  have e : s.transform q a b = (s.kin.world 1 q (s.frames.link a) * s.frames.offset a)⁻¹ * (s.kin.world 1 q (s.frames.link b) * s.frames.offset b) := by
    simp [Server.transform, Traversal.rel, mul_assoc]
  rw [e, SE3.mul_R, SE3.inv_R, relativeRotation]

/-- C73: the value is a unit quaternion of the rotation between the two frames, if the library gives one for that rotation. -/
theorem C73_value (st : KState J) (a b : F)
    (h : UnitQ (asQ (relativeRotation s st.q a b)) ∧ rotationFromQuaternion (asQ (relativeRotation s st.q a b)) = relativeRotation s st.q a b) :
    UnitQ (s.qeval asQ st (relativeQuaternion a b)) ∧ rotationFromQuaternion (s.qeval asQ st (relativeQuaternion a b)) = relativeRotation s st.q a b := by
  unfold relativeQuaternion
  split_ifs with hab
  · subst hab
    have e : (s.qeval asQ st (.const fun i => (1 : Matrix (Fin 4) (Fin 4) ℝ) i 0) : Quat ℝ) = ![1, 0, 0, 0] := by
      funext i; fin_cases i <;> simp [Server.qeval, Matrix.one_apply]
    rw [e, ← relativeRotation_eq, s.transform_same]
    · refine ⟨by simp [UnitQ], ?_⟩
      rw [rotation_entry]
      ext i k; fin_cases i <;> fin_cases k <;> simp
    · rfl
  · show UnitQ (asQ (s.transform st.q a b).R) ∧ rotationFromQuaternion (asQ (s.transform st.q a b).R) = _
    rw [relativeRotation_eq]
    exact h

/-- C73: the derivatives of every order, with respect to any sequence of positions and velocities of the joints and directions of the base twist, as
long as the library does not jump to the opposite quaternion. -/
theorem C73_derivatives (hm : m.Regular) (st : KState J) (a b : F) (hs : Steady asQ (relativeRotation s st.q a b)) (ds : List (KVar J)) (d : KVar J) :
    HasDerivAt (fun x => s.qeval asQ (st.move d x) (s.qderivs (relativeQuaternion a b) ds)) (s.qeval asQ st (s.qderivs (relativeQuaternion a b) (ds ++ [d]))) 0 := by
  have h1 : (relativeQuaternion a b : QExp J F).LinkTargets s.frames := by unfold relativeQuaternion; split_ifs <;> trivial
  have h2 : (relativeQuaternion a b : QExp J F).Steady s asQ st.q := by
    unfold relativeQuaternion
    split_ifs
    · trivial
    · rw [← relativeRotation_eq] at hs; exact hs
  have h3 := s.qderivs_keep st.q ds _ h1 h2
  have e : s.qderivs (relativeQuaternion a b) (ds ++ [d]) = s.qderiv d (s.qderivs (relativeQuaternion a b) ds) := by
    simp [Server.qderivs, List.foldl_append]
  rw [e]
  exact s.hasDerivAt_qeval hm st d _ h3.1 h3.2

/-- C73: the first derivative never leaves the tangent of the unit sphere. -/
theorem C73_tangent (st : KState J) (a b : F) (d : KVar J) :
    s.qeval asQ st (relativeQuaternion a b) ⬝ᵥ s.qeval asQ st (s.qderiv d (relativeQuaternion a b)) = 0 := by
  have z : ∀ X : Quat ℝ, X ⬝ᵥ s.qeval asQ st (QExp.zero : QExp J F) = 0 := fun X => by simp [Server.qeval]
  unfold relativeQuaternion
  split_ifs with h
  · cases d <;> exact z _
  · cases d with
    | position j =>
      show asQ (s.transform st.q a b).R ⬝ᵥ (((0.5 : ℝ) • (gExpression (asQ (s.transform st.q a b).R))ᵀ) *ᵥ (s.veval st (s.jacobianColumn a b j)).2) = 0
      rw [gExpression_entry]
      simp only [dotProduct, Fin.sum_univ_four, cons_val]
      ring
    | velocity j => exact z _
    | twist e => exact z _

/-- C73: what the first derivative says of the motion.  With the derivative of the quaternion, twice `G` of the quaternion gives back the angular velocity of
the frame `b` with respect to the frame `a`, in the frame `b`. -/
theorem C73_angular_velocity (hm : m.Regular) (st : KState J) (a b : F) (hab : a ≠ b) (hu : UnitQ (asQ (relativeRotation s st.q a b))) (j : J) :
    ∃ w : Vec, leftTrivializedDerivativeInverse (s.qeval asQ st (relativeQuaternion a b)) *ᵥ s.qeval asQ st (s.qderiv (.position j) (relativeQuaternion a b)) = w ∧
      ∀ i k, HasDerivAt (fun x => relativeRotation s (Function.update st.q j x) a b i k) ((relativeRotation s st.q a b * hat w) i k) (st.q j) := by
  refine ⟨(s.direction st.q a b j).2, ?_, fun i k => ?_⟩
  · rw [relativeQuaternion, if_neg hab]
    show leftTrivializedDerivativeInverse (asQ (s.transform st.q a b).R) *ᵥ
      (((0.5 : ℝ) • (gExpression (asQ (s.transform st.q a b).R))ᵀ) *ᵥ (s.veval st (s.jacobianColumn a b j)).2) = _
    rw [s.veval_jacobianColumn, relativeRotation_eq]
    generalize asQ (relativeRotation s st.q a b) = q at hu
    generalize (s.direction st.q a b j).2 = w
    rw [NLP.Kin.inverse_gMat, gExpression_entry]
    unfold UnitQ at hu
    funext i
    fin_cases i <;> simp [NLP.Kin.gMat, mulVec, dotProduct, Fin.sum_univ_four]
    · linear_combination w 0 * hu
    · linear_combination w 1 * hu
    · linear_combination w 2 * hu
  · have h := (hasTangent_iff.1 (s.hasTangent_transform hm st.q a b j)).1 i k
    rw [Function.update_eq_self] at h
    simpa only [relativeRotation_eq] using h

/-! ### The hypotheses are met: the turned frame seen from the base, with the joints at zero -/

noncomputable def restState : KState (Fin 2) := { sampleState with q := 0 }

theorem rest_rotation : relativeRotation sampleServer restState.q (some 0) none = quarterX.R := by
  have h0 : sampleTraversal.world 1 0 0 = 1 := sampleTraversal.world_root 1 0
  have h1 : (sampleTraversal.world 1 0 1).R = 1 := by
    rw [sampleTraversal.world_step 1 0 (show (1 : Fin 3) ≠ sampleTraversal.root by decide)]
    show (sampleTraversal.world 1 0 0 * _ : SE3).R = _
    rw [h0]
    have : (sampleTraversal.jointTransform 0 1).R = 1 := by
      simp [Traversal.jointTransform, sampleTraversal, sampleModel, sampleAxes, Axis.T, rotZ, transZ]
      ext i k; fin_cases i <;> fin_cases k <;> simp
    simp [this]
  show (sampleTraversal.world 1 0 0 * 1 : SE3).Rᵀ * (sampleTraversal.world 1 0 1 * quarterX : SE3).R = _
  rw [SE3.mul_R _ quarterX, h1, h0]
  simp

theorem rest_steady : Steady traceQuaternion (relativeRotation sampleServer restState.q (some 0) none) := by
  rw [rest_rotation]
  exact steady_trace (by simp [quarterX, Matrix.trace, Fin.sum_univ_three])

example := C73_derivatives sampleServer traceQuaternion sample_regular restState (some 0) none rest_steady [.position 0, .position 1] (.position 0)
example := C73_value sampleServer traceQuaternion restState (some 0) none
  (rest_steady.self (by rw [← relativeRotation_eq]; exact sampleServer.transform_mem _ _ _)).1
example := C73_angular_velocity sampleServer traceQuaternion sample_regular restState (some 0) none (by decide)
  (rest_steady.self (by rw [← relativeRotation_eq]; exact sampleServer.transform_mem _ _ _)).1.1 0

end Verif.Rigid
