import Verif.Lemmas.SampleServer
import Verif.Lemmas.TreeExpr4
/- C60: the adjoint transforms between frames and their symbolic derivatives. -/
namespace Verif.Rigid
open Matrix
variable {L J F : Type} [DecidableEq L] [DecidableEq J] [DecidableEq F] {m : Model L J} (s : Server m F)

/-- C60: the value is the adjoint of the transform between the two frames, wherever the base is and whatever link the robot is described from. -/
theorem C60_value (t : Traversal m) (H : SE3) (q : J → ℝ) (a b : F) (x : Spatial) :
    s.eval q (.adj a b) x = ((t.world H q (s.frames.link a) * s.frames.offset a)⁻¹ * (t.world H q (s.frames.link b) * s.frames.offset b)).act x ∧
    s.eval q (.adjWrench a b) x = ((t.world H q (s.frames.link a) * s.frames.offset a)⁻¹ * (t.world H q (s.frames.link b) * s.frames.offset b)).actF x := by
  have h : s.transform q a b = (t.world H q (s.frames.link a) * s.frames.offset a)⁻¹ * (t.world H q (s.frames.link b) * s.frames.offset b) := by
    rw [s.transform_tree t, ← t.rel_base H]; simp [Traversal.rel, mul_assoc]
  rw [s.eval_adj, s.eval_adjWrench, h]; exact ⟨rfl, rfl⟩

/-- C60: for every expression made of adjoint transforms towards links (the base can be any frame), constants, products and sums, the
derivatives of every order with respect to any sequence of joints are right. -/
theorem C60_derivatives_partial (hm : m.Regular) (e : Op F) (he : e.LinkTargets s.frames) (q : J → ℝ) (js : List J) (j : J) (x : Spatial) :
    HasDerivAt (fun y => s.eval (Function.update q j y) (s.derivs e js) x) (s.eval q (s.derivs e (js ++ [j])) x) (q j) := by
  rw [s.derivs_snoc]
  refine (s.hasDerivAt_eval hm q j (s.derivs e js) (s.linkTargets_derivs js e he) (hasDerivAt_const (q j) x)).congr_deriv ?_
  rw [s.eval_zero q _ (s.linkTargets_derivs js e he), add_zero]

/-- C60: the rotations (the first block of the adjoint transforms) towards frames whose rotation on their link keeps the axes of the joints, their
products and sums: the derivatives of every order are right, and the order of the joints does not matter in the second derivatives of a rotation. -/
theorem C60_rotation_derivatives_partial (hm : m.Regular) (e : Op F) (he : s.RotTargets e) (q : J → ℝ) (js : List J) (j : J) (v : Vec) :
    HasDerivAt (fun y => (s.eval (Function.update q j y) (s.derivs e js) (v, 0)).1) (s.eval q (s.derivs e (js ++ [j])) (v, 0)).1 (q j) :=
  (s.hasDerivAt_rotations hm e he q js j v).fst

theorem C60_rotation_symmetric (hm : m.Regular) (q : J → ℝ) (a b : F) (hb : s.KeepsAxes b) (j k : J) (v : Vec) :
    s.eval q (s.derivs (.adj a b) [j, k]) (v, 0) = s.eval q (s.derivs (.adj a b) [k, j]) (v, 0) :=
  s.rot_second_symm hm q a b hb j k v

/-- C60: for every two frames, the derivative with respect to a joint that is not the one just above the target is right. -/
theorem C60_frames_other_joints (hm : m.Regular) (q : J → ℝ) (a b : F) (j : J) (hj : (s.tree (s.frames.link a)).child j ≠ s.frames.link b) (x : Spatial) :
    HasDerivAt (fun y => s.eval (Function.update q j y) (.adj a b) x) (s.eval q (s.deriv j (.adj a b)) x) (q j) ∧
    HasDerivAt (fun y => s.eval (Function.update q j y) (.adjWrench a b) x) (s.eval q (s.deriv j (.adjWrench a b)) x) (q j) := by
  refine ⟨(s.hasDerivAt_adj hm q a b j x).congr_deriv ?_, (s.hasDerivAt_adjWrench hm q a b j x).congr_deriv ?_⟩
  · show _ = s.eval q (s.adjDerivative a b j) x
    rw [s.eval_adjDerivative, if_neg hj]
  · show _ = s.eval q (s.adjWrenchDerivative a b j) x
    rw [s.eval_adjWrenchDerivative, if_neg hj]

/-- C60 (finding): the derivative with respect to the joint just above the target is right if and only if the placement of the target frame
on its link does not change the direction of the joint. -/
theorem C60_finding_last_joint (hm : m.Regular) (q : J → ℝ) (a b : F) (j : J) (hj : (s.tree (s.frames.link a)).child j = s.frames.link b) :
    (∀ x, HasDerivAt (fun y => s.eval (Function.update q j y) (.adj a b) x) (s.eval q (s.deriv j (.adj a b)) x) (q j)) ↔
      (s.frames.offset b)⁻¹.act ((s.tree (s.frames.link a)).subspace (s.frames.link b)) = (s.tree (s.frames.link a)).subspace (s.frames.link b) := by
  have hd := s.direction_above q a b j hj
  have he : ∀ x, s.eval q (s.deriv j (.adj a b)) x = (s.transform q a b).act (crossM ((s.tree (s.frames.link a)).subspace (s.frames.link b)) x) := by
    intro x; show s.eval q (s.adjDerivative a b j) x = _; rw [s.eval_adjDerivative, if_pos hj]
  rw [← hd]
  constructor
  · intro h
    refine crossM_injective fun x => ?_
    have := (s.hasDerivAt_adj hm q a b j x).unique (h x)
    rw [he] at this
    exact Server.act_injective _ this
  · intro h x
    rw [he, ← h]
    exact s.hasDerivAt_adj hm q a b j x

/-- C60 (finding): the derivative of the rotation between two frames (the first block of the adjoint transform) with respect to the joint
just above the target is right if and only if the rotation of the target frame on its link does not move the axis of the joint. -/
theorem C60_finding_rotation (hm : m.Regular) (q : J → ℝ) (a b : F) (j : J) (hj : (s.tree (s.frames.link a)).child j = s.frames.link b) :
    (∀ x : Vec, HasDerivAt (fun y => (s.eval (Function.update q j y) (.adj a b) (x, 0)).1) (s.eval q (s.deriv j (.adj a b)) (x, 0)).1 (q j)) ↔
      (s.frames.offset b).Rᵀ *ᵥ ((s.tree (s.frames.link a)).subspace (s.frames.link b)).2 = ((s.tree (s.frames.link a)).subspace (s.frames.link b)).2 := by
  have hd := s.direction_above q a b j hj
  have he : ∀ x : Vec, (s.eval q (s.deriv j (.adj a b)) (x, 0)).1 =
      (s.transform q a b).R *ᵥ (((s.tree (s.frames.link a)).subspace (s.frames.link b)).2 ⨯₃ x) := by
    intro x; show (s.eval q (s.adjDerivative a b j) (x, 0)).1 = _; rw [s.eval_adjDerivative, if_pos hj]; simp [SE3.act, crossM]
  have h2 : ∀ x : Vec, HasDerivAt (fun y => (s.eval (Function.update q j y) (.adj a b) (x, 0)).1)
      ((s.transform q a b).R *ᵥ ((s.direction q a b j).2 ⨯₃ x)) (q j) := by
    intro x
    have : HasDerivAt (fun y => (s.eval (Function.update q j y) (.adj a b) (x, 0)).1) _ (q j) := (s.hasDerivAt_adj hm q a b j (x, 0)).fst
    refine this.congr_deriv ?_
    simp [SE3.act, crossM]
  have h3 : (s.direction q a b j).2 = (s.frames.offset b).Rᵀ *ᵥ ((s.tree (s.frames.link a)).subspace (s.frames.link b)).2 := by
    rw [hd]; simp [SE3.act]
  rw [← h3]
  constructor
  · intro h
    refine cross_injective fun x => ?_
    have := (h2 x).unique (h x)
    rw [he] at this
    exact Server.mulVec_R_injective _ this
  · intro h x
    rw [he, ← h]
    exact h2 x

/-! ### The hypotheses are met -/

/-- A product of three transforms and a constant, between any frames and links. -/
example : HasDerivAt (fun y => sampleServer.eval (Function.update 0 1 y)
      (sampleServer.derivs (.mul (.adj none (some 2)) (.mul (.const (crossM (0, ![0, 0, 1]))) (.adj (some 1) (some 0)))) [0, 1]) (0, ![1, 0, 0]))
    (sampleServer.eval 0 (sampleServer.derivs (.mul (.adj none (some 2)) (.mul (.const (crossM (0, ![0, 0, 1]))) (.adj (some 1) (some 0)))) [0, 1, 1]) (0, ![1, 0, 0]))
    ((0 : Fin 2 → ℝ) 1) :=
  C60_derivatives_partial sampleServer sample_regular (.mul (.adj none (some 2)) (.mul (.const (crossM (0, ![0, 0, 1]))) (.adj (some 1) (some 0)))) ⟨⟨2, rfl⟩, smooth_crossM _, ⟨0, rfl⟩⟩ 0 [0, 1] 1 _

/-- The rotation of the turned frame in a link, then of another link. -/
example (q : Fin 2 → ℝ) := C60_rotation_derivatives_partial sampleServer sample_regular (.mul (.adj none (some 2)) (.adj (some 2) (some 1)))
  ⟨sampleServer.keepsAxes_ofLink 2, sampleServer.keepsAxes_ofLink 1⟩ q [0, 1] 1 ![1, 2, 3]

/-- The rotation of the frame turned of 90 degrees has a wrong derivative. -/
theorem C60_finding_example (q : Fin 2 → ℝ) :
    ¬ ∀ x : Vec, HasDerivAt (fun y => (sampleServer.eval (Function.update q 0 y) (.adj (some 0) none) (x, 0)).1)
      (sampleServer.eval q (sampleServer.deriv 0 (.adj (some 0) none)) (x, 0)).1 (q 0) := by
  rw [C60_finding_rotation sampleServer sample_regular q (some 0) none 0 rfl]
  intro h
  have h1 := congrFun h 2
  simp [sampleServer, quarterX, Traversal.subspace, sampleTraversal, sampleModel, sampleAxes, Axis.S, SE3.act, mulVec, dotProduct, Fin.sum_univ_three] at h1

end Verif.Rigid
