import Verif.Lemmas.TreeExpr2
/- Lemmas: when the derivative of the adjoint transform of a frame is right. -/
namespace Verif.Rigid
open Matrix
variable {L J F : Type} [DecidableEq L] [DecidableEq J] [DecidableEq F]

theorem cross_injective {a b : Vec} (h : ∀ x : Vec, a ⨯₃ x = b ⨯₃ x) : a = b := by
  have h1 := h ![1, 0, 0]; have h2 := h ![0, 1, 0]
  have e : ∀ {u v : Vec}, u = v → ∀ i, u i = v i := by rintro u v rfl i; rfl
  have a1 := e h1 1; have a2 := e h1 2; have a3 := e h2 2
  simp [cross_apply] at a1 a2 a3
  ext i; fin_cases i
  · exact a3
  · exact a2
  · exact a1

namespace Server
variable {m : Model L J} (s : Server m F)

/-- The true derivative of an adjoint transform. -/
theorem hasDerivAt_adj (hm : m.Regular) (q : J → ℝ) (a b : F) (j : J) (x : Spatial) :
    HasDerivAt (fun y => s.eval (Function.update q j y) (.adj a b) x) ((s.transform q a b).act (crossM (s.direction q a b j) x)) (q j) := by
  simp only [eval_adj]
  refine ((s.hasTangent_transform hm q a b j).act (hasDerivAt_const (q j) x)).congr_deriv ?_
  simp

theorem hasDerivAt_adjWrench (hm : m.Regular) (q : J → ℝ) (a b : F) (j : J) (x : Spatial) :
    HasDerivAt (fun y => s.eval (Function.update q j y) (.adjWrench a b) x) ((s.transform q a b).actF (crossF (s.direction q a b j) x)) (q j) := by
  simp only [eval_adjWrench]
  refine ((s.hasTangent_transform hm q a b j).actF (hasDerivAt_const (q j) x)).congr_deriv ?_
  simp

/-- The direction of the joint just above the link of the frame. -/
theorem direction_above (q : J → ℝ) (a b : F) (j : J) (h : (s.tree (s.frames.link a)).child j = s.frames.link b) :
    s.direction q a b j = (s.frames.offset b)⁻¹.act ((s.tree (s.frames.link a)).subspace (s.frames.link b)) := by
  have hne : s.frames.link b ≠ (s.tree (s.frames.link a)).root := by rw [← h]; exact Traversal.child_ne _ j
  simp only [direction, h]
  rw [if_pos (Traversal.mem_up_self _ hne), transform_same _ _ _ _ (by rw [s.frames.link_ofLink]), s.frames.offset_ofLink, mul_one]

/-- The value is a matrix: it takes the null vector to the null vector. -/
theorem eval_zero (q : J → ℝ) (e : Op F) (he : e.LinkTargets s.frames) : s.eval q e 0 = 0 := by
  induction e with
  | zero => rfl
  | const M => obtain ⟨N, hN⟩ := he; simp [eval, hN]
  | adj a b => rw [s.eval_adj]; simp
  | adjWrench a b => rw [s.eval_adjWrench]; simp
  | mul A B ihA ihB => simp only [eval]; rw [ihB he.2, ihA he.1]
  | add A B ihA ihB => simp only [eval]; rw [ihB he.2, ihA he.1, add_zero]
  | sub A B ihA ihB => simp only [eval]; rw [ihB he.2, ihA he.1, sub_zero]
  | neg A ihA => simp only [eval]; rw [ihA he, neg_zero]

theorem act_injective (T : SE3) {a b : Spatial} (h : T.act a = T.act b) : a = b := by
  rw [← SE3.act_inv_act T a, h, SE3.act_inv_act]

theorem mulVec_R_injective (T : SE3) {a b : Vec} (h : T.R *ᵥ a = T.R *ᵥ b) : a = b := by
  have := congrArg (fun v => T.Rᵀ *ᵥ v) h
  simpa [mulVec_mulVec, T.orthogonal'] using this

end Server
end Verif.Rigid
