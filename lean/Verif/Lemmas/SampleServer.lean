import Verif.Lemmas.TreeExpr3
import Verif.Props.Kinematics
/- A small robot for the examples: the three links of `sampleModel` and a frame turned of 90 degrees, one metre away, attached to the link in the middle. -/
namespace Verif.Rigid
open Matrix

noncomputable def sampleTraversal1 : Traversal sampleModel where
  root := 1
  parent := ![1, 1, 1]
  joint := ![0, 0, 1]
  child := ![0, 2]
  order := [1, 0, 2]
  depth := ![1, 0, 1]
  depth_lt := by decide
  connects := by simp only [sampleModel]; decide
  child_joint := by decide
  child_ne := by decide
  joint_child := by decide
  order_nodup := by decide
  order_complete := by decide
  order_head := rfl
  order_parent := by
    intro a l b h
    rcases a with _ | ⟨x, _ | ⟨y, _ | ⟨z, a⟩⟩⟩ <;> simp at h
    · obtain ⟨rfl, _⟩ := h; simp
    · obtain ⟨rfl, rfl, _⟩ := h; simp
    · obtain ⟨rfl, rfl, rfl, _⟩ := h; simp

noncomputable def sampleTraversal2 : Traversal sampleModel where
  root := 2
  parent := ![1, 2, 2]
  joint := ![0, 1, 0]
  child := ![0, 1]
  order := [2, 1, 0]
  depth := ![2, 1, 0]
  depth_lt := by decide
  connects := by simp only [sampleModel]; decide
  child_joint := by decide
  child_ne := by decide
  joint_child := by decide
  order_nodup := by decide
  order_complete := by decide
  order_head := rfl
  order_parent := by
    intro a l b h
    rcases a with _ | ⟨x, _ | ⟨y, _ | ⟨z, a⟩⟩⟩ <;> simp at h
    · obtain ⟨rfl, _⟩ := h; simp
    · obtain ⟨rfl, rfl, _⟩ := h; simp
    · obtain ⟨rfl, rfl, rfl, _⟩ := h; simp

/-- A quarter of a turn about `x`, one metre forward. -/
noncomputable def quarterX : SE3 where
  R := !![1, 0, 0; 0, 0, -1; 0, 1, 0]
  p := ![1, 0, 0]
  orthogonal := by ext i k; fin_cases i <;> fin_cases k <;> simp [mul_apply, Fin.sum_univ_three]
  det := by simp [det_fin_three]

noncomputable def sampleServer : Server sampleModel (Option (Fin 3)) where
  frames :=
    { link := fun f => f.getD 1
      offset := fun f => match f with | none => quarterX | some _ => 1
      ofLink := some
      link_ofLink := fun _ => rfl
      offset_ofLink := fun _ => rfl }
  base := 0
  tree := ![sampleTraversal, sampleTraversal1, sampleTraversal2]
  root_tree := by intro l; fin_cases l <;> rfl

end Verif.Rigid
