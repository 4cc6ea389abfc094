import Verif.Model.TreeExpr
/- Specification for the expressions of the transforms. -/
namespace Verif.Rigid
variable {L J F : Type} [DecidableEq L] [DecidableEq J] [DecidableEq F]

/-- A constant of an expression is a matrix, so it is linear and continuous. -/
def Smooth (M : Spatial → Spatial) : Prop := ∃ N : Spatial →L[ℝ] Spatial, ∀ x, M x = N x

/-- The target of each adjoint transform is a link (the base can be any frame). -/
def Op.LinkTargets (fr : Frames L F) : Op F → Prop
  | .zero => True
  | .const M => Smooth M
  | .adj _ b => ∃ l, b = fr.ofLink l
  | .adjWrench _ b => ∃ l, b = fr.ofLink l
  | .mul A B => A.LinkTargets fr ∧ B.LinkTargets fr
  | .add A B => A.LinkTargets fr ∧ B.LinkTargets fr
  | .sub A B => A.LinkTargets fr ∧ B.LinkTargets fr
  | .neg A => A.LinkTargets fr

namespace Server
open Matrix
variable {m : Model L J} (s : Server m F)

/-- The rotation of the frame on its link does not move the axes of the joints of the link. -/
def KeepsAxes (b : F) : Prop :=
  ∀ a : F, s.frames.link a ≠ s.frames.link b →
    (s.frames.offset b).Rᵀ *ᵥ ((s.tree (s.frames.link a)).subspace (s.frames.link b)).2 = ((s.tree (s.frames.link a)).subspace (s.frames.link b)).2

/-- The expressions whose first block is made of rotations. -/
def RotTargets : Op F → Prop
  | .zero => True
  | .const M => Smooth M ∧ ∀ v : Vec, (M (v, 0)).2 = 0
  | .adj _ b => s.KeepsAxes b
  | .adjWrench _ _ => False
  | .mul A B => RotTargets A ∧ RotTargets B
  | .add A B => RotTargets A ∧ RotTargets B
  | .sub A B => RotTargets A ∧ RotTargets B
  | .neg A => RotTargets A

end Server
end Verif.Rigid
