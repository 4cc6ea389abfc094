import Verif.Model.Kinematics
/-
The expressions of the adjoint transforms between frames and their symbolic derivatives, src/private/AdjointTransformExpression.cpp and
src/private/ExpressionsServer.cpp.  A 6x6 matrix is the map it does on spatial vectors; its column `k` is the image of the vector `k` of the
basis.  The memoization of the server is left out.
-/
namespace Verif.Rigid
variable {L J F : Type} [DecidableEq L] [DecidableEq J] [DecidableEq F]

/-- The frames of `iDynTree::Model`: the link they are attached to and where; each link is also a frame. -/
structure Frames (L F : Type) where
  link : F → L
  offset : F → SE3
  ofLink : L → F
  link_ofLink : ∀ l, link (ofLink l) = l
  offset_ofLink : ∀ l, offset (ofLink l) = 1

/-- What the expressions know: the frames, the floating base and, for each link, the traversal computed from there
(`model.computeFullTreeTraversal(traversal, baseLink)`). -/
structure Server (m : Model L J) (F : Type) where
  frames : Frames L F
  base : L
  tree : L → Traversal m
  root_tree : ∀ l, (tree l).root = l

namespace Server
variable {m : Model L J} (s : Server m F)

/-- The traversal of `KinDynComputations`, from the floating base. -/
abbrev kin : Traversal m := s.tree s.base

/-- `SharedKinDynComputations::getRelativeTransform(state, a, b)`. -/
noncomputable def transform (q : J → ℝ) (a b : F) : SE3 :=
  (s.frames.offset a)⁻¹ * s.kin.rel 1 q (s.frames.link a) (s.frames.link b) * s.frames.offset b

end Server

/-- The expressions of 6x6 matrices. -/
inductive Op (F : Type)
  | zero
  | const (M : Spatial → Spatial)
  | adj (a b : F)
  | adjWrench (a b : F)
  | mul (A B : Op F)
  | add (A B : Op F)
  | sub (A B : Op F)
  | neg (A : Op F)

namespace Server
variable {m : Model L J} (s : Server m F)

/-- The evaluation: AdjointTransformExpression.cpp:78-79, 83-93, 161-163, 170-182; ExpressionsServer.cpp:266-267, 304-306. -/
noncomputable def eval (q : J → ℝ) : Op F → Spatial → Spatial
  | .zero => fun _ => 0
  | .const M => M
  | .adj a b =>
    if a = b then id
    else if s.frames.link a = s.frames.link b then ((s.frames.offset a)⁻¹ * s.frames.offset b).act
    else (s.transform q a b).act
  | .adjWrench a b =>
    if a = b then id
    else if s.frames.link a = s.frames.link b then ((s.frames.offset a)⁻¹ * s.frames.offset b).actF
    else (s.transform q a b).actF
  | .mul A B => fun x => eval q A (eval q B x)
  | .add A B => fun x => eval q A x + eval q B x
  | .sub A B => fun x => eval q A x - eval q B x
  | .neg A => fun x => -eval q A x

/-- AdjointTransformExpression.cpp:200-290 (`AdjointTransformDerivativeEvaluable`) and ExpressionsServer.cpp:275-295: for each joint, the
matrix whose columns are the derivatives of the columns.  The joint just above the target link has its own formula (lines 245-254). -/
noncomputable def adjDerivative (a b : F) : J → Op F :=
  if a = b then fun _ => .zero
  else
    let t := s.tree (s.frames.link a)
    let targetLink := s.frames.link b
    if s.frames.link a = targetLink then fun _ => .zero
    else
      let D : J → Op F := Function.update (fun _ => .zero) (t.joint targetLink) (.mul (.adj a b) (.const (crossM (t.subspace targetLink))))
      (t.up (t.parent targetLink)).foldl (fun D visited =>
        Function.update D (t.joint visited)
          (.mul (.mul (.adj a (s.frames.ofLink visited)) (.const (crossM (t.subspace visited)))) (.adj (s.frames.ofLink visited) b))) D

/-- AdjointTransformExpression.cpp:333-423 (`AdjointTransformWrenchDerivativeEvaluable`) and ExpressionsServer.cpp:313-333. -/
noncomputable def adjWrenchDerivative (a b : F) : J → Op F :=
  if a = b then fun _ => .zero
  else
    let t := s.tree (s.frames.link a)
    let targetLink := s.frames.link b
    if s.frames.link a = targetLink then fun _ => .zero
    else
      let D : J → Op F := Function.update (fun _ => .zero) (t.joint targetLink) (.mul (.adjWrench a b) (.const (crossF (t.subspace targetLink))))
      (t.up (t.parent targetLink)).foldl (fun D visited =>
        Function.update D (t.joint visited)
          (.mul (.mul (.adjWrench a (s.frames.ofLink visited)) (.const (crossF (t.subspace visited)))) (.adjWrench (s.frames.ofLink visited) b))) D

/-- `getColumnDerivative(column, jointsPosition)`, the column of one joint: the rules of levi (Evaluables: constants, product, sum,
subtraction, change of sign) and the two evaluables above (AdjointTransformExpression.cpp:99-110, 188-199). -/
noncomputable def deriv (j : J) : Op F → Op F
  | .zero => .zero
  | .const _ => .zero
  | .adj a b => s.adjDerivative a b j
  | .adjWrench a b => s.adjWrenchDerivative a b j
  | .mul A B => .add (.mul (deriv j A) B) (.mul A (deriv j B))
  | .add A B => .add (deriv j A) (deriv j B)
  | .sub A B => .sub (deriv j A) (deriv j B)
  | .neg A => .neg (deriv j A)

/-- The derivative with respect to several joints, one after the other. -/
noncomputable def derivs (e : Op F) (js : List J) : Op F := js.foldl (fun e j => s.deriv j e) e

end Server
end Verif.Rigid
