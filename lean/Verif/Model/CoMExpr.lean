import Verif.Model.MomentumExpr
/-
The position of the centre of mass in the base and its derivatives, src/private/CoMInBaseExpression.cpp.  `getCenterOfMassPosition` and
`getCenterOfMassJacobian` are iDynTree (external): they are described by their equations.
-/
namespace Verif.Rigid
open Matrix
variable {L J F : Type} [DecidableEq L] [DecidableEq J] [DecidableEq F] {m : Model L J}

/-- CoMInBaseExpression.cpp:54-59. -/
noncomputable def Model.totalMass (m : Model L J) : ℝ := m.links.foldl (fun M l => M + (m.inertia l).mass) 0

/-- `relativeMass`, CoMInBaseExpression.cpp:85. -/
noncomputable def Model.relativeMass (m : Model L J) (l : L) : ℝ := (m.inertia l).mass / m.totalMass

namespace Traversal
variable (t : Traversal m)

/-- `KinDynComputations::getCenterOfMassPosition`. -/
noncomputable def comPosition (H : SE3) (q : J → ℝ) : Vec := (m.links.map fun l => m.relativeMass l • (t.world H q l).point (m.inertia l).com).sum

/-- The direction of motion of a link when the joint `j` moves, in the link itself. -/
noncomputable def linkDirection (q : J → ℝ) (l : L) (j : J) : Spatial :=
  if t.child j ∈ t.up l then (t.rel 1 q l (t.child j)).act (t.subspace (t.child j)) else 0

/-- The columns of the joints of `KinDynComputations::getCenterOfMassJacobian`: the velocity of the centre of mass, in the world. -/
noncomputable def comJacobian (H : SE3) (q : J → ℝ) (j : J) : Vec :=
  (m.links.map fun l => m.relativeMass l • (t.world H q l).R *ᵥ ((t.linkDirection q l j).1 + (t.linkDirection q l j).2 ⨯₃ (m.inertia l).com)).sum

end Traversal

namespace Server
variable (s : Server m F)

/-- CoMInBaseExpression.cpp:290-309: `H` is the transform of the base. -/
noncomputable def comInBase (H : SE3) (q : J → ℝ) : Vec := H⁻¹.point (s.kin.comPosition H q)

/-- CoMInBaseExpression.cpp:229-244. -/
noncomputable def comInBaseJacobian (H : SE3) (q : J → ℝ) (j : J) : Vec := H⁻¹.R *ᵥ s.kin.comJacobian H q j

/-- `Vertcat(top rows, Null(3,1))`. -/
def topRows (x : Spatial) : Spatial := (x.1, 0)

/-- `constantPart`, CoMInBaseExpression.cpp:97-103. -/
noncomputable def comConstantPart (c l : L) : VExp J F :=
  .add (.app (.mul (.const (crossM (s.kin.subspace c))) (.adj (s.frames.ofLink c) (s.frames.ofLink l))) (.const ((m.inertia l).com, 0)))
    (.app (.mul (.adj (s.frames.ofLink c) (s.frames.ofLink l)) (.const topRows)) (.app (.adj (s.frames.ofLink l) (s.frames.ofLink c)) (.const (s.kin.subspace c))))

/-- What the loop of CoMInBaseExpression.cpp:78-124 knows.  The columns have three rows in the code (`block(0,0,3,6)`): here the other three
are kept until the evaluation. -/
structure HessianLoop (J F : Type) where
  cols : J → VExp J F
  others : List J

/-- One link, CoMInBaseExpression.cpp:78-124. -/
noncomputable def comHessianLink (column : J) (l : L) (D : HessianLoop J F) : HessianLoop J F :=
  let c := s.kin.child column
  let below := (s.kin.up l).takeWhile fun visited => s.kin.joint visited ≠ column
  let above := (s.kin.up l).dropWhile fun visited => s.kin.joint visited ≠ column
  if above = [] then D
  else
    { cols := above.foldl (fun E visited =>
        let j := s.kin.joint visited
        let k := s.kin.child j
        Function.update E j (.add (E j)
          (.app (.mul (.mul (.mul (.const (fun x => m.relativeMass l • x)) (.adj s.baseFrame (s.frames.ofLink k))) (.const (crossM (s.kin.subspace k))))
            (.adj (s.frames.ofLink k) (s.frames.ofLink c))) (s.comConstantPart c l)))) D.cols
      others := D.others ++ below.map s.kin.joint }

/-- The loop on all the links. -/
noncomputable def comHessianLoop (column : J) : HessianLoop J F :=
  m.links.foldl (fun D l => s.comHessianLink column l D) ⟨fun _ => .zero, []⟩

/-- The second derivative, CoMInBaseExpression.cpp:38-135: the columns of the joints below are taken from the matrices of those joints
(line 129); `fuel` bounds the depth of this recursion. -/
noncomputable def comHessianCols (fuel : ℕ) (column : J) : J → VExp J F := fun j =>
  match fuel with
  | 0 => (s.comHessianLoop column).cols j
  | fuel + 1 => if j ∈ (s.comHessianLoop column).others then comHessianCols fuel j column else (s.comHessianLoop column).cols j

/-- `CoMAdjointTransformWrench`, CoMInBaseExpression.cpp:354-360, applied to a momentum: `R` is the rotation of the base, `c` the position of
the centre of mass in the base. -/
def comAdjointTransformWrench (R : Matrix (Fin 3) (Fin 3) ℝ) (c : Vec) (h : Spatial) : Spatial :=
  (R *ᵥ h.1, R *ᵥ ((-c) ⨯₃ h.1) + R *ᵥ h.2)

end Server
end Verif.Rigid
