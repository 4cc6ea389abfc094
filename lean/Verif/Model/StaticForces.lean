import Verif.Model.Kinematics
/-
The static forces and their derivatives, src/private/SharedKinDynComputations.cpp.  `ForwardAccKinematics` and `RNEADynamicPhase` with zero
velocities are iDynTree (external): they are described by their equations (`C59_newton_euler` gives the recursive form).
-/
namespace Verif.Rigid
open Matrix
variable {L J : Type} [DecidableEq L] [DecidableEq J]
namespace Traversal
variable {m : Model L J} (t : Traversal m)

/-- `ForwardAccKinematics` with zero velocities and joint accelerations: the proper acceleration of each link, `a` the one of the base. -/
noncomputable def acc (a : Spatial) (q : J → ℝ) (l : L) : Spatial :=
  if h : l = t.root then a else (t.jointTransform q l)⁻¹.act (acc a q (t.parent l))
termination_by t.depth l
decreasing_by exact t.depth_lt l h

/-- SharedKinDynComputations.cpp:165-171: the proper acceleration of the base, opposite to the gravity seen from the base. -/
noncomputable def baseAcc (H : SE3) (gravity : Vec) : Spatial := (-(H.Rᵀ *ᵥ gravity), 0)

/-- `linkStaticWrenches(l)`, from `RNEADynamicPhase` with zero velocities: what the links from `l` on need. -/
noncomputable def staticForce (H : SE3) (a : Spatial) (ext : L → Spatial) (q : J → ℝ) (l : L) : Spatial :=
  (m.links.map fun d => if l ∈ t.up d then (t.rel H q l d).actF ((m.inertia d).mul (t.acc a q d) - ext d) else 0).sum

/-- `generalizedStaticTorques.jointTorques()(j)`. -/
noncomputable def staticTorque (H : SE3) (a : Spatial) (ext : L → Spatial) (q : J → ℝ) (j : J) : ℝ :=
  power (t.subspace (t.child j)) (t.staticForce H a ext q (t.child j))

/-- SharedKinDynComputations.cpp:127-152 (`computeChildStaticForceDerivative`): `childStaticForceDerivative`. -/
noncomputable def childStaticForceDerivative (H : SE3) (a : Spatial) (ext : L → Spatial) (q : J → ℝ) (j : J) : Spatial :=
  crossF (t.subspace (t.child j)) (t.staticForce H a ext q (t.child j))

/-- SharedKinDynComputations.cpp:145-148: `motionVectorTimesChildAcceleration`. -/
noncomputable def motionVectorTimesChildAcceleration (a : Spatial) (q : J → ℝ) (j : J) : Spatial :=
  crossM (t.subspace (t.child j)) (t.acc a q (t.child j))

/-- `childrenForceDerivatives[l][z] = value`. -/
def setAt (D : L → J → Spatial) (l : L) (z : J) (value : Spatial) : L → J → Spatial := Function.update D l (Function.update (D l) z value)

/-- SharedKinDynComputations.cpp:712-722: the body of `while (visitedJoint)`. -/
noncomputable def visitJoint (H : SE3) (a : Spatial) (q : J → ℝ) (l : L) (D : L → J → Spatial) (visited : L) : L → J → Spatial :=
  let z := t.joint visited
  let D := setAt D l z (D l z - (m.inertia l).mul ((t.rel H q l (t.child z)).act (t.motionVectorTimesChildAcceleration a q z)))
  if t.parent l ≠ t.root then setAt D (t.parent l) z (D (t.parent l) z + (t.rel H q (t.parent l) l).actF (D l z)) else D

/-- SharedKinDynComputations.cpp:692-738: one step of the loop on the links, from the last to the first after the base. -/
noncomputable def visitLink (H : SE3) (a : Spatial) (ext : L → Spatial) (q : J → ℝ) (D : L → J → Spatial) (l : L) : L → J → Spatial :=
  let j := t.joint l
  let D := setAt D l j (D l j + t.childStaticForceDerivative H a ext q j)
  let D := (t.up l).foldl (t.visitJoint H a q l) D
  if t.parent l ≠ t.root then
    (t.up (t.parent (t.parent l))).foldl (fun D anc => setAt D anc j (D anc j + (t.rel H q anc l).actF (D l j))) D
  else D

/-- SharedKinDynComputations.cpp:666-738: `childrenForceDerivatives` at the end of the loop (zeroed at line 150). -/
noncomputable def childrenForceDerivatives (H : SE3) (a : Spatial) (ext : L → Spatial) (q : J → ℝ) : L → J → Spatial :=
  t.order.tail.reverse.foldl (t.visitLink H a ext q) (fun _ _ => 0)

/-- SharedKinDynComputations.cpp:740-755: the element `(j, z)` of the result of `getStaticForcesJointsDerivative`. -/
noncomputable def staticTorquesDerivative (H : SE3) (a : Spatial) (ext : L → Spatial) (q : J → ℝ) (j z : J) : ℝ :=
  power (t.subspace (t.child j)) (t.childrenForceDerivatives H a ext q (t.child j) z)

end Traversal
end Verif.Rigid
