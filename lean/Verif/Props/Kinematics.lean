import Verif.Lemmas.Kinematics2
import Verif.Lemmas.Joints
/- C57, C58: the derivatives of the velocities of the frames and of the momentum with respect to the positions of the joints. -/
namespace Verif.Rigid
open Matrix
variable {L J : Type} [DecidableEq L] [DecidableEq J] {m : Model L J} (t : Traversal m)

/-- The velocities given to the derivatives are the velocities of the frames: when the base moves with velocity `v` and the joints with
velocities `dq`, each frame moves with the velocity `frameVel`. -/
theorem C57_velocity (hm : m.Regular) {H : ℝ → SE3} {v : Spatial} {q : ℝ → J → ℝ} {dq : J → ℝ} {s : ℝ}
    (hH : HasTangent H v s) (hq : ∀ j, HasDerivAt (fun x => q x j) (dq j) s) (l : L) (offset : SE3) :
    HasTangent (fun x => t.world (H x) (q x) l * offset) (t.frameVel v (q s) dq l offset) s := by
  have := (t.hasTangent_world_motion hm hH hq l).mul (hasTangent_const offset s)
  simpa [Traversal.frameVel] using this

/-- C57: the column of the joint `j` is the derivative of the velocity of the frame with respect to the position of `j`, the velocity of
the base, those of the joints and the positions of the other joints being fixed. -/
theorem C57_frameVel_derivative (hm : m.Regular) (H : SE3) (v : Spatial) (q dq : J → ℝ) (l : L) (offset : SE3) (j : J) :
    HasDerivAt (fun x => t.frameVel v (Function.update q j x) dq l offset) (t.frameVelJointsDerivative H v q dq l offset j) (q j) :=
  t.hasDerivAt_frameVel hm H v q dq l offset j

/-- C57: the joints that are not between the base and the frame have a null column. -/
theorem C57_frameVel_null (H : SE3) (v : Spatial) (q dq : J → ℝ) (l : L) (offset : SE3) (j : J) (h : t.child j ∉ t.up l) :
    t.frameVelJointsDerivative H v q dq l offset j = 0 := by
  rw [t.frameVelJointsDerivative_eq, if_neg h]

/-- C57: along any motion of the joints (`dq`, the velocities of the state, are fixed), the derivative is the product of the matrix with
the direction of the motion. -/
theorem C57_frameVel_total [Fintype J] (hm : m.Regular) (H : SE3) (v : Spatial) (dq : J → ℝ) (l : L) (offset : SE3) {q : ℝ → J → ℝ} {w : J → ℝ} {s : ℝ}
    (hq : ∀ j, HasDerivAt (fun x => q x j) (w j) s) :
    HasDerivAt (fun x => t.frameVel v (q x) dq l offset) (∑ j, w j • t.frameVelJointsDerivative H v (q s) dq l offset j) s :=
  t.hasDerivAt_frameVel_motion hm H v dq l offset hq

/-- C57: the derivative does not depend on where the base is. -/
theorem C57_frameVel_base_free (H H' : SE3) (v : Spatial) (q dq : J → ℝ) (l : L) (offset : SE3) :
    t.frameVelJointsDerivative H v q dq l offset = t.frameVelJointsDerivative H' v q dq l offset := by
  funext j
  rw [t.frameVelJointsDerivative_eq, t.frameVelJointsDerivative_eq, t.rel_base H, t.rel_base H']

/-- C58: the column of the joint `j` is the derivative of the momentum, expressed in the base, with respect to the position of `j`. -/
theorem C58_momentum_derivative (hm : m.Regular) (H : SE3) (v : Spatial) (q dq : J → ℝ) (j : J) :
    HasDerivAt (fun x => t.momentum H v (Function.update q j x) dq) (t.momentumJointsDerivative H v q dq j) (q j) :=
  t.hasDerivAt_momentum hm H v q dq j

/-- C58: along any motion of the joints, the derivative of the momentum is the product of the matrix with the direction of the motion. -/
theorem C58_momentum_total [Fintype J] (hm : m.Regular) (H : SE3) (v : Spatial) (dq : J → ℝ) {q : ℝ → J → ℝ} {w : J → ℝ} {s : ℝ}
    (hq : ∀ j, HasDerivAt (fun x => q x j) (w j) s) :
    HasDerivAt (fun x => t.momentum H v (q x) dq) (∑ j, w j • t.momentumJointsDerivative H v (q s) dq j) s :=
  t.hasDerivAt_momentum_motion hm H v dq hq

/-! ### The hypotheses are met: revolute and prismatic joints, travelled forwards and backwards -/

/-- Joints with an axis anywhere. -/
inductive Axis | revolute (A B : SE3) | prismatic (A B : SE3)

noncomputable def Axis.T : Axis → ℝ → SE3
  | .revolute A B => fun x => A * rotZ x * B
  | .prismatic A B => fun x => A * transZ x * B

noncomputable def Axis.S : Axis → Spatial
  | .revolute _ B => B⁻¹.act (0, ![0, 0, 1])
  | .prismatic _ B => B⁻¹.act (![0, 0, 1], 0)

/-- Every model with revolute and prismatic joints is regular. -/
theorem regular_of_axes (m : Model L J) (axis : J → Axis) (hT : ∀ j, m.T j = (axis j).T) (hS : ∀ j, m.S j = (axis j).S) : m.Regular := by
  intro j x
  rw [hT, hS]
  cases axis j with
  | revolute A B => exact (hasTangent_rotZ x).between A B
  | prismatic A B => exact (hasTangent_transZ x).between A B

/-- Three links in a row: a revolute joint travelled forwards and a prismatic one travelled backwards. -/
noncomputable def sampleAxes : Fin 2 → Axis := ![.revolute (transZ 1) 1, .prismatic (rotZ 1) (transZ 2)]

noncomputable def sampleModel : Model (Fin 3) (Fin 2) where
  links := [0, 1, 2]
  nodup := by decide
  complete := by decide
  first := ![0, 2]
  second := ![1, 1]
  T := fun j => (sampleAxes j).T
  S := fun j => (sampleAxes j).S
  inertia := fun _ => ⟨1, ![1, 0, 0], 1⟩

theorem sample_regular : sampleModel.Regular := regular_of_axes sampleModel sampleAxes (fun _ => rfl) (fun _ => rfl)

noncomputable def sampleTraversal : Traversal sampleModel where
  root := 0
  parent := ![0, 0, 1]
  joint := ![0, 0, 1]
  child := ![1, 2]
  order := [0, 1, 2]
  depth := fun l => l.val
  depth_lt := by decide
  connects := by simp only [sampleModel]; decide
  child_joint := by decide
  child_ne := by decide
  joint_child := by decide
  order_nodup := by decide
  order_complete := by decide
  order_head := rfl
  order_parent := by
    intro a l b h
    rcases a with _ | ⟨x, _ | ⟨y, _ | ⟨z, a⟩⟩⟩ <;> simp at h
    · obtain ⟨rfl, _⟩ := h; simp
    · obtain ⟨rfl, rfl, _⟩ := h; simp
    · obtain ⟨rfl, rfl, rfl, _⟩ := h; simp

theorem sample_up : sampleTraversal.up 2 = [2, 1] := by
  rw [Traversal.up, dif_neg (by decide), Traversal.up, dif_neg (by decide), Traversal.up]; rfl

/-- The derivative is not null for the link at the end, with respect to the first joint. -/
theorem sample_not_null : sampleTraversal.frameVelJointsDerivative 1 (![1, 0, 0], 0) 0 0 2 1 0 ≠ 0 := by
  rw [Traversal.frameVelJointsDerivative_eq, if_pos (by rw [sample_up]; decide)]
  intro h
  have h2 := congrArg ((1 : SE3)⁻¹ * sampleTraversal.rel 1 0 2 (sampleTraversal.child 0))⁻¹.act h
  rw [SE3.act_inv_act, SE3.act_zero] at h2
  have h3 := congrFun (congrArg Prod.fst h2) 1
  have hv : sampleTraversal.vel (![1, 0, 0], 0) 0 0 1 = (![1, 0, 0], 0) := by
    rw [Traversal.vel, dif_neg (by decide), Traversal.vel,
      dif_pos (show sampleTraversal.parent 1 = sampleTraversal.root from rfl)]
    simp [Traversal.jointTransform, sampleTraversal, sampleModel, sampleAxes, Axis.T, SE3.act, rotZ, transZ]
    ext i; fin_cases i <;> simp [mulVec, dotProduct, Fin.sum_univ_three]
  have hc : sampleTraversal.child 0 = 1 := rfl
  rw [hc, hv] at h3
  simp [crossM, Traversal.subspace, sampleTraversal, sampleModel, sampleAxes, Axis.S, SE3.act, cross_apply] at h3

example := C57_frameVel_derivative sampleTraversal sample_regular 1 (![1, 0, 0], 0) 0 0 2 1 0
example := C58_momentum_derivative sampleTraversal sample_regular 1 (![1, 0, 0], 0) 0 0 0

end Verif.Rigid
