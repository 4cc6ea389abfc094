import Verif.Lemmas.StaticForces2
import Verif.Props.Kinematics
/- C59: the derivatives of the static torques with respect to the positions of the joints. -/
namespace Verif.Rigid
open Matrix
variable {L J : Type} [DecidableEq L] [DecidableEq J] {m : Model L J} (t : Traversal m)

/-- Specification: the energy of the weight, the sum over the links of minus the mass by the gravity by the position of the centre of mass. -/
noncomputable def weightEnergy (H : SE3) (gravity : Vec) (q : J → ℝ) : ℝ :=
  (m.links.map fun l => -((m.inertia l).mass * (gravity ⬝ᵥ (t.world H q l).point (m.inertia l).com))).sum

/-- C59: the element `(j, z)` is the derivative of the static torque of the joint `j` with respect to the position of the joint `z`, the
wrenches on the links (in the frames of the links), the base and the other joints being fixed. -/
theorem C59_torque_derivative (hm : m.Regular) (H : SE3) (gravity : Vec) (ext : L → Spatial) (q : J → ℝ) (j z : J) :
    HasDerivAt (fun x => t.staticTorque H (Traversal.baseAcc H gravity) ext (Function.update q z x) j)
      (t.staticTorquesDerivative H (Traversal.baseAcc H gravity) ext q j z) (q z) :=
  t.hasDerivAt_staticTorque hm H _ ext q j z

/-- C59: the static forces satisfy the recursion of the dynamic phase of the Newton-Euler algorithm. -/
theorem C59_newton_euler (H : SE3) (a : Spatial) (ext : L → Spatial) (q : J → ℝ) {l : L} (hl : l ≠ t.root) :
    t.staticForce H a ext q l = (m.inertia l).mul (t.acc a q l) - ext l +
      (m.links.map fun d => if d ≠ t.root ∧ t.parent d = l then (t.jointTransform q d).actF (t.staticForce H a ext q d) else 0).sum :=
  t.newton_euler H a ext q hl

namespace Traversal

theorem rotation_world (H : SE3) (q : J → ℝ) (gravity : Vec) (l : L) : t.acc (baseAcc H gravity) q l = (-((t.world H q l).Rᵀ *ᵥ gravity), 0) := by
  induction l using t.ind with
  | root => rw [acc_root, world_root, baseAcc]
  | step l h ih =>
    rw [t.acc_step _ _ h, ih, t.world_step H q h]
    ext1
    · simp [SE3.act, mulVec_neg]
    · simp [SE3.act]

theorem list_sum_real (f : L → ℝ → ℝ) (f' : L → ℝ) {x : ℝ} (xs : List L) (h : ∀ l, HasDerivAt (f l) (f' l) x) :
    HasDerivAt (fun y => (xs.map fun l => f l y).sum) (xs.map f').sum x := by
  induction xs with
  | nil => exact hasDerivAt_const x (0 : ℝ)
  | cons a xs ih =>
    simp only [List.map_cons, List.sum_cons]
    exact (h a).add ih

theorem power_total (s : Spatial) (f : L → Spatial) : power s (total m f) = total m fun d => power s (f d) := by
  rw [← links_sum, ← links_sum]
  induction m.links with
  | nil => simp [power]
  | cons x xs ih => rw [List.map_cons, List.sum_cons, power_add, ih, List.map_cons, List.sum_cons]

theorem vel_single (H : SE3) (q : J → ℝ) (j : J) (l : L) :
    t.vel 0 q (Pi.single j 1) l = if t.child j ∈ t.up l then (t.rel H q l (t.child j)).act (t.subspace (t.child j)) else 0 := by
  induction l using t.ind with
  | root => simp [vel_root, up_root]
  | step l h ih =>
    rw [t.vel_step _ _ _ h, ih]
    by_cases e : t.joint l = j
    · subst e
      rw [t.child_joint l h]
      simp [t.mem_up_self h, t.not_mem_up_parent h, rel_self]
    · have hc : t.child j ≠ l := fun e' => e (by rw [← e', t.joint_child])
      simp only [t.mem_up_iff h, hc, false_or, Pi.single_apply, e, if_false, zero_smul, add_zero]
      split_ifs
      · rw [← t.rel_parent' H q h, ← SE3.act_mul, rel_mul]
      · simp

end Traversal
open Traversal

/-- C59: the principle of virtual works.  The derivative of the energy of the weight with respect to the position of a joint is the work of
the static torque of that joint and of the external wrenches, for the velocity of the links due to that joint alone. -/
theorem C59_virtual_work (hm : m.Regular) (H : SE3) (gravity : Vec) (ext : L → Spatial) (q : J → ℝ) (j : J) :
    HasDerivAt (fun x => weightEnergy t H gravity (Function.update q j x))
      (t.staticTorque H (baseAcc H gravity) ext q j + (m.links.map fun l => power (t.vel 0 q (Pi.single j 1) l) (ext l)).sum) (q j) := by
  unfold weightEnergy
  have h := list_sum_real (x := q j) (fun l x => -((m.inertia l).mass * (gravity ⬝ᵥ (t.world H (Function.update q j x) l).point (m.inertia l).com)))
    (fun l => power (t.vel 0 q (Pi.single j 1) l) ((m.inertia l).mul (t.acc (baseAcc H gravity) q l))) m.links ?_
  · refine h.congr_deriv ?_
    rw [staticTorque, staticForce_total, power_total, links_sum, links_sum, ← total_add]
    refine total_congr fun l => ?_
    rw [t.vel_single H]
    split_ifs
    · have := SE3.power_act (t.rel H q l (t.child j)) (t.subspace (t.child j))
        ((t.rel H q (t.child j) l).actF ((m.inertia l).mul (t.acc (baseAcc H gravity) q l) - ext l))
      rw [← SE3.actF_mul, t.rel_mul, t.rel_self, SE3.actF_one] at this
      rw [← this, ← power_add, sub_add_cancel]
    · simp [power]
  · intro l
    have hT := t.hasTangent_world hm H q (t.child_ne j) l
    rw [t.joint_child, ← t.vel_single H] at hT
    have hp := hT (m.inertia l).com
    rw [hasDerivAt_pi] at hp
    rw [t.rotation_world H q]
    have := (((((hp 0).const_mul (gravity 0)).add ((hp 1).const_mul (gravity 1))).add ((hp 2).const_mul (gravity 2))).const_mul (m.inertia l).mass).neg
    simp only [dotProduct, Fin.sum_univ_three]
    refine this.congr_deriv ?_
    dsimp only
    rw [Function.update_eq_self]
    generalize t.world H q l = W
    generalize t.vel 0 q (Pi.single j 1) l = s
    simp [power, Inertia.mul, mulVec, vecHead, vecTail, dotProduct, Fin.sum_univ_three, cross_apply]
    ring

/-- C59: without external wrenches the torque is the derivative of the energy of the weight. -/
theorem C59_torque_of_weight (hm : m.Regular) (H : SE3) (gravity : Vec) (q : J → ℝ) (j : J) :
    HasDerivAt (fun x => weightEnergy t H gravity (Function.update q j x)) (t.staticTorque H (baseAcc H gravity) 0 q j) (q j) := by
  have h := C59_virtual_work t hm H gravity 0 q j
  refine h.congr_deriv ?_
  rw [links_sum, total_congr (g := fun _ => 0) (fun l => by simp [power]), total_zero, add_zero]

example := C59_torque_derivative sampleTraversal sample_regular 1 ![0, 0, -9.81] (fun _ => (![1, 0, 0], 0)) 0 0 1

end Verif.Rigid
