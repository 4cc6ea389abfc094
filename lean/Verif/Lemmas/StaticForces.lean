import Verif.Model.StaticForces
import Verif.Lemmas.Kinematics2
/- The derivatives of the static forces. -/
namespace Verif.Rigid
open Matrix
variable {L J : Type} [DecidableEq L] [DecidableEq J]
namespace Traversal
variable {m : Model L J} (t : Traversal m)

/-- Sums over all the links. -/
noncomputable def total {M : Type} [AddCommMonoid M] (m : Model L J) (f : L → M) : M := ∑ l ∈ m.links.toFinset, f l

theorem links_sum {M : Type} [AddCommMonoid M] (f : L → M) : (m.links.map f).sum = total m f := by
  rw [total, List.sum_toFinset _ m.nodup]

theorem total_single {M : Type} [AddCommMonoid M] (l : L) (f : L → M) : total m (fun d => if d = l then f d else 0) = f l := by
  rw [total, Finset.sum_ite_eq', if_pos (by simp [m.complete])]

theorem total_add {M : Type} [AddCommMonoid M] (f g : L → M) : total m (fun d => f d + g d) = total m f + total m g := Finset.sum_add_distrib

theorem total_hom (F : Spatial → Spatial) (hF : ∀ a b, F (a + b) = F a + F b) (h0 : F 0 = 0) (f : L → Spatial) : F (total m f) = total m fun d => F (f d) := by
  rw [← links_sum, ← links_sum, sum_hom F hF h0]

theorem total_congr {M : Type} [AddCommMonoid M] {f g : L → M} (h : ∀ d, f d = g d) : total m f = total m g := by rw [funext h]

theorem total_zero {M : Type} [AddCommMonoid M] : total m (fun _ => (0 : M)) = 0 := Finset.sum_const_zero

theorem child_count {M : Type} [AddCommMonoid M] {l : L} (hl : l ≠ t.root) (e : L) (x : M) :
    total m (fun d => if (d ≠ t.root ∧ t.parent d = l) ∧ d ∈ t.up e then x else 0) = if l ∈ t.up e ∧ l ≠ e then x else 0 := by
  induction e using t.ind with
  | root => simp [up_root, total_zero]
  | step e h ih =>
    have key : ∀ d, (if (d ≠ t.root ∧ t.parent d = l) ∧ d ∈ t.up e then x else 0) =
        (if d = e then (if t.parent e = l then x else 0) else 0) +
          (if (d ≠ t.root ∧ t.parent d = l) ∧ d ∈ t.up (t.parent e) then x else 0) := by
      intro d
      by_cases hd : d = e
      · subst hd
        simp [t.mem_up_self h, h, t.not_mem_up_parent h]
      · simp [t.mem_up_iff h, hd]
    rw [total_congr key, total_add, ih, total_single e (fun _ => if t.parent e = l then x else 0)]
    have hne := t.not_mem_up_parent h
    by_cases hp : t.parent e = l
    · subst hp
      have : t.parent e ∈ t.up e := (t.mem_up_iff h).2 (Or.inr (t.mem_up_self hl))
      have h3 : t.parent e ≠ e := by intro e'; rw [e'] at hne; exact hne (t.mem_up_self h)
      simp [this, h3]
    · simp only [hp, if_false, zero_add, t.mem_up_iff h, Ne.symm hp, ne_eq, not_false_eq_true, and_true]
      by_cases he : l = e
      · subst he; simp [hne]
      · simp [he]

/-- What is below a link: the link and what is below its children. -/
theorem below_sum {l : L} (hl : l ≠ t.root) (F : L → Spatial) :
    total m (fun e => if l ∈ t.up e then F e else 0) =
      F l + total m fun d => if d ≠ t.root ∧ t.parent d = l then total m (fun e => if d ∈ t.up e then F e else 0) else 0 := by
  have h1 : ∀ d, (if d ≠ t.root ∧ t.parent d = l then total m (fun e => if d ∈ t.up e then F e else 0) else 0) =
      total m fun e => if (d ≠ t.root ∧ t.parent d = l) ∧ d ∈ t.up e then F e else 0 := by
    intro d
    by_cases h : d ≠ t.root ∧ t.parent d = l
    · simp [h]
    · simp only [if_neg h, h, false_and, if_false, total_zero]
  rw [total_congr h1]
  unfold total
  rw [Finset.sum_comm]
  change total m _ = F l + total m fun e => total m fun d => if (d ≠ t.root ∧ t.parent d = l) ∧ d ∈ t.up e then F e else 0
  simp only [t.child_count hl]
  have h2 : ∀ e, (if l ∈ t.up e then F e else 0) = (if e = l then F e else 0) + (if l ∈ t.up e ∧ l ≠ e then F e else 0) := by
    intro e
    by_cases he : e = l
    · subst he; simp [t.mem_up_self hl]
    · simp [he, Ne.symm he]
  rw [total_congr h2, total_add, total_single]

/-! ### The true derivatives -/

theorem acc_root (a : Spatial) (q : J → ℝ) : t.acc a q t.root = a := by rw [acc]; simp
theorem acc_step (a : Spatial) (q : J → ℝ) {l : L} (h : l ≠ t.root) : t.acc a q l = (t.jointTransform q l)⁻¹.act (t.acc a q (t.parent l)) := by
  rw [acc]; simp [h]
theorem acc_eq (a : Spatial) (q : J → ℝ) (l : L) : t.acc a q l = t.vel a q 0 l := by
  induction l using t.ind with
  | root => rw [acc_root, vel_root]
  | step l h ih => rw [t.acc_step a q h, t.vel_step a q 0 h, ih]; simp

theorem hasDerivAt_acc (hm : m.Regular) (H : SE3) (a : Spatial) (q : J → ℝ) (z : J) (l : L) :
    HasDerivAt (fun x => t.acc a (Function.update q z x) l)
      (if t.child z ∈ t.up l then -(t.rel H q l (t.child z)).act (t.motionVectorTimesChildAcceleration a q z) else 0) (q z) := by
  have h := t.hasDerivAt_vel hm H a q 0 (t.child_ne z) l
  rw [t.joint_child] at h
  simp only [acc_eq]
  refine h.congr_deriv ?_
  simp only [motionVectorTimesChildAcceleration, acc_eq, crossM_neg, SE3.act_neg]

/-- The part of a force due to the acceleration of one link. -/
noncomputable def inertialPart (H : SE3) (a : Spatial) (q : J → ℝ) (l : L) (z : J) : Spatial :=
  (m.inertia l).mul ((t.rel H q l (t.child z)).act (t.motionVectorTimesChildAcceleration a q z))

/-- The part of the derivative of the force of `l` due to the accelerations of what is below. -/
noncomputable def below (H : SE3) (a : Spatial) (q : J → ℝ) (l : L) (z : J) : Spatial :=
  total m fun d => if l ∈ t.up d then (t.rel H q l d).actF (t.inertialPart H a q d z) else 0

theorem staticForce_total (H : SE3) (a : Spatial) (ext : L → Spatial) (q : J → ℝ) (l : L) :
    t.staticForce H a ext q l = total m fun d => if l ∈ t.up d then (t.rel H q l d).actF ((m.inertia d).mul (t.acc a q d) - ext d) else 0 :=
  links_sum _

theorem hasDerivAt_total {f : L → ℝ → Spatial} {f' : L → Spatial} {x : ℝ} (h : ∀ l, HasDerivAt (f l) (f' l) x) :
    HasDerivAt (fun y => total m fun l => f l y) (total m f') x := by
  simp only [← links_sum]
  exact hasDerivAt_list_sum m.links h

/-- A joint above the link, or just above it. -/
theorem hasDerivAt_staticForce_above (hm : m.Regular) (H : SE3) (a : Spatial) (ext : L → Spatial) (q : J → ℝ) (z : J) (l : L) (hz : t.child z ∈ t.up l) :
    HasDerivAt (fun x => t.staticForce H a ext (Function.update q z x) l) (-t.below H a q l z) (q z) := by
  simp only [staticForce_total]
  have h := hasDerivAt_total (m := m)
    (f := fun d x => if l ∈ t.up d then (t.rel H (Function.update q z x) l d).actF ((m.inertia d).mul (t.acc a (Function.update q z x) d) - ext d) else 0)
    (f' := fun d => if l ∈ t.up d then -(t.rel H q l d).actF (t.inertialPart H a q d z) else 0) (x := q z) ?_
  · refine h.congr_deriv ?_
    rw [below, total_hom (fun x => -x) (fun a b => by rw [neg_add]) neg_zero]
    refine total_congr fun d => ?_
    split_ifs <;> simp
  · intro d
    by_cases hd : l ∈ t.up d
    · simp only [hd, if_true]
      have hT := t.hasTangent_rel hm H q (t.child_ne z) l d
      rw [t.joint_child] at hT
      simp only [hz, t.mem_up_trans hz hd, if_true, sub_self] at hT
      have hA := t.hasDerivAt_acc hm H a q z d
      simp only [t.mem_up_trans hz hd, if_true] at hA
      refine (hT.actF ((hasDerivAt_inertia (m.inertia d) hA).sub_const (ext d))).congr_deriv ?_
      rw [zero_crossF, zero_add, Function.update_eq_self, Inertia.mul_neg, SE3.actF_neg, inertialPart]
    · simp only [hd, if_false]
      exact hasDerivAt_const _ _

/-- A joint below the link. -/
theorem hasDerivAt_staticForce_below (hm : m.Regular) (H : SE3) (a : Spatial) (ext : L → Spatial) (q : J → ℝ) (z : J) (l : L)
    (hl : l ∈ t.up (t.child z)) (hne : l ≠ t.child z) :
    HasDerivAt (fun x => t.staticForce H a ext (Function.update q z x) l)
      ((t.rel H q l (t.child z)).actF (t.childStaticForceDerivative H a ext q z - t.below H a q (t.child z) z)) (q z) := by
  have hnz : t.child z ∉ t.up l := fun h => hne (t.mem_up_antisymm hl h)
  simp only [staticForce_total]
  have h := hasDerivAt_total (m := m)
    (f := fun d x => if l ∈ t.up d then (t.rel H (Function.update q z x) l d).actF ((m.inertia d).mul (t.acc a (Function.update q z x) d) - ext d) else 0)
    (f' := fun d => if t.child z ∈ t.up d then (t.rel H q l (t.child z)).actF (crossF (t.subspace (t.child z))
      ((t.rel H q (t.child z) d).actF ((m.inertia d).mul (t.acc a q d) - ext d)) - (t.rel H q (t.child z) d).actF (t.inertialPart H a q d z)) else 0)
    (x := q z) ?_
  · refine h.congr_deriv ?_
    rw [childStaticForceDerivative, staticForce_total, below,
      total_hom (fun x => crossF (t.subspace (t.child z)) x) (fun a b => crossF_add _ a b) (crossF_zero _), sub_eq_add_neg,
      total_hom (fun x => -x) (fun a b => by rw [neg_add]) neg_zero, ← total_add,
      total_hom (t.rel H q l (t.child z)).actF (SE3.actF_add _) (SE3.actF_zero _)]
    refine total_congr fun d => ?_
    split_ifs
    · rw [← sub_eq_add_neg]
    · simp
  · intro d
    have hT := t.hasTangent_rel hm H q (t.child_ne z) l d
    have hA := t.hasDerivAt_acc hm H a q z d
    rw [t.joint_child] at hT
    by_cases hz : t.child z ∈ t.up d
    · have hd : l ∈ t.up d := t.mem_up_trans hl hz
      simp only [hd, hz, hnz, if_true, if_false, sub_zero] at hT hA ⊢
      refine (hT.actF ((hasDerivAt_inertia (m.inertia d) hA).sub_const (ext d))).congr_deriv ?_
      simp only [Function.update_eq_self, SE3.actF_add, SE3.actF_sub, Inertia.mul_neg, SE3.actF_neg, inertialPart]
      rw [← sub_eq_add_neg]
      congr 1
      · rw [← t.rel_mul H q l (t.child z) d, SE3.actF_mul, SE3.actF_crossF, ← SE3.act_mul, rel_mul, rel_self, SE3.act_one, ← SE3.actF_sub]
      · rw [← SE3.actF_mul, rel_mul]
    · simp only [hz, hnz, if_false, sub_zero] at hT hA ⊢
      by_cases hd : l ∈ t.up d
      · simp only [hd, if_true]
        refine (hT.actF ((hasDerivAt_inertia (m.inertia d) hA).sub_const (ext d))).congr_deriv ?_
        simp
      · simp only [hd, if_false]
        exact hasDerivAt_const _ _

/-- A joint on another branch. -/
theorem hasDerivAt_staticForce_aside (hm : m.Regular) (H : SE3) (a : Spatial) (ext : L → Spatial) (q : J → ℝ) (z : J) (l : L)
    (hl : l ∉ t.up (t.child z)) (hz : t.child z ∉ t.up l) :
    HasDerivAt (fun x => t.staticForce H a ext (Function.update q z x) l) 0 (q z) := by
  simp only [staticForce_total]
  have h := hasDerivAt_total (m := m)
    (f := fun d x => if l ∈ t.up d then (t.rel H (Function.update q z x) l d).actF ((m.inertia d).mul (t.acc a (Function.update q z x) d) - ext d) else 0)
    (f' := fun _ => 0) (x := q z) ?_
  · exact h.congr_deriv total_zero
  · intro d
    have hT := t.hasTangent_rel hm H q (t.child_ne z) l d
    have hA := t.hasDerivAt_acc hm H a q z d
    rw [t.joint_child] at hT
    by_cases hd : l ∈ t.up d
    · have hzd : t.child z ∉ t.up d := by
        intro hzd
        rcases t.mem_up_total hd hzd with h | h
        · exact hl h
        · exact hz h
      simp only [hd, hz, hzd, if_true, if_false, sub_zero] at hT hA ⊢
      refine (hT.actF ((hasDerivAt_inertia (m.inertia d) hA).sub_const (ext d))).congr_deriv ?_
      simp
    · simp only [hd, if_false]
      exact hasDerivAt_const _ _

end Traversal
end Verif.Rigid
