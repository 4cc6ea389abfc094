import Verif.Lemmas.Kinematics
/- Derivatives of the velocities of the frames and of the momentum. -/
namespace Verif.Rigid
open Matrix
variable {L J : Type} [DecidableEq L] [DecidableEq J]

theorem hasDerivAt_inertia (I : Inertia) {f : ℝ → Spatial} {f' : Spatial} {x : ℝ} (hf : HasDerivAt f f' x) :
    HasDerivAt (fun t => I.mul (f t)) (I.mul f') x := by
  have h1 : HasDerivAt (fun t => (f t).1) f'.1 x := hf.fst
  have h2 : HasDerivAt (fun t => (f t).2) f'.2 x := hf.snd
  have hm : HasDerivAt (fun t => I.mass • (f t).1) (I.mass • f'.1) x := h1.const_smul I.mass
  have hr := hasDerivAt_mulVec (R := fun _ => I.rotational) (R' := 0) (fun i k => hasDerivAt_const x _) h2
  have c1 := hasDerivAt_cross (hasDerivAt_const x (I.mass • I.com)) h1
  have c2 := hasDerivAt_cross (hasDerivAt_const x (I.mass • I.com)) h2
  refine ((hm.sub c2).prodMk (c1.add hr)).congr_deriv ?_
  ext1 <;> simp [Inertia.mul]

theorem hasDerivAt_list_sum {α : Type} (xs : List α) {f : α → ℝ → Spatial} {f' : α → Spatial} {x : ℝ}
    (h : ∀ a, HasDerivAt (f a) (f' a) x) : HasDerivAt (fun t => (xs.map fun a => f a t).sum) ((xs.map f').sum) x := by
  induction xs with
  | nil => exact hasDerivAt_const x (0 : Spatial)
  | cons a xs ih =>
    simp only [List.map_cons, List.sum_cons]
    exact (h a).add ih

namespace Traversal
variable {m : Model L J} (t : Traversal m)

theorem foldl_assign {xs : List L} (hr : ∀ l ∈ xs, l ≠ t.root) (F : J → Spatial) (D : J → Spatial) (j : J) :
    xs.foldl (fun D l => Function.update D (t.joint l) (F (t.joint l))) D j = if t.child j ∈ xs then F j else D j := by
  induction xs generalizing D with
  | nil => simp
  | cons l xs ih =>
    rw [List.foldl_cons, ih (fun l hl => hr l (List.mem_cons_of_mem _ hl))]
    by_cases hm : t.child j ∈ xs
    · simp [hm]
    · by_cases e : t.joint l = j
      · subst e
        simp [hm, t.child_joint l (hr l (List.mem_cons_self))]
      · have : t.child j ≠ l := fun e' => e (by rw [← e', t.joint_child])
        simp [hm, this, Function.update_of_ne (Ne.symm e)]

theorem foldl_add {xs : List L} (hr : ∀ l ∈ xs, l ≠ t.root) (hn : xs.Nodup) (F : J → Spatial) (D : J → Spatial) (j : J) :
    xs.foldl (fun D l => Function.update D (t.joint l) (D (t.joint l) + F (t.joint l))) D j = D j + if t.child j ∈ xs then F j else 0 := by
  induction xs generalizing D with
  | nil => simp
  | cons l xs ih =>
    rw [List.nodup_cons] at hn
    rw [List.foldl_cons, ih (fun l hl => hr l (List.mem_cons_of_mem _ hl)) hn.2]
    by_cases e : t.joint l = j
    · subst e
      simp [hn.1, t.child_joint l (hr l (List.mem_cons_self))]
    · have : t.child j ≠ l := fun e' => e (by rw [← e', t.joint_child])
      simp [this, Function.update_of_ne (Ne.symm e)]

theorem frameVelJointsDerivative_eq (H : SE3) (v : Spatial) (q dq : J → ℝ) (l : L) (offset : SE3) (j : J) :
    t.frameVelJointsDerivative H v q dq l offset j =
      if t.child j ∈ t.up l then (offset⁻¹ * t.rel H q l (t.child j)).act (crossM (t.subspace (t.child j)) (-t.vel v q dq (t.child j))) else 0 :=
  t.foldl_assign (fun _ h => t.ne_root_of_mem h)
    (fun j => (offset⁻¹ * t.rel H q l (t.child j)).act (crossM (t.subspace (t.child j)) (-t.vel v q dq (t.child j)))) _ j

theorem momentumJointsDerivative_eq (H : SE3) (v : Spatial) (q dq : J → ℝ) (j : J) :
    t.momentumJointsDerivative H v q dq j =
      (m.links.map fun l => if t.child j ∈ t.up l then t.linkMomentumDerivative H v q dq l j else 0).sum := by
  unfold momentumJointsDerivative
  have : ∀ (xs : List L) (D : J → Spatial), xs.foldl (fun D l => (t.up l).foldl (fun D visited =>
      Function.update D (t.joint visited) (D (t.joint visited) + t.linkMomentumDerivative H v q dq l (t.joint visited))) D) D j =
      D j + (xs.map fun l => if t.child j ∈ t.up l then t.linkMomentumDerivative H v q dq l j else 0).sum := by
    intro xs
    induction xs with
    | nil => simp
    | cons l xs ih =>
      intro D
      rw [List.foldl_cons, ih, t.foldl_add (fun _ h => t.ne_root_of_mem h) (t.up_nodup l), List.map_cons, List.sum_cons, add_assoc]
  simpa using this m.links (fun _ => 0)

theorem hasDerivAt_frameVel (hm : m.Regular) (H : SE3) (v : Spatial) (q dq : J → ℝ) (l : L) (offset : SE3) (j : J) :
    HasDerivAt (fun x => t.frameVel v (Function.update q j x) dq l offset) (t.frameVelJointsDerivative H v q dq l offset j) (q j) := by
  rw [frameVelJointsDerivative_eq]
  have h := t.hasDerivAt_vel hm H v q dq (t.child_ne j) l
  rw [t.joint_child] at h
  refine ((hasTangent_const offset⁻¹ (q j)).act h).congr_deriv ?_
  rw [zero_crossM, zero_add]
  split_ifs
  · rw [SE3.act_mul]
  · simp

theorem hasDerivAt_momentum (hm : m.Regular) (H : SE3) (v : Spatial) (q dq : J → ℝ) (j : J) :
    HasDerivAt (fun x => t.momentum H v (Function.update q j x) dq) (t.momentumJointsDerivative H v q dq j) (q j) := by
  rw [momentumJointsDerivative_eq]
  unfold momentum
  refine hasDerivAt_list_sum m.links
    (f := fun l x => (t.rel H (Function.update q j x) t.root l).actF ((m.inertia l).mul (t.vel v (Function.update q j x) dq l))) ?_
  intro l
  have h := t.hasDerivAt_vel hm H v q dq (t.child_ne j) l
  have hT := t.hasTangent_rel hm H q (t.child_ne j) t.root l
  rw [t.joint_child] at h hT
  refine (hT.actF (hasDerivAt_inertia (m.inertia l) h)).congr_deriv ?_
  simp only [Function.update_eq_self, up_root, List.not_mem_nil, if_false, sub_zero]
  split_ifs with hc
  · unfold linkMomentumDerivative motionVectorTimesChildVelocity
    simp only [SE3.actF_add]
    congr 1
    rw [← t.rel_mul H q t.root (t.child j) l, SE3.actF_mul, SE3.actF_crossF, ← SE3.act_mul, rel_mul, rel_self, SE3.act_one]
  · simp

/-! ### The meaning of the velocities -/

theorem _root_.Verif.Rigid.HasTangent.comp {T : ℝ → SE3} {s : Spatial} {f : ℝ → ℝ} {f' x : ℝ} (h : HasTangent T s (f x)) (hf : HasDerivAt f f' x) :
    HasTangent (fun t => T (f t)) (f' • s) x := by
  intro y
  refine ((h y).scomp x hf).congr_deriv ?_
  simp [mulVec_add, mulVec_smul, smul_add]

theorem hasTangent_joint_motion (hm : m.Regular) {q : ℝ → J → ℝ} {dq : J → ℝ} {s : ℝ} (hq : ∀ j, HasDerivAt (fun x => q x j) (dq j) s) (l : L) :
    HasTangent (fun x => t.jointTransform (q x) l) (dq (t.joint l) • t.subspace l) s := by
  have h := t.hasTangent_joint hm (q s) l
  have := HasTangent.comp (f := fun x => q x (t.joint l)) h (hq _)
  refine Eq.mp ?_ this
  congr 1
  funext x
  unfold jointTransform
  simp

theorem hasTangent_world_motion (hm : m.Regular) {H : ℝ → SE3} {v : Spatial} {q : ℝ → J → ℝ} {dq : J → ℝ} {s : ℝ}
    (hH : HasTangent H v s) (hq : ∀ j, HasDerivAt (fun x => q x j) (dq j) s) (l : L) :
    HasTangent (fun x => t.world (H x) (q x) l) (t.vel v (q s) dq l) s := by
  induction l using t.ind with
  | root => simpa only [world_root, vel_root] using hH
  | step l h ih =>
    simp only [t.world_step _ _ h, t.vel_step _ _ _ h]
    exact ih.mul (t.hasTangent_joint_motion hm hq l)

/-! ### Motions of all the joints -/

theorem up_sum (f : L → Spatial) (l : L) : ((t.up l).map f).sum = if l = t.root then 0 else f l + ((t.up (t.parent l)).map f).sum := by
  by_cases h : l = t.root
  · simp [h, up_root]
  · simp [t.up_cons h, h]

theorem sum_joints [Fintype J] (f : J → Spatial) (l : L) : ∑ j, (if t.child j ∈ t.up l then f j else 0) = ((t.up l).map fun c => f (t.joint c)).sum := by
  induction l using t.ind with
  | root => simp [up_root]
  | step l h ih =>
    rw [t.up_cons h, List.map_cons, List.sum_cons, ← ih, ← Finset.sum_erase_add _ _ (Finset.mem_univ (t.joint l)), t.child_joint l h,
      if_pos (List.mem_cons_self), add_comm]
    congr 1
    rw [← Finset.sum_erase_add (a := t.joint l) Finset.univ (fun j => if t.child j ∈ t.up (t.parent l) then f j else 0) (Finset.mem_univ _),
      t.child_joint l h, if_neg (t.not_mem_up_parent h), add_zero]
    refine Finset.sum_congr rfl fun j hj => ?_
    have : t.child j ≠ l := fun e => (Finset.mem_erase.1 hj).1 (by rw [← e, t.joint_child])
    simp [this]

theorem list_sum_map_act (T : SE3) (f : L → Spatial) (xs : List L) : (xs.map fun c => T.act (f c)).sum = T.act ((xs.map f).sum) := by
  induction xs with
  | nil => simp
  | cons x xs ih => simp [ih, SE3.act_add]

theorem vel_zero (H : SE3) (q w : J → ℝ) (l : L) :
    t.vel 0 q w l = ((t.up l).map fun c => w (t.joint c) • (t.rel H q l c).act (t.subspace c)).sum := by
  induction l using t.ind with
  | root => simp [up_root, vel_root]
  | step l h ih =>
    rw [t.vel_step _ _ _ h, ih, t.up_cons h, List.map_cons, List.sum_cons, rel_self, SE3.act_one, add_comm, ← list_sum_map_act, ← t.rel_parent' H q h]
    congr 1
    congr 1
    refine List.map_congr_left fun c _ => ?_
    rw [SE3.act_smul, ← SE3.act_mul, rel_mul]

theorem hasDerivAt_vel_motion (hm : m.Regular) (H : SE3) (v : Spatial) (dq : J → ℝ) {q : ℝ → J → ℝ} {w : J → ℝ} {s : ℝ}
    (hq : ∀ j, HasDerivAt (fun x => q x j) (w j) s) (l : L) :
    HasDerivAt (fun x => t.vel v (q x) dq l)
      ((t.up l).map fun c => w (t.joint c) • (t.rel H (q s) l c).act (crossM (t.subspace c) (-t.vel v (q s) dq c))).sum s := by
  induction l using t.ind with
  | root =>
    simp only [vel_root, up_root, List.map_nil, List.sum_nil]
    exact hasDerivAt_const _ _
  | step l h ih =>
    simp only [t.vel_step v _ dq h]
    have := ((t.hasTangent_joint_motion hm hq l).inv.act ih).add_const (dq (t.joint l) • t.subspace l)
    refine this.congr_deriv ?_
    rw [SE3.act_add, SE3.act_crossM, SE3.act_neg, SE3.act_inv_act, neg_crossM, t.up_cons h, List.map_cons, List.sum_cons, rel_self, SE3.act_one,
      ← list_sum_map_act, ← t.rel_parent' H (q s) h]
    congr 1
    · rw [t.vel_step v (q s) dq h, t.rel_parent' H (q s) h, crossM_neg, crossM_add, crossM_smul, crossM_self, smul_zero, add_zero, smul_neg]
      congr 1
      ext1 <;> simp [crossM]
    · congr 2
      funext c
      rw [SE3.act_smul, ← SE3.act_mul, rel_mul]

theorem hasDerivAt_frameVel_motion [Fintype J] (hm : m.Regular) (H : SE3) (v : Spatial) (dq : J → ℝ) (l : L) (offset : SE3)
    {q : ℝ → J → ℝ} {w : J → ℝ} {s : ℝ} (hq : ∀ j, HasDerivAt (fun x => q x j) (w j) s) :
    HasDerivAt (fun x => t.frameVel v (q x) dq l offset) (∑ j, w j • t.frameVelJointsDerivative H v (q s) dq l offset j) s := by
  refine ((hasTangent_const offset⁻¹ s).act (t.hasDerivAt_vel_motion hm H v dq hq l)).congr_deriv ?_
  simp only [frameVelJointsDerivative_eq, smul_ite, smul_zero]
  rw [t.sum_joints, zero_crossM, zero_add, ← list_sum_map_act]
  congr 1
  refine List.map_congr_left fun c hc => ?_
  rw [t.child_joint c (t.ne_root_of_mem hc), SE3.act_smul, ← SE3.act_mul]

theorem list_sum_map_finset [Fintype J] (f : L → J → Spatial) (xs : List L) : ∑ j, (xs.map fun l => f l j).sum = (xs.map fun l => ∑ j, f l j).sum := by
  induction xs with
  | nil => simp
  | cons x xs ih => simp [Finset.sum_add_distrib, ih]

theorem list_sum_smul (k : ℝ) (f : L → Spatial) (xs : List L) : k • (xs.map f).sum = (xs.map fun l => k • f l).sum := by
  induction xs with
  | nil => simp
  | cons x xs ih => simp [ih]

theorem sum_hom (F : Spatial → Spatial) (hF : ∀ a b, F (a + b) = F a + F b) (h0 : F 0 = 0) (f : L → Spatial) (xs : List L) :
    F ((xs.map f).sum) = (xs.map fun c => F (f c)).sum := by
  induction xs with
  | nil => simp [h0]
  | cons x xs ih => simp [ih, hF]

theorem list_sum_add (f g : L → Spatial) (xs : List L) : (xs.map f).sum + (xs.map g).sum = (xs.map fun c => f c + g c).sum := by
  induction xs with
  | nil => simp
  | cons x xs ih => simp only [List.map_cons, List.sum_cons, ← ih]; abel

theorem hasDerivAt_momentum_motion [Fintype J] (hm : m.Regular) (H : SE3) (v : Spatial) (dq : J → ℝ)
    {q : ℝ → J → ℝ} {w : J → ℝ} {s : ℝ} (hq : ∀ j, HasDerivAt (fun x => q x j) (w j) s) :
    HasDerivAt (fun x => t.momentum H v (q x) dq) (∑ j, w j • t.momentumJointsDerivative H v (q s) dq j) s := by
  simp only [momentumJointsDerivative_eq, list_sum_smul, list_sum_map_finset, smul_ite, smul_zero, t.sum_joints]
  unfold momentum
  refine hasDerivAt_list_sum m.links
    (f := fun l x => (t.rel H (q x) t.root l).actF ((m.inertia l).mul (t.vel v (q x) dq l))) ?_
  intro l
  have hT : HasTangent (fun x => t.rel H (q x) t.root l) (t.vel 0 (q s) w l) s := by
    have := (hasTangent_const H⁻¹ s).mul (t.hasTangent_world_motion hm (hasTangent_const H s) hq l)
    simpa [rel, world_root] using this
  refine (hT.actF (hasDerivAt_inertia (m.inertia l) (t.hasDerivAt_vel_motion hm H v dq hq l))).congr_deriv ?_
  have c1 : ∀ b, ∀ x y, crossF (x + y) b = crossF x b + crossF y b := by
    intro b x y; ext1 <;> simp [crossF]; abel
  have c2 : ∀ (k : ℝ) (a b), crossF (k • a) b = k • crossF a b := by
    intro k a b; ext1 <;> simp [crossF]
  have c3 : ∀ (I : Inertia) (k : ℝ) a, I.mul (k • a) = k • I.mul a := by
    intro I k a; ext1 <;> simp only [Inertia.mul, mulVec_smul, smul_sub, smul_add, map_smul, Prod.smul_fst, Prod.smul_snd]
    rw [smul_comm]
  rw [t.vel_zero H, sum_hom (fun x => crossF x _) (c1 _) (by simp), sum_hom (m.inertia l).mul (m.inertia l).mul_add (m.inertia l).mul_zero,
    list_sum_add, sum_hom (t.rel H (q s) t.root l).actF (SE3.actF_add _) (SE3.actF_zero _)]
  congr 1
  refine List.map_congr_left fun c hc => ?_
  unfold linkMomentumDerivative motionVectorTimesChildVelocity
  simp only [t.child_joint c (t.ne_root_of_mem hc), c2, c3, SE3.actF_add, SE3.actF_smul, smul_add]
  congr 2
  rw [← t.rel_mul H (q s) t.root c l, SE3.actF_mul, SE3.actF_crossF, ← SE3.act_mul, rel_mul, rel_self, SE3.act_one]

end Traversal
end Verif.Rigid
