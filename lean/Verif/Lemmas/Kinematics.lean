import Verif.Spec.Kinematics
import Verif.Lemmas.Rigid
/- Forward kinematics and its derivatives. -/
namespace Verif.Rigid
open Matrix
variable {L J : Type} [DecidableEq L] [DecidableEq J]

/-- The direction of a joint does not change when seen from the other link. -/
theorem hasTangent_const_dir {T : ℝ → SE3} {s : Spatial} (h : ∀ x, HasTangent T s x) (x y : ℝ) : (T x).act s = (T y).act s := by
  have hd : ∀ z, HasDerivAt (fun t => (T t).act s) 0 z := by
    intro z
    exact ((h z).act (hasDerivAt_const z s)).congr_deriv (by simp)
  exact is_const_of_deriv_eq_zero (fun z => (hd z).differentiableAt) (fun z => (hd z).deriv) x y

namespace Traversal
variable {m : Model L J} (t : Traversal m)

theorem up_root : t.up t.root = [] := by rw [up]; simp
theorem up_cons {l : L} (h : l ≠ t.root) : t.up l = l :: t.up (t.parent l) := by rw [up]; simp [h]

/-- Induction from the root. -/
theorem ind {P : L → Prop} (root : P t.root) (step : ∀ l, l ≠ t.root → P (t.parent l) → P l) (l : L) : P l := by
  have : ∀ n l, t.depth l ≤ n → P l := by
    intro n
    induction n with
    | zero =>
      intro l hl
      by_cases h : l = t.root
      · exact h ▸ root
      · have := t.depth_lt l h; omega
    | succ n ih =>
      intro l hl
      by_cases h : l = t.root
      · exact h ▸ root
      · exact step l h (ih _ (by have := t.depth_lt l h; omega))
  exact this _ l le_rfl

theorem mem_up_self {l : L} (h : l ≠ t.root) : l ∈ t.up l := by rw [t.up_cons h]; simp
theorem not_mem_up_root {l : L} : t.root ∉ t.up l := by
  induction l using t.ind with
  | root => simp [up_root]
  | step l h ih => rw [t.up_cons h]; simp [ih, Ne.symm h]
theorem ne_root_of_mem {c l : L} (h : c ∈ t.up l) : c ≠ t.root := fun e => t.not_mem_up_root (e ▸ h)
theorem depth_of_mem {c l : L} (h : c ∈ t.up l) : t.depth c ≤ t.depth l := by
  induction l using t.ind with
  | root => simp [up_root] at h
  | step l hl ih =>
    rw [t.up_cons hl, List.mem_cons] at h
    rcases h with rfl | h
    · exact le_rfl
    · have := ih h; have := t.depth_lt l hl; omega
theorem not_mem_up_parent {l : L} (h : l ≠ t.root) : l ∉ t.up (t.parent l) := by
  intro hm
  have := t.depth_of_mem hm; have := t.depth_lt l h; omega
theorem up_nodup (l : L) : (t.up l).Nodup := by
  induction l using t.ind with
  | root => simp [up_root]
  | step l h ih => rw [t.up_cons h, List.nodup_cons]; exact ⟨t.not_mem_up_parent h, ih⟩
theorem mem_up_iff {c l : L} (h : l ≠ t.root) : c ∈ t.up l ↔ c = l ∨ c ∈ t.up (t.parent l) := by rw [t.up_cons h, List.mem_cons]
theorem mem_up_trans {a b c : L} (hab : a ∈ t.up b) (hbc : b ∈ t.up c) : a ∈ t.up c := by
  induction c using t.ind with
  | root => simp [up_root] at hbc
  | step c h ih =>
    rw [t.mem_up_iff h] at hbc ⊢
    rcases hbc with rfl | hbc
    · exact (t.mem_up_iff h).1 hab
    · exact Or.inr (ih hbc)
theorem mem_up_antisymm {a b : L} (hab : a ∈ t.up b) (hba : b ∈ t.up a) : a = b := by
  have h : b ≠ t.root := t.ne_root_of_mem hba
  rcases (t.mem_up_iff h).1 hab with rfl | hab'
  · rfl
  · have := t.depth_of_mem hab'; have := t.depth_of_mem hba; have := t.depth_lt b h; omega
/-- The links above a link are totally ordered. -/
theorem mem_up_total {a b c : L} (ha : a ∈ t.up c) (hb : b ∈ t.up c) : a ∈ t.up b ∨ b ∈ t.up a := by
  induction c using t.ind with
  | root => simp [up_root] at ha
  | step c h ih =>
    rcases (t.mem_up_iff h).1 ha with rfl | ha'
    · exact Or.inr hb
    · rcases (t.mem_up_iff h).1 hb with rfl | hb'
      · exact Or.inl ha
      · exact ih ha' hb'
theorem joint_inj {a b : L} (ha : a ≠ t.root) (hb : b ≠ t.root) (h : t.joint a = t.joint b) : a = b := by
  rw [← t.child_joint a ha, ← t.child_joint b hb, h]
theorem eq_child {l : L} {j : J} (hl : l ≠ t.root) : t.joint l = j ↔ l = t.child j := by
  constructor
  · rintro rfl; exact (t.child_joint l hl).symm
  · rintro rfl; exact t.joint_child j

/-- One joint. -/
theorem hasTangent_joint (hm : m.Regular) (q : J → ℝ) (l : L) :
    HasTangent (fun x => t.jointTransform (Function.update q (t.joint l) x) l) (t.subspace l) (q (t.joint l)) := by
  unfold jointTransform subspace
  split_ifs with h
  · simpa using hm (t.joint l) (q (t.joint l))
  · simp only [Function.update_self]
    have := (hm (t.joint l) (q (t.joint l))).inv
    rwa [hasTangent_const_dir (hm (t.joint l)) _ 0] at this
theorem jointTransform_of_ne {q : J → ℝ} {l : L} {j : J} (h : t.joint l ≠ j) (x : ℝ) :
    t.jointTransform (Function.update q j x) l = t.jointTransform q l := by
  unfold jointTransform; rw [Function.update_of_ne h]

theorem world_root (H : SE3) (q : J → ℝ) : t.world H q t.root = H := by rw [world]; simp
theorem world_step (H : SE3) (q : J → ℝ) {l : L} (h : l ≠ t.root) : t.world H q l = t.world H q (t.parent l) * t.jointTransform q l := by
  rw [world]; simp [h]
theorem vel_root (v : Spatial) (q dq : J → ℝ) : t.vel v q dq t.root = v := by rw [vel]; simp
theorem vel_step (v : Spatial) (q dq : J → ℝ) {l : L} (h : l ≠ t.root) :
    t.vel v q dq l = (t.jointTransform q l)⁻¹.act (t.vel v q dq (t.parent l)) + dq (t.joint l) • t.subspace l := by
  rw [vel]; simp [h]

theorem rel_self (H : SE3) (q : J → ℝ) (a : L) : t.rel H q a a = 1 := by simp [rel]
theorem rel_mul (H : SE3) (q : J → ℝ) (a b c : L) : t.rel H q a b * t.rel H q b c = t.rel H q a c := by simp [rel, mul_assoc]
theorem rel_inv (H : SE3) (q : J → ℝ) (a b : L) : (t.rel H q a b)⁻¹ = t.rel H q b a := by simp [rel]
theorem rel_parent (H : SE3) (q : J → ℝ) {l : L} (h : l ≠ t.root) : t.rel H q (t.parent l) l = t.jointTransform q l := by
  rw [rel, t.world_step H q h, inv_mul_cancel_left]
theorem rel_parent' (H : SE3) (q : J → ℝ) {l : L} (h : l ≠ t.root) : t.rel H q l (t.parent l) = (t.jointTransform q l)⁻¹ := by
  rw [← t.rel_parent H q h, rel_inv]

/-- The relative transforms do not depend on where the base is. -/
theorem world_eq (H : SE3) (q : J → ℝ) (l : L) : t.world H q l = H * t.world 1 q l := by
  induction l using t.ind with
  | root => simp [world_root]
  | step l h ih => rw [t.world_step H q h, t.world_step 1 q h, ih, mul_assoc]
theorem rel_base (H : SE3) (q : J → ℝ) (a b : L) : t.rel H q a b = t.rel 1 q a b := by
  rw [rel, rel, t.world_eq H q a, t.world_eq H q b, mul_inv_rev, mul_assoc, inv_mul_cancel_left]

/-- The velocity of a link when the joint above `c` moves. -/
theorem hasTangent_world (hm : m.Regular) (H : SE3) (q : J → ℝ) {c : L} (hc : c ≠ t.root) (l : L) :
    HasTangent (fun x => t.world H (Function.update q (t.joint c) x) l)
      (if c ∈ t.up l then (t.rel H q l c).act (t.subspace c) else 0) (q (t.joint c)) := by
  induction l using t.ind with
  | root =>
    simp only [world_root, up_root, List.not_mem_nil, if_false]
    exact hasTangent_const _ _
  | step l h ih =>
    simp only [t.world_step H _ h]
    by_cases e : c = l
    · subst e
      have h1 : ∀ x, t.world H (Function.update q (t.joint c) x) (t.parent c) = t.world H q (t.parent c) := by
        intro x
        clear ih
        have : c ∉ t.up (t.parent c) := t.not_mem_up_parent h
        revert this
        generalize t.parent c = d
        intro hd
        induction d using t.ind with
        | root => simp [world_root]
        | step d hd' ih =>
          rw [t.mem_up_iff hd'] at hd
          push Not at hd
          rw [t.world_step H _ hd', t.world_step H _ hd', ih hd.2, t.jointTransform_of_ne]
          intro e
          exact hd.1 (t.joint_inj hd' h e).symm
      simp only [h1, t.mem_up_self h, if_true, rel_self, SE3.act_one]
      have := (hasTangent_const (t.world H q (t.parent c)) (q (t.joint c))).mul (t.hasTangent_joint hm q c)
      simpa using this
    · have hj : t.joint l ≠ t.joint c := fun e' => e (t.joint_inj h hc e').symm
      simp only [t.jointTransform_of_ne hj]
      have := ih.mul (hasTangent_const (t.jointTransform q l) (q (t.joint c)))
      refine Eq.mp ?_ this
      congr 1
      simp only [t.mem_up_iff h, e, false_or, add_zero]
      split_ifs
      · rw [← t.rel_parent' H q h, ← SE3.act_mul, rel_mul]
      · simp

/-- The velocity of a link relative to another when a joint moves. -/
theorem hasTangent_rel (hm : m.Regular) (H : SE3) (q : J → ℝ) {c : L} (hc : c ≠ t.root) (a b : L) :
    HasTangent (fun x => t.rel H (Function.update q (t.joint c) x) a b)
      ((if c ∈ t.up b then (t.rel H q b c).act (t.subspace c) else 0) - (if c ∈ t.up a then (t.rel H q b c).act (t.subspace c) else 0))
      (q (t.joint c)) := by
  have := (t.hasTangent_world hm H q hc a).inv.mul (t.hasTangent_world hm H q hc b)
  refine Eq.mp ?_ this
  simp only [Function.update_eq_self, rel]
  congr 1
  rw [add_comm, sub_eq_add_neg]
  congr 1
  rw [SE3.act_neg, ← SE3.act_mul]
  split_ifs
  · rw [← SE3.act_mul]; simp only [mul_assoc, mul_inv_cancel_left]
  · simp

/-- The velocities. -/
theorem hasDerivAt_vel (hm : m.Regular) (H : SE3) (v : Spatial) (q dq : J → ℝ) {c : L} (hc : c ≠ t.root) (l : L) :
    HasDerivAt (fun x => t.vel v (Function.update q (t.joint c) x) dq l)
      (if c ∈ t.up l then (t.rel H q l c).act (crossM (t.subspace c) (-t.vel v q dq c)) else 0) (q (t.joint c)) := by
  induction l using t.ind with
  | root =>
    simp only [vel_root, up_root, List.not_mem_nil, if_false]
    exact hasDerivAt_const _ _
  | step l h ih =>
    simp only [t.vel_step v _ dq h]
    by_cases e : c = l
    · subst e
      simp only [if_neg (t.not_mem_up_parent h)] at ih
      have := ((t.hasTangent_joint hm q c).inv.act ih).add_const (dq (t.joint c) • t.subspace c)
      refine this.congr_deriv ?_
      simp only [t.mem_up_self h, if_true, rel_self, SE3.act_one, Function.update_eq_self, add_zero]
      rw [SE3.act_crossM, SE3.act_neg, SE3.act_inv_act, neg_crossM, t.vel_step v q dq h, crossM_neg, crossM_add, crossM_smul, crossM_self,
        smul_zero, add_zero]
    · have hj : t.joint l ≠ t.joint c := fun e' => e (t.joint_inj h hc e').symm
      simp only [t.jointTransform_of_ne hj]
      have := ((hasTangent_const (t.jointTransform q l)⁻¹ (q (t.joint c))).act ih).add_const (dq (t.joint l) • t.subspace l)
      refine this.congr_deriv ?_
      simp only [t.mem_up_iff h, e, false_or, zero_crossM, zero_add]
      split_ifs
      · rw [← t.rel_parent' H q h, ← SE3.act_mul, rel_mul]
      · simp

end Traversal
end Verif.Rigid
