import Verif.Lemmas.TreeExpr3
import Verif.Lemmas.Kinematics2
import Verif.Spec.VecExpr
/- Lemmas: the velocities of the frames. -/
namespace Verif.Rigid
open Matrix
variable {L J F : Type} [DecidableEq L] [DecidableEq J] [DecidableEq F]

namespace Traversal
variable {m : Model L J}

theorem vel_add (t : Traversal m) (v : Spatial) (q dq : J → ℝ) (l : L) : t.vel v q dq l = (t.rel 1 q l t.root).act v + t.vel 0 q dq l := by
  induction l using t.ind with
  | root => simp [vel_root, rel_self]
  | step l h ih =>
    rw [t.vel_step _ _ _ h, t.vel_step 0 _ _ h, ih, SE3.act_add, ← SE3.act_mul, ← t.rel_parent' 1 q h, t.rel_mul, add_assoc]

/-- Seen from a joint, the velocities do not depend on how the tree is travelled. -/
theorem vel_joint (t : Traversal m) (hm : m.Regular) (v : Spatial) (q dq : J → ℝ) (j : J) :
    t.vel v q dq (m.second j) = (m.T j (q j))⁻¹.act (t.vel v q dq (m.first j)) + dq j • m.S j := by
  have hc := t.child_ne j
  have h := t.connects (t.child j) hc
  have hv := t.vel_step v q dq hc
  rw [t.joint_child] at h
  unfold jointTransform subspace at hv
  rw [t.joint_child] at hv
  have hj := t.joint_ends j
  rcases h with ⟨h1, h2⟩ | ⟨h1, h2⟩
  · rw [if_pos h2, if_pos h2] at hv
    rw [h2, h1, hv]
  · have hne : m.second j ≠ t.child j := by rw [← h2]; exact hj.symm
    rw [if_neg hne, if_neg hne, inv_inv] at hv
    rw [h1, h2, hv, SE3.act_add, SE3.act_inv_act, SE3.act_smul, SE3.act_neg, hasTangent_const_dir (hm j) 0 (q j), SE3.act_inv_act]
    simp

/-- The same velocities, starting from another link. -/
theorem vel_reroot (t t' : Traversal m) (hm : m.Regular) (v : Spatial) (q dq : J → ℝ) (l : L) :
    t'.vel (t.vel v q dq t'.root) q dq l = t.vel v q dq l := by
  induction l using t'.ind with
  | root => rw [vel_root]
  | step l h ih =>
    rw [t'.vel_step _ _ _ h, ih]
    have hv := t.vel_joint hm v q dq (t'.joint l)
    unfold jointTransform subspace
    rcases t'.connects l h with ⟨h1, h2⟩ | ⟨h1, h2⟩
    · rw [if_pos h2, if_pos h2, ← h1, ← hv, h2]
    · have hne : m.second (t'.joint l) ≠ l := fun e => t.joint_ends _ (h2.trans e.symm)
      rw [if_neg hne, if_neg hne, inv_inv, ← h1, hv, h2, SE3.act_add, SE3.act_act_inv, SE3.act_smul, hasTangent_const_dir (hm (t'.joint l)) 0 (q (t'.joint l))]
      simp

end Traversal

namespace Server
variable {m : Model L J} (s : Server m F)

theorem foldl_pair {α : Type} (t : Traversal m) {xs : List L} (hr : ∀ l ∈ xs, l ≠ t.root) (G : L → α) (D : J → α) (j : J) :
    xs.foldl (fun D l => Function.update D (t.joint l) (G l)) D j = if t.child j ∈ xs then G (t.child j) else D j := by
  induction xs generalizing D with
  | nil => simp
  | cons l xs ih =>
    rw [List.foldl_cons, ih (fun l hl => hr l (List.mem_cons_of_mem _ hl))]
    by_cases hm : t.child j ∈ xs
    · simp [hm]
    · rw [if_neg hm]
      by_cases e : t.child j = l
      · subst e; simp [t.joint_child]
      · rw [if_neg (by simp [e, hm]), Function.update_of_ne]
        rintro rfl
        exact e (t.child_joint l (hr l (by simp)))

theorem jacobian_eq (a b : F) (j : J) :
    s.jacobian a b j =
      if (s.tree (s.frames.link a)).child j ∈ (s.tree (s.frames.link a)).up (s.frames.link b) then
        (.adj b (s.frames.ofLink ((s.tree (s.frames.link a)).child j)), (s.tree (s.frames.link a)).subspace ((s.tree (s.frames.link a)).child j))
      else (.zero, 0) := by
  unfold jacobian
  by_cases h : a = b
  · subst h
    have : (s.tree (s.frames.link a)).up (s.frames.link a) = [] := by
      have := (s.tree (s.frames.link a)).up_root; rwa [s.root_tree] at this
    simp [this]
  · rw [if_neg h]
    have h0 := foldl_pair (s.tree (s.frames.link a)) (xs := (s.tree (s.frames.link a)).up (s.frames.link b)) (fun _ h => Traversal.ne_root_of_mem _ h)
      (fun l => ((.adj b (s.frames.ofLink ((s.tree (s.frames.link a)).child ((s.tree (s.frames.link a)).joint l))),
        (s.tree (s.frames.link a)).subspace ((s.tree (s.frames.link a)).child ((s.tree (s.frames.link a)).joint l))) : Op F × Spatial)) (fun _ => (.zero, 0)) j
    rw [Traversal.joint_child] at h0
    exact h0

theorem jacobian_linkTargets (a b : F) (j : J) : (s.jacobian a b j).1.LinkTargets s.frames := by
  rw [jacobian_eq]; split_ifs
  · exact ⟨_, rfl⟩
  · trivial

/-- The column of the Jacobian is the velocity given by the joint. -/
theorem eval_jacobian (q : J → ℝ) (a b : F) (j : J) : s.eval q (s.jacobian a b j).1 (s.jacobian a b j).2 = s.direction q a b j := by
  rw [jacobian_eq]; simp only [direction]
  split_ifs
  · rw [s.eval_adj]
  · rfl

variable [Fintype J]

theorem stateFrameVel_sub (hm : m.Regular) (st : KState J) (a b : F) :
    s.stateFrameVel st b - (s.transform st.q b a).act (s.stateFrameVel st a) = ∑ j, st.dq j • s.direction st.q a b j := by
  generalize ht : s.tree (s.frames.link a) = t
  have hr : t.root = s.frames.link a := by rw [← ht]; exact s.root_tree _
  have h1 := s.kin.vel_reroot t hm st.stateVel st.q st.dq (s.frames.link b)
  rw [t.vel_add, hr] at h1
  have h2 : s.transform st.q b a = (s.frames.offset b)⁻¹ * t.rel 1 st.q (s.frames.link b) (s.frames.link a) * s.frames.offset a := s.transform_tree t _ _ _
  have h3 : ∑ j, st.dq j • s.direction st.q a b j = (s.frames.offset b)⁻¹.act (t.vel 0 st.q st.dq (s.frames.link b)) := by
    rw [t.vel_zero 1, ← Traversal.list_sum_map_act]
    have h4 : ∀ j, st.dq j • s.direction st.q a b j = if t.child j ∈ t.up (s.frames.link b) then
        (s.frames.offset b)⁻¹.act (st.dq j • (t.rel 1 st.q (s.frames.link b) (t.child j)).act (t.subspace (t.child j))) else 0 := by
      intro j
      simp only [direction, ht, smul_ite, smul_zero]
      split_ifs
      · rw [s.transform_tree t, s.frames.link_ofLink, s.frames.offset_ofLink, mul_one, SE3.act_smul, SE3.act_mul]
      · rfl
    simp only [h4]
    rw [t.sum_joints]
    congr 1
    refine List.map_congr_left fun c hc => ?_
    rw [t.child_joint c (t.ne_root_of_mem hc)]
  rw [h3, h2]
  simp only [stateFrameVel, Traversal.frameVel]
  rw [← h1]
  simp only [SE3.act_mul, SE3.act_act_inv, SE3.act_add]
  abel

theorem direction_self (q : J → ℝ) (a : F) (j : J) : s.direction q a a j = 0 := by
  have : (s.tree (s.frames.link a)).up (s.frames.link a) = [] := by
    have := (s.tree (s.frames.link a)).up_root; rwa [s.root_tree] at this
  simp [direction, this]

/-- The relative velocity is the product of the Jacobian with the velocities of the joints. -/
theorem relativeVelocity_eq (hm : m.Regular) (st : KState J) (a b : F) : s.relativeVelocity st a b = ∑ j, st.dq j • s.direction st.q a b j := by
  unfold relativeVelocity
  split_ifs with h
  · subst h; simp [direction_self]
  · exact s.stateFrameVel_sub hm st a b

/-- The absolute velocity is the one of the frame, when the base moves with the base twist. -/
theorem veval_absVel (hm : m.Regular) (st : KState J) (b : F) :
    s.veval st (.absVel b) = s.kin.frameVel st.twist st.q st.dq (s.frames.link b) (s.frames.offset b) := by
  have hroot : s.kin.root = s.base := s.root_tree _
  have hb : ∀ v, s.kin.frameVel v st.q st.dq s.base 1 = v := by
    intro v; rw [Traversal.frameVel, ← hroot, Traversal.vel_root]; simp
  simp only [veval]
  split_ifs with h
  · rw [h, s.frames.link_ofLink, s.frames.offset_ofLink, hb]
  · have h1 := s.stateFrameVel_sub hm { st with stateVel := st.twist } s.baseFrame b
    simp only [stateFrameVel, s.frames.link_ofLink, s.frames.offset_ofLink, hb] at h1
    rw [s.relativeVelocity_eq hm, ← h1, s.eval_adj]
    abel

end Server
end Verif.Rigid
