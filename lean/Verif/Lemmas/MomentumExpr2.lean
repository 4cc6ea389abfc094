import Verif.Lemmas.MomentumExpr
/- Lemmas: the values of the expressions of the momentum. -/
namespace Verif.Rigid
open Matrix
variable {L J F : Type} [DecidableEq L] [DecidableEq J] [DecidableEq F] {m : Model L J}

namespace Traversal
variable (t : Traversal m)

/-- A loop that updates the column of each visited joint. -/
theorem foldl_acc {E : Type} (val : E → Spatial) {xs : List L} (hr : ∀ l ∈ xs, l ≠ t.root) (hn : xs.Nodup) (g : J → E → E) (w : J → Spatial)
    (hg : ∀ j e, t.child j ∈ xs → val (g j e) = val e + w j) (D : J → E) (j : J) :
    val (xs.foldl (fun D l => Function.update D (t.joint l) (g (t.joint l) (D (t.joint l)))) D j) = val (D j) + if t.child j ∈ xs then w j else 0 := by
  induction xs generalizing D with
  | nil => simp
  | cons l xs ih =>
    rw [List.nodup_cons] at hn
    rw [List.foldl_cons, ih (fun l hl => hr l (List.mem_cons_of_mem _ hl)) hn.2 (fun j e hj => hg j e (List.mem_cons_of_mem _ hj))]
    have hl : l ≠ t.root := hr l List.mem_cons_self
    by_cases hj : t.joint l = j
    · subst hj
      rw [Function.update_self, t.child_joint l hl, if_neg hn.1, if_pos List.mem_cons_self, hg _ _ (by rw [t.child_joint l hl]; exact List.mem_cons_self), add_zero]
    · have : t.child j ≠ l := fun e => hj (by rw [← e, t.joint_child])
      rw [Function.update_of_ne (Ne.symm hj)]
      simp [this]

/-- The loops on all the links. -/
theorem foldl_links {E : Type} (val : E → Spatial) (g : L → J → E → E) (w : L → J → Spatial)
    (hg : ∀ l j e, t.child j ∈ t.up l → val (g l j e) = val e + w l j) (xs : List L) (D : J → E) (j : J) :
    val (xs.foldl (fun D l => (t.up l).foldl (fun D visited =>
      Function.update D (t.joint visited) (g l (t.joint visited) (D (t.joint visited)))) D) D j) =
      val (D j) + (xs.map fun l => if t.child j ∈ t.up l then w l j else 0).sum := by
  induction xs generalizing D with
  | nil => simp
  | cons l xs ih =>
    rw [List.foldl_cons, ih, t.foldl_acc val (fun _ h => t.ne_root_of_mem h) (t.up_nodup l) (g l) (w l) (hg l), List.map_cons, List.sum_cons, add_assoc]

/-- What a loop keeps. -/
theorem foldl_keep {E : Type} (P : E → Prop) {xs : List L} (hr : ∀ l ∈ xs, l ≠ t.root) (g : J → E → E) (hg : ∀ j e, t.child j ∈ xs → P e → P (g j e))
    (D : J → E) (hD : ∀ j, P (D j)) (j : J) : P (xs.foldl (fun D l => Function.update D (t.joint l) (g (t.joint l) (D (t.joint l)))) D j) := by
  induction xs generalizing D with
  | nil => exact hD j
  | cons l xs ih =>
    rw [List.foldl_cons]
    refine ih (fun l hl => hr l (List.mem_cons_of_mem _ hl)) (fun j e hj => hg j e (List.mem_cons_of_mem _ hj)) _ fun k => ?_
    by_cases hk : k = t.joint l
    · subst hk; rw [Function.update_self]
      exact hg _ _ (by rw [t.child_joint l (hr l List.mem_cons_self)]; exact List.mem_cons_self) (hD _)
    · rw [Function.update_of_ne hk]; exact hD k

theorem foldl_links_keep {E : Type} (P : E → Prop) (g : L → J → E → E) (hg : ∀ l j e, t.child j ∈ t.up l → P e → P (g l j e)) (xs : List L)
    (D : J → E) (hD : ∀ j, P (D j)) (j : J) :
    P (xs.foldl (fun D l => (t.up l).foldl (fun D visited =>
      Function.update D (t.joint visited) (g l (t.joint visited) (D (t.joint visited)))) D) D j) := by
  induction xs generalizing D with
  | nil => exact hD j
  | cons l xs ih =>
    rw [List.foldl_cons]
    exact ih _ fun k => t.foldl_keep P (fun _ h => t.ne_root_of_mem h) (g l) (hg l) D hD k

end Traversal

namespace Server
variable (s : Server m F)

theorem transform_link (q : J → ℝ) (a b : L) : s.transform q (s.frames.ofLink a) (s.frames.ofLink b) = s.kin.rel 1 q a b := by
  simp [transform, s.frames.link_ofLink, s.frames.offset_ofLink]

theorem kin_root : s.kin.root = s.base := s.root_tree _

variable [Fintype J]

theorem veval_absVel_link (hm : m.Regular) (st : KState J) (l : L) :
    s.veval st (.absVel (s.frames.ofLink l)) = s.kin.vel st.twist st.q st.dq l := by
  rw [s.veval_absVel hm, s.frames.link_ofLink, s.frames.offset_ofLink]; simp [Traversal.frameVel]

theorem veval_absVel_joints (hm : m.Regular) (st : KState J) (l : L) (j : J) :
    s.veval st (s.absoluteVelocityJointsDerivative (s.frames.ofLink l) j) =
      if s.kin.child j ∈ s.kin.up l then (s.kin.rel 1 st.q l (s.kin.child j)).act (crossM (s.kin.subspace (s.kin.child j)) (-s.kin.vel st.twist st.q st.dq (s.kin.child j)))
      else 0 := by
  rw [absoluteVelocityJointsDerivative_eq, s.frames.link_ofLink]
  split_ifs
  · show s.eval st.q (.adj (s.frames.ofLink l) (s.frames.ofLink (s.kin.child j))) (-crossM (s.kin.subspace (s.kin.child j))
      (s.veval st (.absVel (s.frames.ofLink (s.kin.child j))))) = _
    rw [s.veval_absVel_link hm, s.eval_adj, transform_link, crossM_neg]
  · rfl

/-- The momentum of a link. -/
theorem veval_linkMomentum (hm : m.Regular) (st : KState J) (l : L) :
    s.veval st (.app (s.linkInertiaInBase l) (.absVel (s.frames.ofLink l))) =
      (s.kin.rel 1 st.q s.base l).actF ((m.inertia l).mul (s.kin.vel st.twist st.q st.dq l)) := by
  rw [show s.veval st (.app (s.linkInertiaInBase l) (.absVel (s.frames.ofLink l))) =
    s.eval st.q (.adjWrench s.baseFrame (s.frames.ofLink l)) ((m.inertia l).mul (s.veval st (.absVel (s.frames.ofLink l)))) from rfl,
    s.veval_absVel_link hm, s.eval_adjWrench, transform_link]

theorem veval_momentumExpr (hm : m.Regular) (st : KState J) : s.veval st s.momentumExpr = s.kin.momentum 1 st.twist st.q st.dq := by
  have key : ∀ (xs : List L), xs.Nodup → ∀ e : VExp J F, s.veval st (xs.foldl (fun e l => if l ≠ s.base then
      .add e (.app (s.linkInertiaInBase l) (.absVel (s.frames.ofLink l))) else e) e) +
        (if s.base ∈ xs then (m.inertia s.base).mul st.twist else 0) =
      s.veval st e + (xs.map fun l => (s.kin.rel 1 st.q s.base l).actF ((m.inertia l).mul (s.kin.vel st.twist st.q st.dq l))).sum := by
    intro xs
    induction xs with
    | nil => intro _ e; simp
    | cons l xs ih =>
      intro hn e
      rw [List.nodup_cons] at hn
      rw [List.foldl_cons, List.map_cons, List.sum_cons]
      by_cases hl : l = s.base
      · rw [if_neg (by simpa using hl), if_pos (by rw [hl]; exact List.mem_cons_self)]
        have := ih hn.2 e
        rw [if_neg (by rw [← hl]; exact hn.1), add_zero] at this
        rw [this, hl, Traversal.rel_self, SE3.actF_one]
        have : s.kin.vel st.twist st.q st.dq s.base = st.twist := by rw [← s.kin_root, Traversal.vel_root]
        rw [this]; abel
      · rw [if_pos hl]
        have := ih hn.2 (.add e (.app (s.linkInertiaInBase l) (.absVel (s.frames.ofLink l))))
        rw [show s.veval st (.add e (.app (s.linkInertiaInBase l) (.absVel (s.frames.ofLink l)))) =
          s.veval st e + s.veval st (.app (s.linkInertiaInBase l) (.absVel (s.frames.ofLink l))) from rfl, s.veval_linkMomentum hm] at this
        simp only [List.mem_cons, Ne.symm hl, false_or]
        rw [this]; abel
  have := key m.links m.nodup (.app (linkInertia (m := m) s.base) .twist)
  rw [if_pos (m.complete _)] at this
  rw [show s.veval st (.app (linkInertia (m := m) s.base) .twist) = (m.inertia s.base).mul st.twist from rfl, add_comm] at this
  rw [momentumExpr, add_left_cancel this, Traversal.momentum, s.kin_root]

theorem veval_momentumJointsCols (hm : m.Regular) (st : KState J) (j : J) :
    s.veval st (s.momentumJointsCols j) = s.kin.momentumJointsDerivative 1 st.twist st.q st.dq j := by
  rw [Traversal.momentumJointsDerivative_eq]
  have h := s.kin.foldl_links (s.veval st)
    (fun l j e => .sub (.add e (.app (.mul (.mul (.adjWrench s.baseFrame (s.frames.ofLink (s.kin.child j))) (.const (crossF (s.kin.subspace (s.kin.child j)))))
      (.adjWrench (s.frames.ofLink (s.kin.child j)) (s.frames.ofLink l))) (.app (linkInertia (m := m) l) (.absVel (s.frames.ofLink l)))))
      (.app (.mul (s.linkInertiaInBase l) (.adj (s.frames.ofLink l) (s.frames.ofLink (s.kin.child j))))
        (.app (.const (crossM (s.kin.subspace (s.kin.child j)))) (.absVel (s.frames.ofLink (s.kin.child j))))))
    (fun l j => s.kin.linkMomentumDerivative 1 st.twist st.q st.dq l j) ?_ m.links (fun _ => .zero) j
  · rw [show s.veval st (VExp.zero : VExp J F) = 0 from rfl, zero_add] at h
    exact h
  · intro l j e _
    rw [Traversal.linkMomentumDerivative]
    show s.veval st e + s.eval st.q (.adjWrench s.baseFrame (s.frames.ofLink (s.kin.child j))) (crossF (s.kin.subspace (s.kin.child j))
      (s.eval st.q (.adjWrench (s.frames.ofLink (s.kin.child j)) (s.frames.ofLink l)) ((m.inertia l).mul (s.veval st (.absVel (s.frames.ofLink l)))))) -
      s.eval st.q (.adjWrench s.baseFrame (s.frames.ofLink l)) ((m.inertia l).mul (s.eval st.q (.adj (s.frames.ofLink l) (s.frames.ofLink (s.kin.child j)))
        (crossM (s.kin.subspace (s.kin.child j)) (s.veval st (.absVel (s.frames.ofLink (s.kin.child j))))))) = _
    rw [s.veval_absVel_link hm, s.veval_absVel_link hm]
    simp only [s.eval_adjWrench, s.eval_adj, transform_link, Traversal.motionVectorTimesChildVelocity, s.kin_root, crossM_neg, SE3.act_neg, Inertia.mul_neg, SE3.actF_neg]
    abel

end Server
end Verif.Rigid
