import Verif.Lemmas.MomentumExpr2
/- Lemmas: the derivatives of the expression of the momentum. -/
namespace Verif.Rigid
open Matrix
variable {L J F : Type} [DecidableEq L] [DecidableEq J] [DecidableEq F] {m : Model L J}

namespace Traversal
variable (t : Traversal m)

theorem vel_still (v : Spatial) (q : J → ℝ) (l : L) : t.vel v q (fun _ => 0) l = (t.rel 1 q l t.root).act v := by
  induction l using t.ind with
  | root => rw [vel_root, rel_self, SE3.act_one]
  | step l h ih => rw [t.vel_step _ _ _ h, ih, zero_smul, add_zero, ← t.rel_parent' 1 q h, ← SE3.act_mul, rel_mul]

theorem dropWhile_up (l : L) (j : J) :
    (t.up l).dropWhile (fun visited => t.joint visited ≠ j) = if t.child j ∈ t.up l then t.up (t.child j) else [] := by
  induction l using t.ind with
  | root => simp [up_root]
  | step l h ih =>
    by_cases e : t.joint l = j
    · have hc : t.child j = l := by rw [← e, t.child_joint l h]
      rw [hc, if_pos (t.mem_up_self h)]
      conv_lhs => rw [t.up_cons h]
      rw [List.dropWhile_cons, if_neg (by simpa using e), ← t.up_cons h]
    · have hc : t.child j ≠ l := fun hc => e (by rw [← hc, t.joint_child])
      rw [t.up_cons h, List.dropWhile_cons, if_pos (by simpa using e), ih]
      simp [hc]

theorem mem_takeWhile_up (l : L) (j : J) (hc : t.child j ∈ t.up l) (x : L) :
    x ∈ (t.up l).takeWhile (fun visited => t.joint visited ≠ j) ↔ x ∈ t.up l ∧ x ∉ t.up (t.child j) := by
  have e := List.takeWhile_append_dropWhile (p := fun visited => decide (t.joint visited ≠ j)) (l := t.up l)
  have hd := t.dropWhile_up l j
  rw [if_pos hc] at hd
  have hn := t.up_nodup l
  rw [← e, hd, List.nodup_append] at hn
  constructor
  · intro h
    refine ⟨by rw [← e]; exact List.mem_append_left _ h, fun h' => hn.2.2 x h x h' rfl⟩
  · rintro ⟨h1, h2⟩
    rw [← e, hd, List.mem_append] at h1
    exact h1.resolve_right h2

end Traversal

namespace Server
variable (s : Server m F)

theorem eval_crbi (q : J → ℝ) (e : Spatial) : s.eval q s.crbi e = s.kin.momentum 1 e q (fun _ => 0) := by
  have key : ∀ (xs : List L) (A : Op F), s.eval q (xs.foldl (fun e l => .add e (.mul (s.linkInertiaInBase l) (.adj (s.frames.ofLink l) s.baseFrame))) A) e =
      s.eval q A e + (xs.map fun l => (s.kin.rel 1 q s.kin.root l).actF ((m.inertia l).mul (s.kin.vel e q (fun _ => 0) l))).sum := by
    intro xs
    induction xs with
    | nil => intro A; simp
    | cons l xs ih =>
      intro A
      rw [List.foldl_cons, ih, List.map_cons, List.sum_cons, ← add_assoc]
      congr 1
      show s.eval q A e + s.eval q (.adjWrench s.baseFrame (s.frames.ofLink l)) ((m.inertia l).mul (s.eval q (.adj (s.frames.ofLink l) s.baseFrame) e)) = _
      rw [s.eval_adj, s.eval_adjWrench, transform_link, transform_link, Traversal.vel_still, s.kin_root]
  rw [crbi, key]
  show 0 + _ = _
  rw [zero_add]; rfl

theorem eval_crbiJointsDerivative (q : J → ℝ) (e : Spatial) (j : J) :
    s.eval q (s.crbiJointsDerivative j) e = s.kin.momentumJointsDerivative 1 e q (fun _ => 0) j := by
  rw [Traversal.momentumJointsDerivative_eq]
  have h := s.kin.foldl_links (fun A : Op F => s.eval q A e)
    (fun l j A => .sub
          (.add A
            (.mul (.mul (.mul (.mul (.adjWrench s.baseFrame (s.frames.ofLink (s.kin.child j))) (.const (crossF (s.kin.subspace (s.kin.child j)))))
              (.adjWrench (s.frames.ofLink (s.kin.child j)) (s.frames.ofLink l))) (linkInertia (m := m) l)) (.adj (s.frames.ofLink l) s.baseFrame)))
          (.mul (.mul (.mul (.mul (.adjWrench s.baseFrame (s.frames.ofLink l)) (linkInertia (m := m) l))
              (.adj (s.frames.ofLink l) (s.frames.ofLink (s.kin.child j)))) (.const (crossM (s.kin.subspace (s.kin.child j))))) (.adj (s.frames.ofLink (s.kin.child j)) s.baseFrame)))
    (fun l j => s.kin.linkMomentumDerivative 1 e q (fun _ => 0) l j) ?_ m.links (fun _ => .zero) j
  · simp only [show s.eval q (Op.zero : Op F) e = 0 from rfl, zero_add] at h
    exact h
  · intro l j A _
    rw [Traversal.linkMomentumDerivative]
    show s.eval q A e + s.eval q (.adjWrench s.baseFrame (s.frames.ofLink (s.kin.child j))) (crossF (s.kin.subspace (s.kin.child j))
      (s.eval q (.adjWrench (s.frames.ofLink (s.kin.child j)) (s.frames.ofLink l)) ((m.inertia l).mul (s.eval q (.adj (s.frames.ofLink l) s.baseFrame) e)))) -
      s.eval q (.adjWrench s.baseFrame (s.frames.ofLink l)) ((m.inertia l).mul (s.eval q (.adj (s.frames.ofLink l) (s.frames.ofLink (s.kin.child j)))
        (crossM (s.kin.subspace (s.kin.child j)) (s.eval q (.adj (s.frames.ofLink (s.kin.child j)) s.baseFrame) e)))) = _
    simp only [s.eval_adjWrench, s.eval_adj, transform_link, Traversal.motionVectorTimesChildVelocity, s.kin_root, crossM_neg, SE3.act_neg, Inertia.mul_neg, SE3.actF_neg,
      Traversal.vel_still]
    abel

variable [Fintype J]

theorem veval_momentumVelocityCols (st : KState J) (j : J) :
    s.veval st (s.momentumVelocityCols j) =
      (m.links.map fun l => if s.kin.child j ∈ s.kin.up l then
        (s.kin.rel 1 st.q s.base l).actF ((m.inertia l).mul ((s.kin.rel 1 st.q l (s.kin.child j)).act (s.kin.subspace (s.kin.child j)))) else 0).sum := by
  have h := s.kin.foldl_links (s.veval st)
    (fun l j e => .add e (.app (.mul (s.linkInertiaInBase l) (.adj (s.frames.ofLink l) (s.frames.ofLink (s.kin.child j)))) (.const (s.kin.subspace (s.kin.child j)))))
    (fun l j => (s.kin.rel 1 st.q s.base l).actF ((m.inertia l).mul ((s.kin.rel 1 st.q l (s.kin.child j)).act (s.kin.subspace (s.kin.child j))))) ?_ m.links (fun _ => .zero) j
  · rw [show s.veval st (VExp.zero : VExp J F) = 0 from rfl, zero_add] at h
    exact h
  · intro l j e _
    show s.veval st e + s.eval st.q (.adjWrench s.baseFrame (s.frames.ofLink l)) ((m.inertia l).mul (s.eval st.q (.adj (s.frames.ofLink l) (s.frames.ofLink (s.kin.child j))) (s.kin.subspace (s.kin.child j)))) = _
    rw [s.eval_adjWrench, s.eval_adj, transform_link, transform_link]

theorem hasDerivAt_vel_velocity (hm : m.Regular) (v : Spatial) (q dq : J → ℝ) (l : L) (j : J) :
    HasDerivAt (fun x => s.kin.vel v q (Function.update dq j x) l)
      (if s.kin.child j ∈ s.kin.up l then (s.kin.rel 1 q l (s.kin.child j)).act (s.kin.subspace (s.kin.child j)) else 0) (dq j) := by
  have h := s.hasDerivAt_velocity hm ⟨v, v, q, dq⟩ j (.absVel (s.frames.ofLink l)) trivial
  simp only [s.veval_absVel_link hm] at h
  refine h.congr_deriv ?_
  have hz : s.frames.ofLink l = s.baseFrame → s.kin.up l = [] := by
    intro e
    have : l = s.base := by rw [← s.frames.link_ofLink l, e, s.frames.link_ofLink]
    rw [this, s.kin_up_base]
  simp only [vderiv]
  by_cases hb : s.frames.ofLink l = s.baseFrame
  · rw [if_pos hb, hz hb]; simp [veval]
  · rw [if_neg hb, s.veval_jacobianColumn]
    simp only [direction, baseFrame, s.frames.link_ofLink, transform_link]

/-- The derivative of the momentum with respect to the velocity of a joint. -/
theorem hasDerivAt_momentum_velocity (hm : m.Regular) (st : KState J) (j : J) :
    HasDerivAt (fun x => s.kin.momentum 1 st.twist st.q (Function.update st.dq j x)) (s.veval st (s.momentumVelocityCols j)) (st.dq j) := by
  rw [veval_momentumVelocityCols]
  unfold Traversal.momentum
  refine hasDerivAt_list_sum m.links
    (f := fun l x => (s.kin.rel 1 st.q s.kin.root l).actF ((m.inertia l).mul (s.kin.vel st.twist st.q (Function.update st.dq j x) l))) ?_
  intro l
  refine ((hasTangent_const _ _).actF (hasDerivAt_inertia (m.inertia l) (s.hasDerivAt_vel_velocity hm st.twist st.q st.dq l j))).congr_deriv ?_
  rw [crossF_zero_left, zero_add, s.kin_root]
  split_ifs
  · rfl
  · simp

end Server
end Verif.Rigid
