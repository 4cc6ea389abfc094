import Verif.Lemmas.MomentumExpr4
/- Lemmas: the form of the expressions of the momentum, and its derivative with respect to the base twist. -/
namespace Verif.Rigid
open Matrix
variable {L J F : Type} [DecidableEq L] [DecidableEq J] [DecidableEq F] {m : Model L J}

namespace Server
variable (s : Server m F)

theorem linkInertia_linkTargets (l : L) : (linkInertia (m := m) l : Op F).LinkTargets s.frames := (m.inertia l).smooth
theorem linkInertiaInBase_linkTargets (l : L) : (s.linkInertiaInBase l).LinkTargets s.frames := ⟨⟨l, rfl⟩, s.linkInertia_linkTargets l⟩
theorem crbi_linkTargets : s.crbi.LinkTargets s.frames := by
  have key : ∀ (xs : List L) (A : Op F), A.LinkTargets s.frames →
      (xs.foldl (fun e l => .add e (.mul (s.linkInertiaInBase l) (.adj (s.frames.ofLink l) s.baseFrame))) A : Op F).LinkTargets s.frames := by
    intro xs
    induction xs with
    | nil => intro A hA; exact hA
    | cons l xs ih => intro A hA; exact ih _ ⟨hA, s.linkInertiaInBase_linkTargets l, ⟨_, rfl⟩⟩
  exact key m.links .zero trivial

theorem momentumExpr_linkTargets : (s.momentumExpr : VExp J F).LinkTargets s.frames := by
  have key : ∀ (xs : List L) (e : VExp J F), e.LinkTargets s.frames → (xs.foldl (fun e l => if l ≠ s.base then
      .add e (.app (s.linkInertiaInBase l) (.absVel (s.frames.ofLink l))) else e) e : VExp J F).LinkTargets s.frames := by
    intro xs
    induction xs with
    | nil => intro e he; exact he
    | cons l xs ih =>
      intro e he
      rw [List.foldl_cons]
      refine ih _ ?_
      split_ifs
      · exact ⟨he, s.linkInertiaInBase_linkTargets l, trivial⟩
      · exact he
  exact key m.links _ ⟨s.linkInertia_linkTargets _, trivial⟩

theorem momentumJointsCols_linkTargets (j : J) : (s.momentumJointsCols j).LinkTargets s.frames :=
  s.kin.foldl_links_keep (fun e : VExp J F => e.LinkTargets s.frames)
    (fun l j e => .sub (.add e (.app (.mul (.mul (.adjWrench s.baseFrame (s.frames.ofLink (s.kin.child j))) (.const (crossF (s.kin.subspace (s.kin.child j)))))
      (.adjWrench (s.frames.ofLink (s.kin.child j)) (s.frames.ofLink l))) (.app (linkInertia (m := m) l) (.absVel (s.frames.ofLink l)))))
      (.app (.mul (s.linkInertiaInBase l) (.adj (s.frames.ofLink l) (s.frames.ofLink (s.kin.child j))))
        (.app (.const (crossM (s.kin.subspace (s.kin.child j)))) (.absVel (s.frames.ofLink (s.kin.child j))))))
    (fun l _ _ _ he => ⟨⟨he, ⟨⟨⟨_, rfl⟩, smooth_crossF _⟩, ⟨_, rfl⟩⟩, s.linkInertia_linkTargets l, trivial⟩,
      ⟨s.linkInertiaInBase_linkTargets l, ⟨_, rfl⟩⟩, smooth_crossM _, trivial⟩) m.links (fun _ => .zero) (fun _ => trivial) j

theorem momentumVelocityCols_linkTargets (j : J) : (s.momentumVelocityCols j).LinkTargets s.frames :=
  s.kin.foldl_links_keep (fun e : VExp J F => e.LinkTargets s.frames)
    (fun l j e => .add e (.app (.mul (s.linkInertiaInBase l) (.adj (s.frames.ofLink l) (s.frames.ofLink (s.kin.child j)))) (.const (s.kin.subspace (s.kin.child j)))))
    (fun l _ _ _ he => ⟨he, ⟨s.linkInertiaInBase_linkTargets l, ⟨_, rfl⟩⟩, trivial⟩) m.links (fun _ => .zero) (fun _ => trivial) j

theorem crbiJointsDerivative_linkTargets (j : J) : (s.crbiJointsDerivative j).LinkTargets s.frames :=
  s.kin.foldl_links_keep (fun e : Op F => e.LinkTargets s.frames)
    (fun l j A => .sub
          (.add A
            (.mul (.mul (.mul (.mul (.adjWrench s.baseFrame (s.frames.ofLink (s.kin.child j))) (.const (crossF (s.kin.subspace (s.kin.child j)))))
              (.adjWrench (s.frames.ofLink (s.kin.child j)) (s.frames.ofLink l))) (linkInertia (m := m) l)) (.adj (s.frames.ofLink l) s.baseFrame)))
          (.mul (.mul (.mul (.mul (.adjWrench s.baseFrame (s.frames.ofLink l)) (linkInertia (m := m) l))
              (.adj (s.frames.ofLink l) (s.frames.ofLink (s.kin.child j)))) (.const (crossM (s.kin.subspace (s.kin.child j))))) (.adj (s.frames.ofLink (s.kin.child j)) s.baseFrame)))
    (fun l _ _ _ he => ⟨⟨he, ⟨⟨⟨⟨_, rfl⟩, smooth_crossF _⟩, ⟨_, rfl⟩⟩, s.linkInertia_linkTargets l⟩, ⟨_, rfl⟩⟩,
      ⟨⟨⟨⟨_, rfl⟩, s.linkInertia_linkTargets l⟩, ⟨_, rfl⟩⟩, smooth_crossM _⟩, ⟨_, rfl⟩⟩) m.links (fun _ => .zero) (fun _ => trivial) j

theorem inertiaInC_linkTargets (c l : L) : (s.inertiaInC c l).LinkTargets s.frames := ⟨⟨_, rfl⟩, s.linkInertia_linkTargets l⟩
theorem motionSubspaceInC_linkTargets (c l : L) : (s.motionSubspaceInC c l).LinkTargets s.frames := ⟨⟨⟨_, rfl⟩, smooth_crossM _⟩, ⟨_, rfl⟩⟩

variable [Fintype J]

theorem doubleLoop_linkTargets (column : J) (xs : List L) (D : DoubleLoop J F) (h1 : D.thisColumn.LinkTargets s.frames) (h2 : ∀ j, (D.cols j).LinkTargets s.frames) :
    (xs.foldl (fun D l => s.doubleLink column l D) D).thisColumn.LinkTargets s.frames ∧
      ∀ j, ((xs.foldl (fun D l => s.doubleLink column l D) D).cols j).LinkTargets s.frames := by
  induction xs generalizing D with
  | nil => exact ⟨h1, h2⟩
  | cons l xs ih =>
    rw [List.foldl_cons, doubleLink_eq]
    split_ifs
    · refine ih _ ⟨⟨h1, ⟨smooth_crossF _, s.inertiaInC_linkTargets _ _⟩, trivial⟩, s.inertiaInC_linkTargets _ _, s.absoluteVelocityJointsDerivative_linkTargets _ _⟩ fun j => ?_
      exact s.kin.foldl_keep (fun e : VExp J F => e.LinkTargets s.frames) (fun _ h => s.kin.ne_root_of_mem h) (fun j e => .add e
            (.app (.sub (.mul (.const (crossF (s.kin.subspace (s.kin.child column)))) (s.inertiaInC (s.kin.child column) l))
              (.mul (s.inertiaInC (s.kin.child column) l) (s.motionSubspaceInC (s.kin.child column) l)))
              (s.absoluteVelocityJointsDerivative (s.frames.ofLink l) j)))
        (fun j e _ he => ⟨he, ⟨⟨smooth_crossF _, s.inertiaInC_linkTargets _ _⟩, s.inertiaInC_linkTargets _ _, s.motionSubspaceInC_linkTargets _ _⟩,
          s.absoluteVelocityJointsDerivative_linkTargets _ _⟩) D.cols h2 j
    · exact ih D h1 h2

theorem doubleDirect_linkTargets (column j : J) : (s.doubleDirect column j).LinkTargets s.frames := by
  have h := s.doubleLoop_linkTargets column m.links ⟨.zero, fun _ => .zero, [], []⟩ trivial (fun _ => trivial)
  rw [← doubleLoop] at h
  unfold doubleDirect
  dsimp only
  split_ifs
  · exact ⟨⟨⟨⟨⟨_, rfl⟩, smooth_crossF _⟩, ⟨_, rfl⟩⟩, h.1⟩, ⟨_, rfl⟩, h.2 j⟩
  · exact h.2 j

theorem momentumDoubleCols_linkTargets (fuel : ℕ) (column j : J) : (s.momentumDoubleCols fuel column j).LinkTargets s.frames := by
  induction fuel generalizing column j with
  | zero => exact s.doubleDirect_linkTargets column j
  | succ n ih =>
    rw [momentumDoubleCols]
    split_ifs
    · exact ih j column
    · exact s.doubleDirect_linkTargets column j

theorem momentumDeriv_linkTargets (d : KVar J) : (s.momentumDeriv d).LinkTargets s.frames := by
  cases d with
  | position j => exact s.momentumJointsCols_linkTargets j
  | velocity j => exact s.momentumVelocityCols_linkTargets j
  | twist e => exact ⟨s.crbi_linkTargets, trivial⟩

theorem momentumDeriv2_linkTargets (fuel : ℕ) (d1 d2 : KVar J) : (s.momentumDeriv2 fuel d1 d2).LinkTargets s.frames := by
  cases d1 with
  | position c =>
    cases d2 with
    | position j => exact s.momentumDoubleCols_linkTargets fuel c j
    | velocity j => exact s.vderiv_linkTargets _ _ (s.momentumJointsCols_linkTargets c)
    | twist e => exact s.vderiv_linkTargets _ _ (s.momentumJointsCols_linkTargets c)
  | velocity c => cases d2 <;> exact s.vderiv_linkTargets _ _ (s.momentumVelocityCols_linkTargets c)
  | twist e =>
    cases d2 with
    | position j => exact ⟨s.crbiJointsDerivative_linkTargets j, trivial⟩
    | velocity j => exact s.vderiv_linkTargets _ _ (s.momentumDeriv_linkTargets (.twist e))
    | twist e' => exact s.vderiv_linkTargets _ _ (s.momentumDeriv_linkTargets (.twist e))

theorem momentum_add (v w : Spatial) (q dq : J → ℝ) : s.kin.momentum 1 (v + w) q dq = s.kin.momentum 1 v q dq + s.kin.momentum 1 w q (fun _ => 0) := by
  have h : ∀ l, s.kin.vel (v + w) q dq l = s.kin.vel v q dq l + s.kin.vel w q (fun _ => 0) l := by
    intro l
    induction l using s.kin.ind with
    | root => simp [Traversal.vel_root]
    | step l h ih => simp only [s.kin.vel_step _ _ _ h, ih, SE3.act_add, zero_smul, add_zero]; abel
  unfold Traversal.momentum
  rw [← List.sum_map_add]
  congr 1
  refine List.map_congr_left fun l _ => ?_
  rw [h, Inertia.mul_add, SE3.actF_add]

theorem momentum_smul (k : ℝ) (e : Spatial) (q : J → ℝ) : s.kin.momentum 1 (k • e) q (fun _ => 0) = k • s.kin.momentum 1 e q (fun _ => 0) := by
  unfold Traversal.momentum
  rw [Traversal.list_sum_smul]
  congr 1
  refine List.map_congr_left fun l _ => ?_
  rw [Traversal.vel_still, Traversal.vel_still, SE3.act_smul, Inertia.mul_smul, SE3.actF_smul]

theorem hasDerivAt_momentum_twist (v e : Spatial) (q dq : J → ℝ) :
    HasDerivAt (fun x : ℝ => s.kin.momentum 1 (v + x • e) q dq) (s.eval q s.crbi e) 0 := by
  simp only [momentum_add, momentum_smul, eval_crbi]
  have h : HasDerivAt (fun x : ℝ => x • s.kin.momentum 1 e q (fun _ => 0)) ((1 : ℝ) • s.kin.momentum 1 e q (fun _ => 0)) 0 :=
    hasDerivAt_smul_const (hasDerivAt_id (0 : ℝ)) _
  rw [one_smul] at h
  exact h.const_add _

end Server
end Verif.Rigid
