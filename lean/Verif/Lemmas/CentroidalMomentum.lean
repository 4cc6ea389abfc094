import Verif.Tac
import Verif.Model.CentroidalMomentum
import Verif.Lemmas.ScalarExpr
import Verif.Lemmas.DynamicsHessian
import Verif.Props.CoMExpr
import Verif.Props.MomentumExpr
import Verif.Props.Kinematics
/- Lemmas: the momentum is linear in the velocities, and what the atoms of the expressions of the centroidal momentum are worth. -/
namespace Verif.Rigid
open Matrix
variable {L J F : Type} [DecidableEq L] [DecidableEq J] [DecidableEq F] [Fintype J] {m : Model L J}

namespace Traversal
variable (t : Traversal m)

theorem momentum_base (H : SE3) (v : Spatial) (q dq : J → ℝ) : t.momentum H v q dq = t.momentum 1 v q dq := by
  unfold momentum; simp only [t.rel_base H]

theorem momentumJointsDerivative_base (hm : m.Regular) (H : SE3) (v : Spatial) (q dq : J → ℝ) (j : J) :
    t.momentumJointsDerivative H v q dq j = t.momentumJointsDerivative 1 v q dq j := by
  have h := t.hasDerivAt_momentum hm H v q dq j
  simp only [t.momentum_base H] at h
  exact h.unique (t.hasDerivAt_momentum hm 1 v q dq j)

end Traversal

namespace Server
variable (s : Server m F)

theorem momentum_joints_add (v : Spatial) (q dq dq' : J → ℝ) :
    s.kin.momentum 1 v q (dq + dq') = s.kin.momentum 1 v q dq + s.kin.momentum 1 0 q dq' := by
  have h : ∀ l, s.kin.vel v q (dq + dq') l = s.kin.vel v q dq l + s.kin.vel 0 q dq' l := by
    intro l
    induction l using s.kin.ind with
    | root => simp [Traversal.vel_root]
    | step l h ih => simp only [s.kin.vel_step _ _ _ h, ih, SE3.act_add, Pi.add_apply, add_smul]; abel
  unfold Traversal.momentum
  rw [← List.sum_map_add]
  congr 1
  refine List.map_congr_left fun l _ => ?_
  rw [h, Inertia.mul_add, SE3.actF_add]

theorem momentum_joints_smul (k : ℝ) (q dq : J → ℝ) : s.kin.momentum 1 0 q (k • dq) = k • s.kin.momentum 1 0 q dq := by
  have h : ∀ l, s.kin.vel 0 q (k • dq) l = k • s.kin.vel 0 q dq l := by
    intro l
    induction l using s.kin.ind with
    | root => simp [Traversal.vel_root]
    | step l h ih => simp only [s.kin.vel_step _ _ _ h, ih, SE3.act_smul, Pi.smul_apply, smul_add, smul_smul, smul_eq_mul]
  unfold Traversal.momentum
  rw [Traversal.list_sum_smul]
  congr 1
  refine List.map_congr_left fun l _ => ?_
  rw [h, Inertia.mul_smul, SE3.actF_smul]

/-- The derivative of the momentum is linear in the velocities, as the momentum is. -/
theorem momentumJointsDerivative_add (hm : m.Regular) (v w : Spatial) (q dq : J → ℝ) (j : J) :
    s.kin.momentumJointsDerivative 1 (v + w) q dq j = s.kin.momentumJointsDerivative 1 v q dq j + s.kin.momentumJointsDerivative 1 w q (fun _ => 0) j := by
  have h := s.kin.hasDerivAt_momentum hm 1 (v + w) q dq j
  simp only [s.momentum_add] at h
  exact h.unique ((s.kin.hasDerivAt_momentum hm 1 v q dq j).add (s.kin.hasDerivAt_momentum hm 1 w q (fun _ => 0) j))

theorem momentumJointsDerivative_smul (hm : m.Regular) (k : ℝ) (e : Spatial) (q : J → ℝ) (j : J) :
    s.kin.momentumJointsDerivative 1 (k • e) q (fun _ => 0) j = k • s.kin.momentumJointsDerivative 1 e q (fun _ => 0) j := by
  have h := s.kin.hasDerivAt_momentum hm 1 (k • e) q (fun _ => 0) j
  simp only [s.momentum_smul] at h
  have h' : HasDerivAt (fun x => k • s.kin.momentum 1 e (Function.update q j x) (fun _ => 0)) (k • s.kin.momentumJointsDerivative 1 e q (fun _ => 0) j) (q j) :=
    (s.kin.hasDerivAt_momentum hm 1 e q (fun _ => 0) j).const_smul k
  exact h.unique h'

theorem momentumJointsDerivative_joints_add (hm : m.Regular) (v : Spatial) (q dq dq' : J → ℝ) (j : J) :
    s.kin.momentumJointsDerivative 1 v q (dq + dq') j = s.kin.momentumJointsDerivative 1 v q dq j + s.kin.momentumJointsDerivative 1 0 q dq' j := by
  have h := s.kin.hasDerivAt_momentum hm 1 v q (dq + dq') j
  simp only [s.momentum_joints_add] at h
  exact h.unique ((s.kin.hasDerivAt_momentum hm 1 v q dq j).add (s.kin.hasDerivAt_momentum hm 1 0 q dq' j))

/-- The values of the derivatives of the momentum. -/
theorem veval_momentumDeriv_twist (st : KState J) (e : Spatial) : s.veval st (s.momentumDeriv (.twist e)) = s.kin.momentum 1 e st.q (fun _ => 0) :=
  s.eval_crbi st.q e

theorem veval_momentumDeriv_position (hm : m.Regular) (st : KState J) (j : J) :
    s.veval st (s.momentumDeriv (.position j)) = s.kin.momentumJointsDerivative 1 st.twist st.q st.dq j := s.veval_momentumJointsCols hm st j

theorem veval_momentumDeriv_velocity (hm : m.Regular) (st : KState J) (j : J) :
    s.veval st (s.momentumDeriv (.velocity j)) = s.kin.momentum 1 0 st.q (Pi.single j 1) := by
  have h := C62_first s hm st (.velocity j)
  simp only [s.veval_momentumExpr hm] at h
  refine h.unique ?_
  have e : ∀ x : ℝ, Function.update st.dq j (st.dq j + x) = st.dq + x • (Pi.single j 1 : J → ℝ) := by
    intro x; funext k
    by_cases hk : k = j
    · subst hk; simp
    · simp [hk]
  show HasDerivAt (fun x : ℝ => s.kin.momentum 1 st.twist st.q (Function.update st.dq j (st.dq j + x))) _ 0
  simp only [e, momentum_joints_add, momentum_joints_smul]
  have h : HasDerivAt (fun x : ℝ => x • s.kin.momentum 1 0 st.q (Pi.single j 1)) ((1 : ℝ) • s.kin.momentum 1 0 st.q (Pi.single j 1)) 0 :=
    hasDerivAt_smul_const (hasDerivAt_id (0 : ℝ)) _
  rw [one_smul] at h
  exact h.const_add _

theorem veval_momentumDeriv2_twist_position (st : KState J) (fuel : ℕ) (e : Spatial) (j : J) :
    s.veval st (s.momentumDeriv2 fuel (.twist e) (.position j)) = s.kin.momentumJointsDerivative 1 e st.q (fun _ => 0) j :=
  s.eval_crbiJointsDerivative st.q e j

theorem veval_momentumDeriv2_position_twist (hm : m.Regular) (st : KState J) (fuel : ℕ) (e : Spatial) (j : J) :
    s.veval st (s.momentumDeriv2 (fuel + 1) (.position j) (.twist e)) = s.kin.momentumJointsDerivative 1 e st.q (fun _ => 0) j := by
  have h := C62_second s hm st fuel (.position j) (.twist e)
  simp only [s.veval_momentumDeriv_position hm] at h
  refine h.unique ?_
  show HasDerivAt (fun x : ℝ => s.kin.momentumJointsDerivative 1 (st.twist + x • e) st.q st.dq j) _ 0
  simp only [s.momentumJointsDerivative_add hm, s.momentumJointsDerivative_smul hm]
  have h : HasDerivAt (fun x : ℝ => x • s.kin.momentumJointsDerivative 1 e st.q (fun _ => 0) j)
      ((1 : ℝ) • s.kin.momentumJointsDerivative 1 e st.q (fun _ => 0) j) 0 := hasDerivAt_smul_const (hasDerivAt_id (0 : ℝ)) _
  rw [one_smul] at h
  exact h.const_add _

theorem veval_momentumDeriv2_twist_twist (hm : m.Regular) (st : KState J) (fuel : ℕ) (e e' : Spatial) :
    s.veval st (s.momentumDeriv2 (fuel + 1) (.twist e) (.twist e')) = 0 := by
  have h := C62_second s hm st fuel (.twist e) (.twist e')
  simp only [s.veval_momentumDeriv_twist] at h
  exact h.unique (hasDerivAt_const (0 : ℝ) (s.kin.momentum 1 e st.q fun _ => 0))

theorem veval_momentumDeriv2_twist_velocity (hm : m.Regular) (st : KState J) (fuel : ℕ) (e : Spatial) (j : J) :
    s.veval st (s.momentumDeriv2 (fuel + 1) (.twist e) (.velocity j)) = 0 := by
  have h := C62_second s hm st fuel (.twist e) (.velocity j)
  simp only [s.veval_momentumDeriv_twist] at h
  exact h.unique (hasDerivAt_const (0 : ℝ) (s.kin.momentum 1 e st.q fun _ => 0))

theorem veval_momentumDeriv2_velocity_twist (hm : m.Regular) (st : KState J) (fuel : ℕ) (e : Spatial) (j : J) :
    s.veval st (s.momentumDeriv2 (fuel + 1) (.velocity j) (.twist e)) = 0 := by
  have h := C62_second s hm st fuel (.velocity j) (.twist e)
  simp only [s.veval_momentumDeriv_velocity hm] at h
  exact h.unique (hasDerivAt_const (0 : ℝ) (s.kin.momentum 1 0 st.q (Pi.single j 1)))

end Server
end Verif.Rigid
