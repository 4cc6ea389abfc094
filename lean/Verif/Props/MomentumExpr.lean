import Verif.Lemmas.MomentumExpr5
import Verif.Props.VecExpr
/- C62: the expression of the momentum in the base and its symbolic derivatives. -/
namespace Verif.Rigid
open Matrix
variable {L J F : Type} [DecidableEq L] [DecidableEq J] [DecidableEq F] [Fintype J] {m : Model L J} (s : Server m F)

/-- C62: the value is the sum of the momenta of all the links (inertia times velocity), brought in the base, wherever the base is. -/
theorem C62_value (hm : m.Regular) (st : KState J) (H : SE3) : s.veval st s.momentumExpr =
    (m.links.map fun l => ((s.kin.world H st.q s.base)⁻¹ * s.kin.world H st.q l).actF ((m.inertia l).mul (s.kin.vel st.twist st.q st.dq l))).sum := by
  rw [s.veval_momentumExpr hm]
  unfold Traversal.momentum
  congr 1
  refine List.map_congr_left fun l _ => ?_
  rw [← s.kin.rel_base H, s.kin_root]; rfl

/-- C62: the derivatives with respect to the position and the velocity of each joint and to the base twist are right. -/
theorem C62_first (hm : m.Regular) (st : KState J) (d : KVar J) :
    HasDerivAt (fun x => s.veval (st.move d x) s.momentumExpr) (s.veval st (s.momentumDeriv d)) 0 := by
  simp only [s.veval_momentumExpr hm]
  cases d with
  | position j =>
    have h := s.kin.hasDerivAt_momentum hm 1 st.twist st.q st.dq j
    rw [← s.veval_momentumJointsCols hm] at h
    rw [← add_zero (st.q j)] at h
    exact h.comp_const_add (st.q j) 0
  | velocity j =>
    have h := s.hasDerivAt_momentum_velocity hm st j
    rw [← add_zero (st.dq j)] at h
    exact h.comp_const_add (st.dq j) 0
  | twist e => exact s.hasDerivAt_momentum_twist st.twist e st.q st.dq

/-- C62: the derivative with respect to the positions of the joints is evaluated with the velocity of the base of the state: it is the
derivative of the momentum when that is the base twist. -/
theorem C62_joints_evaluation (hm : m.Regular) (st : KState J) (h : st.stateVel = st.twist) (j : J) :
    HasDerivAt (fun x => s.veval (st.move (.position j) x) s.momentumExpr) (s.stateMomentumJointsDerivative st j) 0 := by
  have := C62_first s hm st (.position j)
  rwa [show s.veval st (s.momentumDeriv (.position j)) = s.veval st (s.momentumJointsCols j) from rfl, s.veval_momentumJointsCols hm, ← h] at this

/-- C62: the second derivatives are right, for every pair of variables; those of two positions of joints are the ones of the loop, with
the columns of the joints below taken from the matrices of those joints. -/
theorem C62_second (hm : m.Regular) (st : KState J) (depth : ℕ) (d1 d2 : KVar J) :
    HasDerivAt (fun x => s.veval (st.move d2 x) (s.momentumDeriv d1)) (s.veval st (s.momentumDeriv2 (depth + 1) d1 d2)) 0 := by
  have gen := s.hasDerivAt_veval hm st d2 (s.momentumDeriv d1) (s.momentumDeriv_linkTargets d1)
  cases d1 with
  | position c =>
    cases d2 with
    | position j =>
      show HasDerivAt (fun x => s.veval (st.move (.position j) x) (s.momentumJointsCols c)) (s.veval st (s.momentumDoubleCols (depth + 1) c j)) 0
      rw [s.veval_momentumDoubleCols hm]
      simp only [s.veval_momentumJointsCols hm]
      have h := s.hasDerivAt_momentumJointsDerivative hm st c j
      rw [← add_zero (st.q j)] at h
      exact h.comp_const_add (st.q j) 0
    | velocity j => exact gen
    | twist e => exact gen
  | velocity c => cases d2 <;> exact gen
  | twist e =>
    cases d2 with
    | position j =>
      show HasDerivAt (fun x => s.eval (Function.update st.q j (st.q j + x)) s.crbi e) (s.eval st.q (s.crbiJointsDerivative j) e) 0
      simp only [s.eval_crbi, s.eval_crbiJointsDerivative]
      have h := s.kin.hasDerivAt_momentum hm 1 e st.q (fun _ => 0) j
      rw [← add_zero (st.q j)] at h
      exact h.comp_const_add (st.q j) 0
    | velocity j => exact gen
    | twist e' => exact gen

/-- C62: and so are the derivatives of the third order and more. -/
theorem C62_higher (hm : m.Regular) (st : KState J) (depth : ℕ) (d1 d2 : KVar J) (ds : List (KVar J)) (d : KVar J) :
    HasDerivAt (fun x => s.veval (st.move d x) (s.momentumDerivs depth d1 d2 ds)) (s.veval st (s.momentumDerivs depth d1 d2 (ds ++ [d]))) 0 :=
  C61_derivatives s hm _ (s.momentumDeriv2_linkTargets depth d1 d2) st ds d

/-! ### The hypotheses are met -/

example := C62_value sampleServer sample_regular sampleState 1
/-- Two joints of the same branch, the first above the second. -/
example := C62_second sampleServer sample_regular sampleState 2 (.position 0) (.position 1)
example := C62_higher sampleServer sample_regular sampleState 3 (.position 1) (.position 0) [.velocity 0] (.twist (0, ![1, 0, 0]))
example := C62_joints_evaluation sampleServer sample_regular { sampleState with stateVel := sampleState.twist } rfl 1

end Verif.Rigid
