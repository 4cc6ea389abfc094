import Verif.Lemmas.PointConstraints2
import Verif.Props.VecExpr
import Verif.Props.TreeExpr
/- Lemmas: the centre of mass and the contact points in the base. -/
set_option linter.unusedSectionVars false
namespace Verif.Rigid.Server
variable {L J F : Type} [DecidableEq L] [DecidableEq J] [DecidableEq F] {m : Model L J} (s : Server m F)

theorem comDoubleValue_symm (q : J → ℝ) (c j : J) : s.comDoubleValue q c j = s.comDoubleValue q j c := by
  unfold comDoubleValue
  congr 1
  refine List.map_congr_left fun l _ => ?_
  by_cases hc : s.kin.child c ∈ s.kin.up l <;> by_cases hj : s.kin.child j ∈ s.kin.up l
  · simp only [if_pos hc, if_pos hj]
    by_cases h1 : s.kin.child j ∈ s.kin.up (s.kin.child c) <;> by_cases h2 : s.kin.child c ∈ s.kin.up (s.kin.child j)
    · rw [if_pos h1, if_pos h2, s.kin.mem_up_antisymm h1 h2]
    · rw [if_pos h1, if_neg h2]
    · rw [if_neg h1, if_pos h2]
    · exact absurd (s.kin.mem_up_total hc hj) (by tauto)
  · have : s.kin.child j ∉ s.kin.up (s.kin.child c) := fun h => hj (s.kin.mem_up_trans h hc)
    simp [hc, hj, this]
  · have : s.kin.child c ∉ s.kin.up (s.kin.child j) := fun h => hc (s.kin.mem_up_trans h hj)
    simp [hc, hj, this]
  · simp [hc, hj]

end Verif.Rigid.Server

namespace Verif.NLP.Kin
open Matrix Verif.Rigid Function Verif.NLP.Spec
open Verif.NLP.Dynamics (quatOf velOf baseRotation rpow env NonNull rotE)
open Verif.Levi Verif.Levi.Ex
noncomputable section
variable {n nj : ℕ} {L F : Type} [DecidableEq L] [DecidableEq F] {m : Model L (Fin nj)} (s : Server m F) {x : SVec n} {u : CVec n} {lam : Fin 3 → ℝ}
  {E : RotExprs} {cfg : Cfg ℝ} {fuel : ℕ} {w : Leftover nj}

theorem comInner_right (hm : m.Regular) (hM : m.totalMass ≠ 0) : (comInner (n := n) s fuel w).Right where
  other x p t h := by
    simp only [comInner, s.comInBase_base hM (baseTransform _), s.comInBaseJacobian_base (baseTransform _), jointsOf_update_other x p h t, and_self]
  c x j := by
    simp only [comInner, s.comInBase_base hM (baseTransform _), s.comInBaseJacobian_base (baseTransform _), jointsOf_update_joint]
    exact s.hasDerivAt_comInBase hm 1 (jointsOf x) j
  c1 x j k := by
    simp only [comInner, s.comInBaseJacobian_base (baseTransform _), jointsOf_update_joint, s.veval_comHessianCols]
    exact s.hasDerivAt_comInBaseJacobian hm 1 (jointsOf x) j k
  m x e j := hasDerivAt_const _ _
  m1 x e j k := hasDerivAt_const _ _
  c2_symm x j k := by simp only [comInner, s.veval_comHessianCols]; rw [s.comDoubleValue_symm]
  m2_symm x e j k := rfl

theorem state_update_joint (x : SVec n) (j : Fin nj) (t : ℝ) :
    w.state (update x (.joints, (j : ℕ)) t) = { w.state x with q := update (w.state x).q j t } := by
  simp only [Leftover.state, jointsOf_update_joint]

theorem contactInner_right (hm : m.Regular) (foot : F) (hf : s.KeepsAxes foot) : (contactInner (n := n) s foot w).Right where
  other x p t h := by
    simp only [contactInner, Leftover.state, jointsOf_update_other x p h t, and_self]
  c x j := by
    simp only [contactInner, state_update_joint]
    exact (C61_position s hm (w.state x) s.baseFrame foot j).2
  c1 x j k := by
    simp only [contactInner, state_update_joint]
    exact (C61_position_hessian_keepsAxes s hm (w.state x) s.baseFrame foot hf j k).1
  m x e j := by
    simp only [contactInner, jointsOf_update_joint]
    exact C60_rotation_derivatives_partial s hm (.adj s.baseFrame foot) hf (jointsOf x) [] j (unit3 e)
  m1 x e j k := by
    simp only [contactInner, jointsOf_update_joint]
    exact C60_rotation_derivatives_partial s hm (.adj s.baseFrame foot) hf (jointsOf x) [j] k (unit3 e)
  c2_symm x j k := (C61_position_hessian_keepsAxes s hm (w.state x) s.baseFrame foot hf j k).2
  m2_symm x e j k := congrArg Prod.fst (C60_rotation_symmetric s hm (jointsOf x) s.baseFrame foot hf j k (unit3 e))

/-! ### The values -/

theorem eval_com (I : Inner n nj) (x : SVec n) (a : Fin 3) (hx : quatOf x ≠ 0) :
    (comPositionE a 0).eval (pVal E I x u) = ((baseTransform x).point (I.c x)) a := by
  simp only [comPositionE, SMat.add, SMat.mul, basePosE, baseRotE, SExp.eval, R_val hx]
  simp only [pVal]
  rfl

theorem com_value (hx : quatOf x ≠ 0) (a : Fin 3) :
    (comPositionE a 0).eval (pVal E (comInner s fuel w) x u) = comPos s x a := by
  rw [eval_com _ _ _ hx, comPos_eq]; rfl

theorem eval_contact (I : Inner n nj) (x : SVec n) (p : Vec) (a : Fin 3) (hx : quatOf x ≠ 0) :
    (contactPositionE p a 0).eval (pVal E I x u) = ((baseTransform x).point (I.c x + ∑ e, p e • I.m x e)) a := by
  simp only [contactPositionE, SMat.add, SMat.mul, basePosE, baseRotE, SExp.eval, R_val hx]
  simp only [pVal]
  show _ = x (.basePos, (a : ℕ)) + (baseRotation x *ᵥ _) a
  simp only [mulVec, dotProduct, Fin.sum_univ_three, Pi.add_apply, Pi.smul_apply, smul_eq_mul]
  ring

theorem contact_value (hx : quatOf x ≠ 0) (foot : F) (p : Vec) (a : Fin 3) :
    (contactPositionE p a 0).eval (pVal E (contactInner s foot w) x u) =
      (s.kin.world (baseTransform x) (jointsOf x) (s.frames.link foot) * s.frames.offset foot).point p a := by
  rw [eval_contact _ _ _ _ hx]
  have hT : s.transform (jointsOf x) s.baseFrame foot = (baseTransform x)⁻¹ * (s.kin.world (baseTransform x) (jointsOf x) (s.frames.link foot) * s.frames.offset foot) := by
    rw [Server.transform, s.frames.offset_ofLink, s.frames.link_ofLink, inv_one, one_mul, ← s.kin.rel_base (baseTransform x), Traversal.rel,
      ← s.kin_root, Traversal.world_root, mul_assoc]
  have hpt : (s.kin.world (baseTransform x) (jointsOf x) (s.frames.link foot) * s.frames.offset foot).point p =
      (baseTransform x).point ((s.transform (jointsOf x) s.baseFrame foot).point p) := by
    rw [hT, ← Server.point_comp, mul_inv_cancel_left]
  rw [hpt]
  refine congrFun (congrArg _ ?_) a
  have hc : (contactInner (n := n) s foot w).c x = (s.transform (jointsOf x) s.baseFrame foot).p := by
    show (if s.baseFrame = foot then 0 else _) = _
    split_ifs with h
    · subst h
      rw [s.transform_same _ _ _ rfl, inv_mul_cancel]; rfl
    · rfl
  have hrot : ∀ e, (contactInner (n := n) s foot w).m x e = (s.transform (jointsOf x) s.baseFrame foot).R *ᵥ unit3 e := by
    intro e
    show (s.eval _ _ _).1 = _
    rw [s.eval_adj]
    simp [SE3.act]
  rw [hc]
  simp only [hrot, SE3.point]
  congr 1
  funext b
  simp [mulVec, dotProduct, Fin.sum_univ_three, unit3]
  ring

/-! ### The rotation of the base -/

open Verif.Quaternion in
/-- Both forms of the derivative of a rotated vector. -/
theorem rotated_angular (q d : Fin 4 → ℝ) (v : Vec) (hq : q 0 * q 0 + q 1 * q 1 + q 2 * q 2 + q 3 * q 3 = 1)
    (hd : q 0 * d 0 + q 1 * d 1 + q 2 * d 2 + q 3 * d 3 = 0) :
    rotatedVectorJacobian Real.sqrt v q *ᵥ d = (rightTrivializedInverse q *ᵥ d) ⨯₃ (rotationFromQuaternion q *ᵥ v) := by
  rw [rotatedVectorJacobian_eq, unscaled_entry, rotate_entry, rightTrivializedInverse]
  funext i
  fin_cases i <;> simp [cross_apply, mulVec, dotProduct, Fin.sum_univ_succ, vecHead, vecTail] <;> grind

end
end Verif.NLP.Kin
