import Verif.Lemmas.FrameOrientation3
/- Lemmas: the second derivatives of the cost of the orientation of a frame. -/
set_option linter.unusedSectionVars false
namespace Verif.NLP.Kin
open Matrix Verif.Rigid Function Verif.NLP.Spec Filter Topology
open Verif.Quaternion (normalizedDerivative rotationFromQuaternion normalized leftTrivializedDerivativeInverse leftTrivializedDerivative skew im rowRows
  Rotations Steady hasDerivAt_asQuaternion squaredNorm)
open Verif.NLP.Dynamics (quatOf baseRotation rpow env NonNull)
open Verif.Levi
open Verif.Levi.Ex (Env Cfg)
noncomputable section
variable {n nj : ℕ} {L F : Type} [DecidableEq L] [DecidableEq F] {m : Model L (Fin nj)} (c : Orientation m F) {x : SVec n} {u : CVec n}
  {Rd : Matrix (Fin 3) (Fin 3) ℝ} {E : NormExprs} {cfg : Cfg ℝ} {left : Leftover nj} {desired : Fin 4 → ℝ}

/-- The gradient of an expression. -/
def oGrad (v : OAtom nj → ℝ) (e : SExp (OAtom nj)) (p : Idx (SBlk n)) : ℝ :=
  if hp : p.1 = .baseQuat ∧ p.2 < 4 then (oder (.q ⟨p.2, hp.2⟩) e).eval v
  else if hp : p.1 = .joints ∧ p.2 < nj then (oder (.joint ⟨p.2, hp.2⟩) e).eval v
  else 0

/-- The product in the second derivatives of the error. -/
theorem products (e : Fin 4 → ℝ) (w y : Vec) :
    (0.5 : ℝ) • ((gMat ((gMat e)ᵀ *ᵥ y))ᵀ *ᵥ w) = (gMat ((0.5 : ℝ) • ((gMat e)ᵀ *ᵥ w)))ᵀ *ᵥ y + (gMat e)ᵀ *ᵥ (-(w ⨯₃ y)) := by
  funext i
  fin_cases i <;> simp [gMat, mulVec, dotProduct, Fin.sum_univ_three, cross_apply, vecHead, vecTail] <;> ring

namespace Orientation

theorem oGrad_right (hm : m.Regular) (hs : Levi.Spec.Sound cfg) (hE : E.Made cfg) (hx : quatOf x ≠ 0) (hRd : Rd ∈ Rotations)
    (hS : Steady c.asQuaternion (Rdᵀ * c.frameRotation x)) (hd : rotationFromQuaternion desired = Rd) {e : SExp (OAtom nj)} (he : e.All OOrder1) :
    GradAt (fun y => e.eval (c.oVal E left desired y u)) (oGrad (c.oVal E left desired x u) e) x := by
  intro p
  unfold oGrad
  by_cases h1 : p.1 = .baseQuat ∧ p.2 < 4
  · rw [dif_pos h1]
    obtain ⟨b, k⟩ := p
    have hb : b = .baseQuat := h1.1
    have hk : k < 4 := h1.2
    subst hb
    have h := SExp.hasDerivAt_eval (v := fun t => c.oVal E left desired (update x (.baseQuat, k) t) u)
      (fun a ha => c.atom_q (u := u) hs hE hx hRd hS hd ⟨k, hk⟩ a ha) he
    rw [oder, SExp.eval_der]
    simp only [update_eq_self] at h
    exact h
  · rw [dif_neg h1]
    by_cases h2 : p.1 = .joints ∧ p.2 < nj
    · rw [dif_pos h2]
      obtain ⟨b, k⟩ := p
      have hb : b = .joints := h2.1
      have hk : k < nj := h2.2
      subst hb
      have h := SExp.hasDerivAt_eval (v := fun t => c.oVal E left desired (update x (.joints, k) t) u)
        (fun a ha => c.atom_joint (u := u) hm hs hE hx hRd hS hd ⟨k, hk⟩ a ha) he
      rw [oder, SExp.eval_der]
      simp only [update_eq_self] at h
      exact h
    · rw [dif_neg h2]
      have h := SExp.hasDerivAt_eval (v := fun t => c.oVal E left desired (update x p t) u)
        (fun a ha => c.atom_other (u := u) hs hE hx p h1 h2 a ha) he
      exact h.congr_deriv (SExp.dev_zero _ _)

/-! ### The expressions have no second derivatives -/

theorem oG_all (q : Fin 4 → OAtom nj) (hq : ∀ i, OOrder1 (q i)) (i : Fin 3) (j : Fin 4) : (oG q i j).All OOrder1 := by
  fin_cases i <;> fin_cases j <;>
    simp [oG, SMat.hcat, SMat.neg, SMat.add, SMat.skew, SMat.ident, SExp.All, Fin.append, Fin.addCases, hq]

theorem errorByJoint_all (j : Fin nj) (i : Fin 4) : (errorByJoint j i 0).All OOrder1 :=
  fun b => ⟨⟨trivial, oG_all .e (fun _ => trivial) b i⟩, trivial⟩

theorem errorByQuaternion_all (i k : Fin 4) : (errorByQuaternion (nj := nj) i k).All OOrder1 :=
  fun p => ⟨fun d => ⟨fun b => ⟨oG_all .e (fun _ => trivial) b i, trivial⟩, oG_all .n (fun _ => trivial) d p⟩, trivial⟩

theorem derivativeE_all (w : ℝ) (d : OVar nj) : (c.derivativeE w d).All OOrder1 := by
  refine ⟨trivial, fun i => ⟨⟨trivial, trivial⟩, ?_, trivial⟩⟩
  cases d with
  | q k => exact errorByQuaternion_all i k
  | joint j => exact errorByJoint_all j i

/-! ### The gradient of the value -/

theorem eval_derivativeE (w : ℝ) (d : OVar nj) (hd : rotationFromQuaternion desired = Rd) :
    (c.derivativeE w d).eval (c.oVal E left desired x u) = w * ((fun i => (oAtomDer d (.e i)).eval (c.oVal E left desired x u)) ⬝ᵥ c.difference Rd x) := by
  have hde : ∀ i, c.oVal E left desired x u (.e i) = c.error Rd x i := fun i => congrFun (c.oVal_e hd x) i
  simp only [derivativeE, differenceE, SExp.eval, oder, SExp.der, neg_zero, add_zero, dotProduct, hde, difference, Pi.sub_apply, ← sub_eq_add_neg]
  congr 1
  exact Finset.sum_congr rfl fun i _ => mul_comm _ _

/-- The gradient the second derivatives are made from. -/
def expressionGradient (w : ℝ) (v : OAtom nj → ℝ) (p : Idx (SBlk n)) : ℝ :=
  if hp : p.1 = .baseQuat ∧ p.2 < 4 then (c.derivativeE w (.q ⟨p.2, hp.2⟩)).eval v
  else if hp : p.1 = .joints ∧ p.2 < nj then (c.derivativeE w (.joint ⟨p.2, hp.2⟩)).eval v
  else 0

theorem expressionGradient_right (hm : m.Regular) (hs : Levi.Spec.Sound cfg) (hE : E.Made cfg) (hx : quatOf x ≠ 0) (hRd : Rd ∈ Rotations)
    (hS : Steady c.asQuaternion (Rdᵀ * c.frameRotation x)) (hd : rotationFromQuaternion desired = Rd) (w : ℝ) :
    GradAt (c.value w Rd) (c.expressionGradient w (c.oVal E left desired x u)) x := by
  intro p
  unfold expressionGradient
  by_cases h1 : p.1 = .baseQuat ∧ p.2 < 4
  · rw [dif_pos h1]
    obtain ⟨b, k⟩ := p
    have hb : b = .baseQuat := h1.1
    have hk : k < 4 := h1.2
    subst hb
    refine (c.value_hasDerivAt (c.error_quat hx hRd hS ⟨k, hk⟩)).congr_deriv ?_
    rw [c.eval_derivativeE w _ hd]
    congr 2
    funext i
    exact (c.eval_errorByQuaternion hs hE hx hd i ⟨k, hk⟩).symm
  · rw [dif_neg h1]
    by_cases h2 : p.1 = .joints ∧ p.2 < nj
    · rw [dif_pos h2]
      obtain ⟨b, k⟩ := p
      have hb : b = .joints := h2.1
      have hk : k < nj := h2.2
      subst hb
      refine (c.value_hasDerivAt (c.error_joint hm hRd hS ⟨k, hk⟩)).congr_deriv ?_
      rw [c.eval_derivativeE w _ hd]
      congr 2
      funext i
      exact (c.eval_errorByJoint hd ⟨k, hk⟩ i).symm
    · rw [dif_neg h2]
      have : ∀ t, c.value w Rd (update x p t) = c.value w Rd x := fun t => by
        simp only [value, difference, error, c.frameRotation_other p h1 h2]
      simp only [this]; exact hasDerivAt_const _ _

/-! ### The mixed derivatives -/

theorem m1_value (hm : m.Regular) (b d : Fin 3) (j : Fin nj) :
    c.oVal E left desired x u (.m1 b d j) = ((c.server.transform (jointsOf x) c.server.baseFrame c.frame).R * skew (c.bodyJoint x j)) d b := by
  have h := c.m1_hasDerivAt (x := x) (u := u) (E := E) (left := left) (desired := desired) hm b d j
  simp only [oVal_m, jointsOf_update_joint] at h
  have h' := (hasTangent_iff.1 (c.server.hasTangent_transform hm (jointsOf x) c.server.baseFrame c.frame j)).1 d b
  simp only [update_eq_self] at h'
  exact h.unique h'

/-- The second derivatives of the error commute. -/
theorem error_comm (hm : m.Regular) (hs : Levi.Spec.Sound cfg) (hE : E.Made cfg) (hx : quatOf x ≠ 0) (hd : rotationFromQuaternion desired = Rd) (j : Fin nj)
    (k i : Fin 4) : (oder (.q k) (errorByJoint j i 0)).eval (c.oVal E left desired x u) = (oder (.joint j) (errorByQuaternion i k)).eval (c.oVal E left desired x u) := by
  set v := c.oVal E left desired x u with hv
  set T := c.server.transform (jointsOf x) c.server.baseFrame c.frame with hT
  set e := c.error Rd x with he
  set y : Vec := T.Rᵀ *ᵥ (gMat (quatN x) *ᵥ fun i => normalizedDerivative Real.sqrt (quatOf x) i k) with hy
  set w := c.bodyJoint x j with hw
  have heq : (fun i => (oAtomDer (.q k) (.e i)).eval v) = (gMat e)ᵀ *ᵥ y := by
    funext i
    refine (c.eval_errorByQuaternion hs hE hx hd i k).trans ?_
    rw [body_half, left_gMat, mulVec_smul, smul_mulVec, smul_smul]
    norm_num [← mulVec_mulVec]
    rfl
  have hej : (fun i => (oAtomDer (.joint j) (.e i)).eval v) = (0.5 : ℝ) • ((gMat e)ᵀ *ᵥ w) := by
    funext i
    refine (c.eval_errorByJoint hd j i).trans ?_
    rw [left_gMat, smul_mulVec]
  have L : evalM v (derM (.q k) (errorByJoint j)) = ((0.5 : ℝ) • (gMat ((gMat e)ᵀ *ᵥ y))ᵀ) * of fun (b : Fin 3) (_ : Fin 1) => w b := by
    rw [errorByJoint, evalM_derM_mul, evalM_derM_smul]
    have h1 : evalM v (derM (.q k) (SMat.transpose (oG (nj := nj) .e))) = (gMat ((gMat e)ᵀ *ᵥ y))ᵀ := by
      rw [← heq, ← evalM_derM_oG]; rfl
    have h2 : evalM v (derM (.q k) fun (b : Fin 3) (_ : Fin 1) => (.atom (.w b j) : SExp (OAtom nj))) = 0 := rfl
    rw [h1, h2, Matrix.mul_zero, add_zero]
    congr 1
    ext b l
    simp only [evalM, of_apply, SExp.eval, hv, oVal, c.server.veval_jacobianColumn, hw, bodyJoint, Leftover.state]
  have R : evalM v (derM (.joint j) (errorByQuaternion (nj := nj))) =
      ((gMat ((0.5 : ℝ) • ((gMat e)ᵀ *ᵥ w)))ᵀ * T.Rᵀ + (gMat e)ᵀ * (T.R * skew w)ᵀ) * gMat (quatN x) * normalizedDerivative Real.sqrt (quatOf x) := by
    rw [errorByQuaternion, evalM_derM_mul, evalM_derM_mul, evalM_derM_mul, evalM_transpose, evalM_oG]
    have h1 : evalM v (derM (.joint j) (SMat.transpose (oG (nj := nj) .e))) = (gMat ((0.5 : ℝ) • ((gMat e)ᵀ *ᵥ w)))ᵀ := by
      rw [← hej, ← evalM_derM_oG]; rfl
    have h2 : evalM v (derM (.joint j) (oG (nj := nj) .n)) = 0 := by
      rw [evalM_derM_oG]
      ext a b
      fin_cases a <;> fin_cases b <;> simp [gMat, oAtomDer, SExp.eval]
    have h3 : evalM v (derM (.joint j) fun i k => (.atom (.N i k) : SExp (OAtom nj))) = 0 := rfl
    have h4 : evalM v (fun b d => (.atom (.m b d) : SExp (OAtom nj))) = T.Rᵀ := by
      ext b d; exact c.oVal_m (u := u) (E := E) (left := left) (desired := desired) x b d
    have h5 : evalM v (derM (.joint j) fun b d => (.atom (.m b d) : SExp (OAtom nj))) = (T.R * skew w)ᵀ := by
      ext b d; exact c.m1_value (u := u) (E := E) (left := left) (desired := desired) hm b d j
    have h6 : (fun i => v (.e i)) = e := c.oVal_e (u := u) (E := E) (left := left) hd x
    have h7 : evalM v (fun i k => (.atom (.N i k) : SExp (OAtom nj))) = normalizedDerivative Real.sqrt (quatOf x) := by
      ext i k; exact c.oVal_N (u := u) (left := left) (desired := desired) hs hE hx i k
    have h8 : evalM v (oG (nj := nj) .n) = gMat (quatN x) := evalM_oG v _
    rw [h1, h2, h3, h4, h5, h6, h7, h8, Matrix.mul_zero, Matrix.mul_zero, add_zero, add_zero]
  have l := congrFun (congrFun L i) 0
  have r := congrFun (congrFun R i) k
  refine l.trans (Eq.trans ?_ r.symm)
  have hr : (((gMat ((0.5 : ℝ) • ((gMat e)ᵀ *ᵥ w)))ᵀ * T.Rᵀ + (gMat e)ᵀ * (T.R * skew w)ᵀ) * gMat (quatN x)) *ᵥ (fun i => normalizedDerivative Real.sqrt (quatOf x) i k) =
      (gMat ((0.5 : ℝ) • ((gMat e)ᵀ *ᵥ w)))ᵀ *ᵥ y + (gMat e)ᵀ *ᵥ (-(w ⨯₃ y)) := by
    rw [← mulVec_mulVec, add_mulVec, ← mulVec_mulVec, ← mulVec_mulVec, transpose_mul, ← mulVec_mulVec, ← hy]
    congr 2
    have : (skew w)ᵀ = -skew w := by ext a b; fin_cases a <;> fin_cases b <;> simp [skew]
    rw [this, neg_mulVec, skew_hat, hat_mulVec]
  have hl : ((0.5 : ℝ) • (gMat ((gMat e)ᵀ *ᵥ y))ᵀ) *ᵥ w = (0.5 : ℝ) • ((gMat ((gMat e)ᵀ *ᵥ y))ᵀ *ᵥ w) := smul_mulVec _ _ _
  have := congrFun (hl.trans ((products e w y).trans hr.symm)) i
  exact this

theorem derivativeE_comm (hm : m.Regular) (hs : Levi.Spec.Sound cfg) (hE : E.Made cfg) (hx : quatOf x ≠ 0) (hd : rotationFromQuaternion desired = Rd) (w : ℝ)
    (j : Fin nj) (k : Fin 4) : (oder (.q k) (c.derivativeE w (.joint j))).eval (c.oVal E left desired x u) =
      (oder (.joint j) (c.derivativeE w (.q k))).eval (c.oVal E left desired x u) := by
  have h := c.error_comm (u := u) (left := left) hm hs hE hx hd j k
  unfold oder at h
  simp only [derivativeE, differenceE, oder, SExp.der, SExp.eval, zero_mul, zero_add, neg_zero, add_zero, oAtomDer, h]
  congr 1
  exact Finset.sum_congr rfl fun i _ => by ring

/-! ### The second derivatives -/

theorem hessian_right (hm : m.Regular) (hs : Levi.Spec.Sound cfg) (hE : E.Made cfg) (hx : quatOf x ≠ 0) (hRd : Rd ∈ Rotations)
    (hS : Steady c.asQuaternion (Rdᵀ * c.frameRotation x)) (hd : rotationFromQuaternion desired = Rd) (w : ℝ) :
    HessNear (c.value w Rd) (c.hessian w (c.oVal E left desired x u) fun _ _ => 0) x := by
  refine ⟨fun y => c.expressionGradient w (c.oVal E left desired y u), ?_, fun p => ?_⟩
  · have hc : Tendsto (fun y : SVec n => Rdᵀ * c.frameRotation y) (𝓝 x) (𝓝[Rotations] (Rdᵀ * c.frameRotation x)) :=
      tendsto_nhdsWithin_iff.2 ⟨continuousAt_matrix_mul continuousAt_const (c.continuousAt_frameRotation hm hx),
        Eventually.of_forall fun y => rotation_transpose_mul hRd (c.frameRotation_mem y)⟩
    filter_upwards [Dynamics.eventually_nonNull hx, hc.eventually hS.near] with y hy hy2
    exact c.expressionGradient_right hm hs hE hy hRd hy2 hd w
  · intro q
    have key : ∀ (d : OVar nj), HasDerivAt (fun t => (c.derivativeE w d).eval (c.oVal E left desired (update x q t) u))
        (oGrad (c.oVal E left desired x u) (c.derivativeE w d) q) (x q) := fun d => c.oGrad_right hm hs hE hx hRd hS hd (c.derivativeE_all w d) q
    unfold expressionGradient
    by_cases hp : p.1 = .baseQuat ∧ p.2 < 4
    · simp only [dif_pos hp]
      refine (key _).congr_deriv ?_
      have hnp : ¬ (p.1 = .joints ∧ p.2 < nj) := by rw [hp.1]; simp
      unfold oGrad hessian putBlock
      by_cases h1 : q.1 = .baseQuat ∧ q.2 < 4
      · have hnq : ¬ (q.1 = .joints ∧ q.2 < nj) := by rw [h1.1]; simp
        simp only [dif_pos h1, hp, h1, hnp, hnq, and_self, and_false, false_and, dif_pos, dif_neg, not_false_eq_true]
        simp
      · rw [dif_neg h1]
        by_cases h2 : q.1 = .joints ∧ q.2 < nj
        · have hq0 : q.1 ≠ .baseQuat := by rw [h2.1]; simp
          simp [h2, hp]
        · simp [h1, h2, hp]
    · simp only [dif_neg hp]
      by_cases hp' : p.1 = .joints ∧ p.2 < nj
      · simp only [dif_pos hp']
        refine (key _).congr_deriv ?_
        unfold oGrad hessian putBlock
        by_cases h1 : q.1 = .baseQuat ∧ q.2 < 4
        · rw [dif_pos h1]
          simp [h1, hp']
          exact c.derivativeE_comm hm hs hE hx hd w _ _
        · rw [dif_neg h1]
          by_cases h2 : q.1 = .joints ∧ q.2 < nj
          · simp [h2, hp']
          · simp [h1, h2, hp']
      · simp only [dif_neg hp']
        refine (hasDerivAt_const _ _).congr_deriv ?_
        unfold hessian putBlock
        simp [hp, hp']

end Orientation
end
end Verif.NLP.Kin
