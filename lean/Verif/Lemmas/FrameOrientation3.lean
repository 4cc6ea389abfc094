import Verif.Lemmas.FrameOrientation2
/- Lemmas: the derivatives of the atoms of the error quaternion. -/
set_option linter.unusedSectionVars false
namespace Verif.NLP.Kin
open Matrix Verif.Rigid Function Verif.NLP.Spec Filter Topology
open Verif.Quaternion (normalizedDerivative rotationFromQuaternion normalized leftTrivializedDerivativeInverse leftTrivializedDerivative skew im rowRows
  Rotations Steady hasDerivAt_asQuaternion squaredNorm)
open Verif.NLP.Dynamics (quatOf baseRotation rpow env NonNull)
open Verif.Levi
open Verif.Levi.Ex (Env Cfg)
noncomputable section
variable {n nj : ℕ} {L F : Type} [DecidableEq L] [DecidableEq F] {m : Model L (Fin nj)} (c : Orientation m F) {x : SVec n} {u : CVec n}
  {Rd : Matrix (Fin 3) (Fin 3) ℝ} {E : NormExprs} {cfg : Cfg ℝ} {left : Leftover nj} {desired : Fin 4 → ℝ}

/-! ### Matrices of expressions -/

/-- The value of a matrix of expressions. -/
def evalM {A : Type} {r k : ℕ} (v : A → ℝ) (M : SMat A r k) : Matrix (Fin r) (Fin k) ℝ := of fun i j => (M i j).eval v

/-- The derivative of a matrix of expressions. -/
def derM {r k : ℕ} (d : OVar nj) (M : SMat (OAtom nj) r k) : SMat (OAtom nj) r k := fun i j => oder d (M i j)

theorem evalM_mul {A : Type} {r k l : ℕ} (v : A → ℝ) (M : SMat A r k) (N : SMat A k l) : evalM v (SMat.mul M N) = evalM v M * evalM v N := by
  ext i j; simp only [evalM, of_apply, SMat.mul, SExp.eval, mul_apply]

theorem evalM_transpose {A : Type} {r k : ℕ} (v : A → ℝ) (M : SMat A r k) : evalM v (SMat.transpose M) = (evalM v M)ᵀ := rfl

theorem evalM_smul {A : Type} {r k : ℕ} (v : A → ℝ) (a : ℝ) (M : SMat A r k) : evalM v (SMat.smul (.const a) M) = a • evalM v M := rfl

theorem evalM_derM_mul {r k l : ℕ} (v : OAtom nj → ℝ) (d : OVar nj) (M : SMat (OAtom nj) r k) (N : SMat (OAtom nj) k l) :
    evalM v (derM d (SMat.mul M N)) = evalM v (derM d M) * evalM v N + evalM v M * evalM v (derM d N) := by
  ext i j
  simp only [evalM, derM, of_apply, SMat.mul, oder, SExp.der, SExp.eval, Matrix.add_apply, mul_apply, Finset.sum_add_distrib]

theorem evalM_derM_smul {r k : ℕ} (v : OAtom nj → ℝ) (d : OVar nj) (a : ℝ) (M : SMat (OAtom nj) r k) :
    evalM v (derM d (SMat.smul (.const a) M)) = a • evalM v (derM d M) := by
  ext i j
  simp [evalM, derM, of_apply, SMat.smul, oder, SExp.der, SExp.eval]

/-- The matrix of `G_Expression`. -/
def gMat (q : Fin 4 → ℝ) : Matrix (Fin 3) (Fin 4) ℝ :=
  !![-q 1, q 0, q 3, -q 2; -q 2, -q 3, q 0, q 1; -q 3, q 2, -q 1, q 0]

theorem evalM_oG (v : OAtom nj → ℝ) (q : Fin 4 → OAtom nj) : evalM v (oG q) = gMat fun i => v (q i) := by
  ext i j
  fin_cases i <;> fin_cases j <;>
    simp [evalM, oG, gMat, SMat.hcat, SMat.neg, SMat.add, SMat.skew, SMat.ident, SExp.eval, Fin.append, Fin.addCases]

theorem evalM_derM_oG (v : OAtom nj → ℝ) (d : OVar nj) (q : Fin 4 → OAtom nj) : evalM v (derM d (oG q)) = gMat fun i => (oAtomDer d (q i)).eval v := by
  ext i j
  fin_cases i <;> fin_cases j <;>
    simp [evalM, derM, oder, oG, gMat, SMat.hcat, SMat.neg, SMat.add, SMat.skew, SMat.ident, SExp.eval, SExp.der, Fin.append, Fin.addCases]

theorem left_gMat (q : Fin 4 → ℝ) : leftTrivializedDerivative q = (0.5 : ℝ) • (gMat q)ᵀ := by
  ext i j
  fin_cases i <;> fin_cases j <;> simp [leftTrivializedDerivative, rowRows, gMat, im, skew] <;> norm_num

theorem inverse_gMat (q : Fin 4 → ℝ) : leftTrivializedDerivativeInverse q = (2 : ℝ) • gMat q := by
  ext i j
  fin_cases i <;> fin_cases j <;> simp [leftTrivializedDerivativeInverse, Quaternion.colCols, im, skew, gMat]

/-! ### The atoms -/

/-- The atoms that are not second derivatives. -/
def OOrder1 : OAtom nj → Prop
  | .w1 _ _ _ | .m1 _ _ _ | .NN _ _ _ => False
  | _ => True

namespace Orientation

theorem oVal_e (hd : rotationFromQuaternion desired = Rd) (y : SVec n) : (fun i => c.oVal E left desired y u (.e i)) = c.error Rd y := by
  funext i; simp only [oVal, hd]; rfl

theorem oVal_m (y : SVec n) (b d : Fin 3) : c.oVal E left desired y u (.m b d) = (c.server.transform (jointsOf y) c.server.baseFrame c.frame).R d b := by
  simp only [oVal, c.server.eval_adj]
  have e : c.server.transform (jointsOf y) c.frame c.server.baseFrame = (c.server.transform (jointsOf y) c.server.baseFrame c.frame)⁻¹ := by
    simp only [Server.transform, Traversal.rel, _root_.mul_inv_rev, inv_inv, mul_assoc]
  rw [e]
  simp [SE3.act, unit3]

theorem oVal_N (hs : Levi.Spec.Sound cfg) (hE : E.Made cfg) {y : SVec n} (hy : quatOf y ≠ 0) (i k : Fin 4) :
    c.oVal E left desired y u (.N i k) = normalizedDerivative Real.sqrt (quatOf y) i k := atomVal_N (fuel := 0) (lam := 0) c.server hs hE hy i k

/-- The value of the derivative by a joint. -/
theorem eval_errorByJoint (hd : rotationFromQuaternion desired = Rd) (j : Fin nj) (i : Fin 4) :
    (errorByJoint j i 0).eval (c.oVal E left desired x u) = (leftTrivializedDerivative (c.error Rd x) *ᵥ c.bodyJoint x j) i := by
  have h : evalM (c.oVal E left desired x u) (errorByJoint j) = leftTrivializedDerivative (c.error Rd x) * of fun (b : Fin 3) (_ : Fin 1) => c.bodyJoint x j b := by
    rw [errorByJoint, evalM_mul, evalM_smul, evalM_transpose, evalM_oG, c.oVal_e hd, left_gMat]
    congr 1
    ext b l
    simp only [evalM, of_apply, SExp.eval, oVal, c.server.veval_jacobianColumn, bodyJoint, Leftover.state]
  exact congrFun (congrFun h i) 0

/-- Half of the angular velocity of the frame when an entry of the quaternion moves. -/
theorem body_half (x : SVec n) (k : Fin 4) : c.bodyQuat x k = (2 : ℝ) • ((c.server.transform (jointsOf x) c.server.baseFrame c.frame).Rᵀ *ᵥ
    (gMat (quatN x) *ᵥ fun i => normalizedDerivative Real.sqrt (quatOf x) i k)) := by
  rw [bodyQuat, inverse_gMat, smul_mulVec, mulVec_smul]

theorem evalM_errorByQuaternion (hs : Levi.Spec.Sound cfg) (hE : E.Made cfg) (hx : quatOf x ≠ 0) (hd : rotationFromQuaternion desired = Rd) :
    evalM (c.oVal E left desired x u) errorByQuaternion = (gMat (c.error Rd x))ᵀ * (c.server.transform (jointsOf x) c.server.baseFrame c.frame).Rᵀ * gMat (quatN x) *
      normalizedDerivative Real.sqrt (quatOf x) := by
  rw [errorByQuaternion, evalM_mul, evalM_mul, evalM_mul, evalM_transpose, evalM_oG, evalM_oG, c.oVal_e hd]
  congr 1
  · congr 2
    ext b d
    simp only [evalM, of_apply, SExp.eval, oVal_m, transpose_apply]
  · ext i k
    simp only [evalM, of_apply, SExp.eval, c.oVal_N hs hE hx]

theorem eval_errorByQuaternion (hs : Levi.Spec.Sound cfg) (hE : E.Made cfg) (hx : quatOf x ≠ 0) (hd : rotationFromQuaternion desired = Rd) (i k : Fin 4) :
    (errorByQuaternion i k).eval (c.oVal E left desired x u) = (leftTrivializedDerivative (c.error Rd x) *ᵥ c.bodyQuat x k) i := by
  have h := congrFun (congrFun (c.evalM_errorByQuaternion (left := left) (u := u) hs hE hx hd) i) k
  refine h.trans ?_
  rw [body_half, left_gMat, mulVec_smul, smul_mulVec, smul_smul]
  norm_num
  rw [Matrix.mul_assoc ((gMat _)ᵀ)]
  rfl

theorem atom_q (hs : Levi.Spec.Sound cfg) (hE : E.Made cfg) (hx : quatOf x ≠ 0) (hRd : Rd ∈ Rotations)
    (hS : Steady c.asQuaternion (Rdᵀ * c.frameRotation x)) (hd : rotationFromQuaternion desired = Rd) (k : Fin 4) (a : OAtom nj) (ha : OOrder1 a) :
    HasDerivAt (fun t => c.oVal E left desired (update x (.baseQuat, (k : ℕ)) t) u a) ((oAtomDer (.q k) a).eval (c.oVal E left desired x u)) (x (.baseQuat, (k : ℕ))) := by
  have hj : ∀ t, (jointsOf (update x (.baseQuat, (k : ℕ)) t) : Fin nj → ℝ) = jointsOf x := jointsOf_update_other _ _ (by simp)
  cases a with
  | e i =>
    rw [show (oAtomDer (.q k) (.e i) : SExp (OAtom nj)) = errorByQuaternion i k from rfl, c.eval_errorByQuaternion hs hE hx hd]
    simp only [fun t => congrFun (c.oVal_e (E := E) (left := left) (u := u) hd (update x (.baseQuat, (k : ℕ)) t)) i]
    exact hasDerivAt_pi.1 (c.error_quat hx hRd hS k) i
  | w b j => simp only [oVal, Leftover.state, hj]; exact hasDerivAt_const _ _
  | m b d => simp only [oVal, hj]; exact hasDerivAt_const _ _
  | n i =>
    simp only [oAtomDer, SExp.eval, c.oVal_N hs hE hx]
    exact quatN_hasDerivAt hx i k
  | N i l => exact atomVal_NN (fuel := 0) (lam := 0) c.server hs hE hx i l k
  | w1 _ _ _ => exact ha.elim
  | m1 _ _ _ => exact ha.elim
  | NN _ _ _ => exact ha.elim

/-- The derivative of the rotation between the frame and the base. -/
theorem m1_hasDerivAt (hm : m.Regular) (b d : Fin 3) (j : Fin nj) :
    HasDerivAt (fun t => c.oVal E left desired (update x (.joints, (j : ℕ)) t) u (.m b d)) (c.oVal E left desired x u (.m1 b d j)) (x (.joints, (j : ℕ))) := by
  have h := c.server.hasDerivAt_adj hm (jointsOf x) c.frame c.server.baseFrame j (unit3 d, 0)
  rw [← c.server.eval_adjDerivative_rot _ _ _ (c.server.keepsAxes_ofLink _)] at h
  simp only [oVal, jointsOf_update_joint]
  have h1 : HasDerivAt (fun t => (c.server.eval (update (jointsOf x) j t) (.adj c.frame c.server.baseFrame) (unit3 d, 0)).1) _ (jointsOf x j) := h.fst
  exact hasDerivAt_pi.1 h1 b

theorem atom_joint (hm : m.Regular) (hs : Levi.Spec.Sound cfg) (hE : E.Made cfg) (hx : quatOf x ≠ 0) (hRd : Rd ∈ Rotations)
    (hS : Steady c.asQuaternion (Rdᵀ * c.frameRotation x)) (hd : rotationFromQuaternion desired = Rd) (j : Fin nj) (a : OAtom nj) (ha : OOrder1 a) :
    HasDerivAt (fun t => c.oVal E left desired (update x (.joints, (j : ℕ)) t) u a) ((oAtomDer (.joint j) a).eval (c.oVal E left desired x u)) (x (.joints, (j : ℕ))) := by
  have hq : ∀ t, quatOf (update x (.joints, (j : ℕ)) t) = quatOf x := fun t => quatOf_other x _ (by simp) t
  cases a with
  | e i =>
    rw [show (oAtomDer (.joint j) (.e i) : SExp (OAtom nj)) = errorByJoint j i 0 from rfl, c.eval_errorByJoint hd]
    simp only [fun t => congrFun (c.oVal_e (E := E) (left := left) (u := u) hd (update x (.joints, (j : ℕ)) t)) i]
    exact hasDerivAt_pi.1 (c.error_joint hm hRd hS j) i
  | w b k =>
    have h := c.server.hasDerivAt_position hm (left.state x) j (c.server.jacobianColumn c.server.baseFrame c.frame k) (c.server.jacobianColumn_linkTargets _ _ _)
    simp only [oVal, state_update_joint]
    have h1 : HasDerivAt (fun t => (c.server.veval { left.state x with q := update (left.state x).q j t } (c.server.jacobianColumn c.server.baseFrame c.frame k)).2) _ ((left.state x).q j) := h.snd
    exact hasDerivAt_pi.1 h1 b
  | m b d => exact c.m1_hasDerivAt hm b d j
  | n i => simp only [oVal, quatN, hq]; exact hasDerivAt_const _ _
  | N i l =>
    have : ∀ t, c.oVal E left desired (update x (.joints, (j : ℕ)) t) u (.N i l) = c.oVal E left desired x u (.N i l) := fun t => by
      rw [c.oVal_N hs hE (by rwa [hq]), c.oVal_N hs hE hx, hq]
    simp only [this]; exact hasDerivAt_const _ _
  | w1 _ _ _ => exact ha.elim
  | m1 _ _ _ => exact ha.elim
  | NN _ _ _ => exact ha.elim

theorem atom_other (hs : Levi.Spec.Sound cfg) (hE : E.Made cfg) (hx : quatOf x ≠ 0) (p : Idx (SBlk n))
    (h1 : ¬ (p.1 = .baseQuat ∧ p.2 < 4)) (h2 : ¬ (p.1 = .joints ∧ p.2 < nj)) (a : OAtom nj) (ha : OOrder1 a) :
    HasDerivAt (fun t => c.oVal E left desired (update x p t) u a) 0 (x p) := by
  have hq : ∀ t, quatOf (update x p t) = quatOf x := fun t => quatOf_other x _ h1 t
  have hj : ∀ t, (jointsOf (update x p t) : Fin nj → ℝ) = jointsOf x := jointsOf_update_other _ _ h2
  cases a with
  | e i => simp only [oVal, c.frameRotation_other p h1 h2]; exact hasDerivAt_const _ _
  | w b j => simp only [oVal, Leftover.state, hj]; exact hasDerivAt_const _ _
  | m b d => simp only [oVal, hj]; exact hasDerivAt_const _ _
  | n i => simp only [oVal, quatN, hq]; exact hasDerivAt_const _ _
  | N i l =>
    have : ∀ t, c.oVal E left desired (update x p t) u (.N i l) = c.oVal E left desired x u (.N i l) := fun t => by
      rw [c.oVal_N hs hE (by rwa [hq]), c.oVal_N hs hE hx, hq]
    simp only [this]; exact hasDerivAt_const _ _
  | w1 _ _ _ => exact ha.elim
  | m1 _ _ _ => exact ha.elim
  | NN _ _ _ => exact ha.elim

end Orientation
end
end Verif.NLP.Kin
