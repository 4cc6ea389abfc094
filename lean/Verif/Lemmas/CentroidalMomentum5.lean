import Verif.Lemmas.CentroidalMomentum4
import Verif.Spec.Calculus
/- Lemmas: the gradients of the expressions of the centroidal momentum. -/
set_option linter.unusedSectionVars false
namespace Verif.NLP.Kin
open Matrix Verif.Rigid Function Verif.NLP.Spec
open Verif.Quaternion (rotationFromQuaternion normalized normalizedDerivative leftTrivializedDerivativeInverse)
open Verif.NLP.Dynamics (quatOf velOf baseRotation rpow env NonNull)
open Verif.Levi Verif.Levi.Ex
noncomputable section
variable {n nj : ℕ} {L F : Type} [DecidableEq L] [DecidableEq F] {m : Model L (Fin nj)} (s : Server m F) {x : SVec n} {u : CVec n} {lam : Fin 3 → ℝ} {fuel : ℕ}
  {E : NormExprs} {cfg : Cfg ℝ}

/-- The gradient of an expression with respect to the state. -/
def exprStateGrad (v : CAtom nj → ℝ) (e : SExp (CAtom nj)) (p : Idx (SBlk n)) : ℝ :=
  if h : p.1 = .baseQuat ∧ p.2 < 4 then (cder (.q ⟨p.2, h.2⟩) e).eval v + ∑ i, (cder (.n i) e).eval v * v (.N i ⟨p.2, h.2⟩)
  else if h : p.1 = .joints ∧ p.2 < nj then (cder (.joint ⟨p.2, h.2⟩) e).eval v + ∑ i, (cder (.c i) e).eval v * v (.cj i ⟨p.2, h.2⟩)
  else 0

/-- The gradient of an expression with respect to the control. -/
def exprCtrlGrad (v : CAtom nj → ℝ) (e : SExp (CAtom nj)) (p : Idx (CBlk n)) : ℝ :=
  if h : p.1 = .baseVel ∧ p.2 < 3 then (cder (.v ⟨p.2, h.2⟩) e).eval v
  else if h : p.1 = .quatDer ∧ p.2 < 4 then (cder (.qd ⟨p.2, h.2⟩) e).eval v
  else if h : p.1 = .jointVel ∧ p.2 < nj then (cder (.w ⟨p.2, h.2⟩) e).eval v
  else 0

theorem grad_state (hm : m.Regular) (hM : m.totalMass ≠ 0) (hs : Levi.Spec.Sound cfg) (hE : E.Made cfg) (hx : quatOf x ≠ 0) {e : SExp (CAtom nj)}
    (he : e.All Order1) : GradAt (fun y => e.eval (atomVal s E fuel y u lam)) (exprStateGrad (atomVal s E fuel x u lam) e) x := by
  rintro ⟨b, l⟩
  unfold exprStateGrad
  dsimp only
  by_cases h1 : b = .baseQuat ∧ l < 4
  · obtain ⟨rfl, h1⟩ := h1
    rw [dif_pos ⟨rfl, h1⟩]
    have h := SExp.hasDerivAt_eval (atom_quat s (fuel := fuel) (u := u) (lam := lam) hm hM hs hE hx ⟨l, h1⟩) he
    simp only [update_eq_self] at h
    rw [SExp.dev_add, SExp.dev_sum] at h
    simp only [cder, SExp.eval_der]
    exact h
  · rw [dif_neg h1]
    by_cases h2 : b = .joints ∧ l < nj
    · obtain ⟨rfl, h2⟩ := h2
      rw [dif_pos ⟨rfl, h2⟩]
      have h := SExp.hasDerivAt_eval (atom_joint s (fuel := fuel) (u := u) (lam := lam) hm hM hs hE hx ⟨l, h2⟩) he
      simp only [update_eq_self] at h
      rw [SExp.dev_add, SExp.dev_sum] at h
      simp only [cder, SExp.eval_der]
      exact h
    · rw [dif_neg h2]
      have : (fun t => e.eval (atomVal s E fuel (update x (b, l) t) u lam)) = fun _ => e.eval (atomVal s E fuel x u lam) :=
        funext fun t => SExp.eval_congr (atom_other s hm hM hs hE hx (b, l) h1 h2 t) he
      rw [this]
      exact hasDerivAt_const _ _

theorem grad_ctrl (hm : m.Regular) (hs : Levi.Spec.Sound cfg) (hE : E.Made cfg) (hx : quatOf x ≠ 0) {e : SExp (CAtom nj)}
    (he : e.All Order1) : GradAt (fun v => e.eval (atomVal s E fuel x v lam)) (exprCtrlGrad (atomVal s E fuel x u lam) e) u := by
  rintro ⟨b, l⟩
  unfold exprCtrlGrad
  dsimp only
  by_cases h1 : b = .baseVel ∧ l < 3
  · obtain ⟨rfl, h1⟩ := h1
    rw [dif_pos ⟨rfl, h1⟩]
    have h := SExp.hasDerivAt_eval (atom_ctrl s (fuel := fuel) (u := u) (lam := lam) hm hs hE hx (.baseVel, l) (.v ⟨l, h1⟩) (by simp) (Or.inl ⟨_, rfl, rfl⟩)) he
    simp only [update_eq_self] at h
    simp only [cder, SExp.eval_der]
    exact h
  rw [dif_neg h1]
  by_cases h2 : b = .quatDer ∧ l < 4
  · obtain ⟨rfl, h2⟩ := h2
    rw [dif_pos ⟨rfl, h2⟩]
    have h := SExp.hasDerivAt_eval (atom_ctrl s (fuel := fuel) (u := u) (lam := lam) hm hs hE hx (.quatDer, l) (.qd ⟨l, h2⟩) (by simp) (Or.inr ⟨_, rfl, rfl⟩)) he
    simp only [update_eq_self] at h
    simp only [cder, SExp.eval_der]
    exact h
  rw [dif_neg h2]
  by_cases h3 : b = .jointVel ∧ l < nj
  · obtain ⟨rfl, h3⟩ := h3
    rw [dif_pos ⟨rfl, h3⟩]
    have h := SExp.hasDerivAt_eval (atom_jointVel s (fuel := fuel) (u := u) (lam := lam) hm hs hE hx ⟨l, h3⟩) he
    simp only [update_eq_self] at h
    simp only [cder, SExp.eval_der]
    exact h
  rw [dif_neg h3]
  have c1 : ∀ k < 3, ((.baseVel, k) : Idx (CBlk n)) ≠ (b, l) := by rintro k hk e; cases e; exact h1 ⟨rfl, hk⟩
  have c2 : ∀ k < 4, ((.quatDer, k) : Idx (CBlk n)) ≠ (b, l) := by rintro k hk e; cases e; exact h2 ⟨rfl, hk⟩
  have c3 : ∀ k < nj, ((.jointVel, k) : Idx (CBlk n)) ≠ (b, l) := by rintro k hk e; cases e; exact h3 ⟨rfl, hk⟩
  have e1 : ∀ t, velOf (update u (b, l) t) = velOf u := fun t => by funext k; simp [velOf, c1 k k.2]
  have e2 : ∀ t, quatVelOf (update u (b, l) t) = quatVelOf u := fun t => by funext k; simp [quatVelOf, c2 k k.2]
  have e3 : ∀ t, (jointVelOf (update u (b, l) t) : Fin nj → ℝ) = jointVelOf u := fun t => by funext k; simp [jointVelOf, c3 k k.2]
  have e4 : ∀ t, baseTwist x (update u (b, l) t) = baseTwist x u := fun t => by simp only [baseTwist, e1, e2]
  have e5 : ∀ t, (kstate x (update u (b, l) t) : KState (Fin nj)) = kstate x u := fun t => by simp only [kstate, e3, e4]
  have : (fun t => e.eval (atomVal s E fuel x (update u (b, l) t) lam)) = fun _ => e.eval (atomVal s E fuel x u lam) := by
    refine funext fun t => SExp.eval_congr (P := Order1) (fun a ha => ?_) he
    cases a with
    | v i => simp [atomVal, c1 i i.2]
    | qd i => simp [atomVal, c2 i i.2]
    | N i k => exact N_eq s hs hE hx rfl i k
    | mom r => simp only [atomVal, e5]
    | mom1 r d => simp only [atomVal_mom1 s hm, e5]
    | n i => rfl
    | c i => rfl
    | lam i => rfl
    | cj i j => rfl
    | _ => exact ha.elim
  rw [this]
  exact hasDerivAt_const _ _

/-! ### The expressions and their values -/

/-- The atoms of the constraint. -/
def Order0 : CAtom nj → Prop
  | .n _ | .c _ | .lam _ | .mom _ => True
  | _ => False

theorem order0_order1 (a : CAtom nj) (h : Order0 a) : Order1 a := by
  cases a <;> first | trivial | exact h.elim

theorem rotExpr_all (P : CAtom nj → Prop) (hP : ∀ i, P (.n i)) (i j : Fin 3) : (rotExpr (nj := nj) i j).All P := by
  fin_cases i <;> fin_cases j <;> simp [rotExpr, SExp.All, SMat.mul, SMat.smul, SMat.add, SMat.skew, SMat.ident, imCol, hP, Fin.forall_fin_succ]

theorem adjointExpr_all (i : Fin 3) (j : Fin 6) : (adjointExpr (nj := nj) i j).All Order0 := by
  intro l
  refine ⟨rotExpr_all _ (fun _ => trivial) i l, ?_⟩
  fin_cases l <;> fin_cases j <;> simp [SMat.hcat, Fin.append, Fin.addCases, SExp.All, SMat.skew, SMat.neg, SMat.ident, Order0]

theorem asExpr_all (i : Fin 3) : (asExpr (nj := nj) i 0).All Order0 := fun r => ⟨adjointExpr_all i r, trivial⟩

theorem lagrangian_all : (lagrangian (nj := nj)).All Order0 := fun i => ⟨trivial, asExpr_all i⟩

theorem eval_rotExpr (i j : Fin 3) : (rotExpr i j).eval (atomVal s E fuel x u lam) = baseRotation x i j := by
  fin_cases i <;> fin_cases j <;>
    simp [rotExpr, SExp.eval, SMat.mul, SMat.smul, SMat.add, SMat.skew, SMat.ident, imCol, atomVal, baseRotation, Quaternion.rotation_entry, quatN, Fin.sum_univ_three] <;> ring

/-- The expression is the angular momentum about the centre of mass. -/
theorem eval_asExpr (hm : m.Regular) (i : Fin 3) : (asExpr i 0).eval (atomVal s E fuel x u lam) =
    (baseRotation x *ᵥ ((s.kin.momentum 1 (baseTwist x u) (jointsOf x) (jointVelOf u)).2 - s.comInBase (baseTransform x) (jointsOf x) ⨯₃
      (s.kin.momentum 1 (baseTwist x u) (jointsOf x) (jointVelOf u)).1)) i := by
  simp only [asExpr, adjointExpr, SMat.mul, SExp.eval, eval_rotExpr, atomVal_mom s hm]
  simp only [Fin.sum_univ_six, Fin.sum_univ_three, row, Matrix.mulVec, dotProduct, cross_apply]
  simp [SMat.hcat, SMat.skew, SMat.neg, SMat.ident, Fin.append, Fin.addCases, SExp.eval, atomVal]
  ring

end
end Verif.NLP.Kin
