import Verif.Lemmas.CentroidalMomentum8
/- Lemmas: the second derivatives of the centroidal momentum constraint weighted with the multipliers. -/
set_option linter.unusedSectionVars false
namespace Verif.NLP.Kin
open Matrix Verif.Rigid Function Verif.NLP.Spec
open Verif.NLP.Dynamics (quatOf velOf baseRotation rpow)
open Verif.Levi Verif.Levi.Ex
noncomputable section
variable {n nj : ℕ} {L F : Type} [DecidableEq L] [DecidableEq F] {m : Model L (Fin nj)} (s : Server m F) {x : SVec n} {u : CVec n} {lam : Fin 3 → ℝ} {fuel : ℕ}
  {E : NormExprs} {cfg : Cfg ℝ}

/-- The momentum state weighted with the multipliers. -/
def momentumWeighted (lam : Fin 3 → ℝ) (y : SVec n) : ℝ := ∑ i : Fin 3, lam i * y (.momentum, 3 + (i : ℕ))

theorem weighted_eq (hm : m.Regular) (hM : m.totalMass ≠ 0) (order : List StateTask) (order' : List MixedTask) (tol : ℝ) (y : SVec n) (v : CVec n) :
    weighted (centroidalMomentum s E fuel order order' tol) lam y v = lagrangian.eval (atomVal s E fuel y v lam) - momentumWeighted lam y := by
  have h : ∀ i : Fin 3, (centroidalMomentum s E fuel order order' tol).value y v i =
      (asExpr i 0).eval (atomVal s E fuel y v lam) - y (.momentum, 3 + (i : ℕ)) := by
    intro i
    show (centroidalValue s y v).2 i = _
    rw [centroidalValue_eq s hM, eval_asExpr s hm, s.comInBase_base hM (baseTransform y)]
    rfl
  unfold weighted momentumWeighted
  simp only [h]
  rw [List.sum_ofFn]
  simp only [lagrangian, SMat.mul, SExp.eval, mul_sub, Finset.sum_sub_distrib, atomVal]

/-- The gradient of the momentum state weighted with the multipliers. -/
def momentumGrad (lam : Fin 3 → ℝ) (p : Idx (SBlk n)) : ℝ := ∑ i : Fin 3, lam i * (if p = (.momentum, 3 + (i : ℕ)) then 1 else 0)

theorem momentumWeighted_grad (y : SVec n) : GradAt (momentumWeighted lam) (momentumGrad lam) y := by
  intro p
  unfold momentumWeighted momentumGrad
  refine HasDerivAt.fun_sum (u := Finset.univ) fun i _ => ?_
  refine HasDerivAt.const_mul _ ?_
  by_cases h : p = (.momentum, 3 + (i : ℕ))
  · subst h
    simp only [update_self, if_true]
    exact hasDerivAt_id _
  · rw [if_neg h]
    simp only [update_of_ne (Ne.symm h)]
    exact hasDerivAt_const _ _

/-- The gradient of the weighted constraint with respect to the state. -/
def stateG (v : CAtom nj → ℝ) (lam : Fin 3 → ℝ) (p : Idx (SBlk n)) : ℝ :=
  (if hp : p.1 = .baseQuat ∧ p.2 < 4 then (quaternionLagrangian ⟨p.2, hp.2⟩).eval v
  else if hp : p.1 = .joints ∧ p.2 < nj then (jointsLagrangian ⟨p.2, hp.2⟩).eval v
  else 0) - momentumGrad lam p

theorem stateG_eq (v : CAtom nj → ℝ) (p : Idx (SBlk n)) : exprStateGrad v lagrangian p - momentumGrad lam p = stateG v lam p := by
  unfold exprStateGrad stateG
  congr 1
  split_ifs with h1 h2
  · rw [cder_q_zero _ _ (lagrangian_all.mono order0_noN), zero_add]; rfl
  · rfl
  · rfl

theorem weighted_state_grad (hm : m.Regular) (hM : m.totalMass ≠ 0) (hs : Levi.Spec.Sound cfg) (hE : E.Made cfg) (order : List StateTask)
    (order' : List MixedTask) (tol : ℝ) {y : SVec n} (hy : quatOf y ≠ 0) (v : CVec n) :
    GradAt (fun z => weighted (centroidalMomentum s E fuel order order' tol) lam z v) (stateG (atomVal s E fuel y v lam) lam) y := by
  simp only [weighted_eq s hm hM]
  have h := (grad_state s (fuel := fuel) (u := v) (lam := lam) hm hM hs hE hy (lagrangian_all.mono order0_order1)).sub (momentumWeighted_grad (lam := lam) y)
  exact h.congr fun p => stateG_eq _ p

/-- The gradient of the entries of the gradient. -/
theorem stateG_grad (hm : m.Regular) (hM : m.totalMass ≠ 0) (hs : Levi.Spec.Sound cfg) (hE : E.Made cfg) (hx : quatOf x ≠ 0) (p : Idx (SBlk n)) :
    GradAt (fun y => stateG (atomVal s E fuel y u lam) lam p) (stateEntry (atomVal s E fuel x u lam) p) x := by
  have sub0 : ∀ {f : SVec n → ℝ} {g : Idx (SBlk n) → ℝ}, GradAt f g x → GradAt (fun y => f y - momentumGrad lam p) g x := by
    intro f g h q
    exact (h q).sub_const _
  unfold stateG
  apply sub0
  by_cases hp : p.1 = .baseQuat ∧ p.2 < 4
  · simp only [dif_pos hp]
    refine (grad_state s (fuel := fuel) (u := u) (lam := lam) hm hM hs hE hx (quaternionLagrangian_all ⟨p.2, hp.2⟩)).congr fun q => ?_
    unfold exprStateGrad stateEntry
    rw [dif_pos hp]
    split_ifs <;> rfl
  · simp only [dif_neg hp]
    by_cases hp' : p.1 = .joints ∧ p.2 < nj
    · simp only [dif_pos hp']
      refine (grad_state s (fuel := fuel) (u := u) (lam := lam) hm hM hs hE hx ((jointsLagrangian_all ⟨p.2, hp'.2⟩).mono noN_order1)).congr fun q => ?_
      unfold exprStateGrad stateEntry
      rw [dif_neg hp, dif_pos hp']
      split_ifs with h1 h2
      · exact joints_quat s hm _ _
      · rfl
      · rfl
    · simp only [dif_neg hp']
      refine (GradAt.const _ _).congr fun q => ?_
      unfold stateEntry
      rw [dif_neg hp, dif_neg hp']

theorem stateG_ctrl_grad (hm : m.Regular) (hs : Levi.Spec.Sound cfg) (hE : E.Made cfg) (hx : quatOf x ≠ 0) (p : Idx (SBlk n)) :
    GradAt (fun v => stateG (atomVal s E fuel x v lam) lam p) (mixedEntry (atomVal s E fuel x u lam) p) u := by
  have sub0 : ∀ {f : CVec n → ℝ} {g : Idx (CBlk n) → ℝ}, GradAt f g u → GradAt (fun y => f y - momentumGrad lam p) g u := by
    intro f g h q
    exact (h q).sub_const _
  unfold stateG
  apply sub0
  unfold mixedEntry
  by_cases hp : p.1 = .baseQuat ∧ p.2 < 4
  · simp only [dif_pos hp]
    exact grad_ctrl s hm hs hE hx (quaternionLagrangian_all ⟨p.2, hp.2⟩)
  · simp only [dif_neg hp]
    by_cases hp' : p.1 = .joints ∧ p.2 < nj
    · simp only [dif_pos hp']
      exact grad_ctrl s hm hs hE hx ((jointsLagrangian_all ⟨p.2, hp'.2⟩).mono noN_order1)
    · simp only [dif_neg hp']
      exact GradAt.const _ _

end
end Verif.NLP.Kin
