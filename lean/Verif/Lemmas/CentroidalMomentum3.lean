import Verif.Lemmas.CentroidalMomentum2
/- Lemmas: the derivatives of the atoms of the expressions of the centroidal momentum along the coordinates of the state and of the control. -/
set_option linter.unusedSectionVars false
namespace Verif.Rigid.Server
variable {L J F : Type} [DecidableEq L] [DecidableEq J] [DecidableEq F] [Fintype J] {m : Model L J} (s : Server m F)

theorem comInBase_base (hM : m.totalMass ≠ 0) (H : SE3) (q : J → ℝ) : s.comInBase H q = s.comInBase 1 q := by
  rw [s.comInBase_eq hM, s.comInBase_eq hM]

theorem comInBaseJacobian_base (H : SE3) (q : J → ℝ) (j : J) : s.comInBaseJacobian H q j = s.comInBaseJacobian 1 q j := by
  rw [s.comInBaseJacobian_eq, s.comInBaseJacobian_eq]

end Verif.Rigid.Server

namespace Verif.NLP.Kin
open Matrix Verif.Rigid Function
open Verif.Quaternion (rotationFromQuaternion normalized normalizedDerivative leftTrivializedDerivativeInverse)
open Verif.NLP.Dynamics (quatOf velOf baseRotation rpow env NonNull)
open Verif.Levi Verif.Levi.Ex
noncomputable section
variable {n nj : ℕ} {L F : Type} [DecidableEq L] [DecidableEq F] {m : Model L (Fin nj)} (s : Server m F) {x : SVec n} {u : CVec n} {lam : Fin 3 → ℝ} {fuel : ℕ}
  {E : NormExprs} {cfg : Cfg ℝ}

/-! ### Updates -/

theorem jointsOf_update_joint (x : SVec n) (j : Fin nj) (t : ℝ) : jointsOf (update x (.joints, (j : ℕ)) t) = update (jointsOf x) j t := by
  funext k
  by_cases h : k = j
  · subst h; simp [jointsOf]
  · have : (k : ℕ) ≠ j := fun e => h (Fin.ext e)
    simp [jointsOf, h, this]

theorem jointsOf_update_other (x : SVec n) (p : Idx (SBlk n)) (h : ¬ (p.1 = .joints ∧ p.2 < nj)) (t : ℝ) :
    (jointsOf (update x p t) : Fin nj → ℝ) = jointsOf x := by
  funext k
  have : ((.joints, (k : ℕ)) : Idx (SBlk n)) ≠ p := by rintro rfl; exact h ⟨rfl, k.2⟩
  simp [jointsOf, this]

theorem quatOf_other (x : SVec n) (p : Idx (SBlk n)) (h : ¬ (p.1 = .baseQuat ∧ p.2 < 4)) (t : ℝ) : quatOf (update x p t) = quatOf x := by
  refine Dynamics.quatOf_update_other x p ?_ t
  by_cases hc : p.1 = .baseQuat
  · exact Or.inr (by by_contra hl; exact h ⟨hc, by omega⟩)
  · exact Or.inl hc

/-! ### The derivative of the normalised quaternion -/

theorem normE_written {ρ : Env ℝ} (h : ρ ∈ NonNull) : Levi.Spec.Written (Levi.Spec.PowOk ρ) normE := Quat.written_normalized h

theorem normE_value {x : SVec n} (h : quatOf x ≠ 0) (u : CVec n) (k : Fin 4) : (normE.ev Levi.Spec.rpow (env x u 0)).f k 0 = quatN x k := by
  have := congrFun (Quat.normalized_value _ (Dynamics.env_nonNull h u 0)) k
  rw [Dynamics.env_q] at this
  exact this

theorem quatN_hasDerivAt (hx : quatOf x ≠ 0) (i k : Fin 4) :
    HasDerivAt (fun t => quatN (update x (.baseQuat, (k : ℕ)) t) i) (normalizedDerivative Real.sqrt (quatOf x) i k) (x (.baseQuat, (k : ℕ))) := by
  have h := Quaternion.normalized_isJacobian (quatOf x) (Quaternion.quat_ne_zero hx) i k
  simp only [quatN, Dynamics.quatOf_update_quat x k k.2]
  exact h

/-- What levi answers is the derivative of the normalisation. -/
theorem atomVal_N (hs : Levi.Spec.Sound cfg) (hE : E.Made cfg) (hx : quatOf x ≠ 0) (i k : Fin 4) :
    atomVal s E fuel x u lam (.N i k) = normalizedDerivative Real.sqrt (quatOf x) i k := by
  obtain ⟨⟨m', hj⟩, -⟩ := hE
  have h := Dynamics.deriv_of hs (normE_written (Dynamics.env_nonNull hx u 0)) (c := 0) (by decide) (v := Quat.q) (by decide) hj i k i.2 k.2
  simp only [Dynamics.env_set] at h
  have e0 : env x u 0 Quat.q k = x (.baseQuat, (k : ℕ)) := by simp [env]
  rw [e0] at h
  have h' := h.congr_of_eventuallyEq (f₁ := fun t => quatN (update x (.baseQuat, (k : ℕ)) t) i) (by
    filter_upwards [Dynamics.eventually_update (p := (.baseQuat, (k : ℕ))) (Dynamics.eventually_nonNull hx)] with t ht
    exact (normE_value ht u i).symm)
  exact h'.unique (quatN_hasDerivAt hx i k)

theorem atomVal_NN (hs : Levi.Spec.Sound cfg) (hE : E.Made cfg) (hx : quatOf x ≠ 0) (i k l : Fin 4) :
    HasDerivAt (fun t => atomVal s E fuel (update x (.baseQuat, (l : ℕ)) t) u lam (.N i k)) (atomVal s E fuel x u lam (.NN i k l)) (x (.baseQuat, (l : ℕ))) := by
  obtain ⟨⟨m', hj⟩, hh⟩ := hE
  obtain ⟨m'', hh⟩ := hh k
  have := (C25_second_derivative_of_what_was_written hs normE NonNull (fun ρ hρ => normE_written hρ) (c := 0) (by decide)
      (v := Quat.q) (by decide) (v' := Quat.q) (by decide) (c' := k) k.2 hj hh (env x u 0) (Dynamics.env_nonNull hx u 0) i l i.2 l.2).1
  simp only [Dynamics.env_set] at this
  have e0 : env x u 0 Quat.q l = x (.baseQuat, (l : ℕ)) := by simp [env]
  rw [e0] at this
  exact this

/-- The atoms that are not second derivatives. -/
def Order1 : CAtom nj → Prop
  | .NN _ _ _ | .cjj _ _ _ | .mom2 _ _ _ => False
  | _ => True

/-! ### Along the coordinates of the quaternion -/

theorem baseTwist_quat (hs : Levi.Spec.Sound cfg) (hE : E.Made cfg) (hx : quatOf x ≠ 0) (k : Fin 4) (r : Fin 6) :
    HasDerivAt (fun t => row (baseTwist (update x (.baseQuat, (k : ℕ)) t) u) r)
      (∑ i, (twistDer (.n i) r).eval (atomVal s E fuel x u lam) * atomVal s E fuel x u lam (.N i k)) (x (.baseQuat, (k : ℕ))) := by
  have key : ∀ a : CAtom nj, TwistAtom a → HasDerivAt (fun t => atomVal s E fuel (update x (.baseQuat, (k : ℕ)) t) u lam a)
      (∑ i, (leaf (.n i) a).eval (atomVal s E fuel x u lam) * atomVal s E fuel x u lam (.N i k)) (x (.baseQuat, (k : ℕ))) := by
    intro a ha
    cases a with
    | n i' =>
      have : ∑ i, (leaf (.n i) (.n i' : CAtom nj)).eval (atomVal s E fuel x u lam) * atomVal s E fuel x u lam (.N i k) =
          normalizedDerivative Real.sqrt (quatOf x) i' k := by
        simp only [leaf, one0, SExp.eval, ite_mul, one_mul, zero_mul, Finset.sum_ite_eq', Finset.mem_univ, if_true]
        exact atomVal_N s hs hE hx i' k
      rw [this]
      exact quatN_hasDerivAt hx i' k
    | v i' =>
      simp only [leaf, SExp.eval, zero_mul, Finset.sum_const_zero]
      exact hasDerivAt_const _ _
    | qd i' =>
      simp only [leaf, SExp.eval, zero_mul, Finset.sum_const_zero]
      exact hasDerivAt_const _ _
    | _ => exact ha.elim
  have h := SExp.hasDerivAt_eval key (twistExpr_all r)
  simp only [eval_twistExpr, Function.update_eq_self] at h
  rw [SExp.dev_sum] at h
  simp only [twistDer_eq, SExp.eval_der]
  exact h

/-- The derivatives with respect to variables the base twist does not depend on. -/
theorem twistDer_zero (d : CVar nj) (hd : ∀ a : CAtom nj, TwistAtom a → leaf d a = .const 0) (v : CAtom nj → ℝ) (r : Fin 6) : (twistDer d r).eval v = 0 := by
  rw [twistDer_eq, SExp.eval_der, SExp.dev_congr v (w' := fun _ => 0) (fun a ha => by rw [hd a ha]; rfl) (twistExpr_all r), SExp.dev_zero]

theorem leaf_q (k : Fin 4) (a : CAtom nj) (ha : TwistAtom a) : leaf (.q k) a = .const 0 := by
  cases a with
  | n i => rfl
  | v i => rfl
  | qd i => rfl
  | _ => exact ha.elim

theorem leaf_c (k : Fin 3) (a : CAtom nj) (ha : TwistAtom a) : leaf (.c k) a = .const 0 := by
  cases a with
  | n i => rfl
  | v i => rfl
  | qd i => rfl
  | _ => exact ha.elim

theorem atom_quat (hm : m.Regular) (hM : m.totalMass ≠ 0) (hs : Levi.Spec.Sound cfg) (hE : E.Made cfg) (hx : quatOf x ≠ 0) (k : Fin 4)
    (a : CAtom nj) (ha : Order1 a) :
    HasDerivAt (fun t => atomVal s E fuel (update x (.baseQuat, (k : ℕ)) t) u lam a)
      ((atomDer (.q k) a).eval (atomVal s E fuel x u lam) +
        ∑ i, (atomDer (.n i) a).eval (atomVal s E fuel x u lam) * atomVal s E fuel x u lam (.N i k)) (x (.baseQuat, (k : ℕ))) := by
  have hj : ∀ t, (jointsOf (update x (.baseQuat, (k : ℕ)) t) : Fin nj → ℝ) = jointsOf x := jointsOf_update_other x _ (by simp)
  have tw := fun r => baseTwist_quat s (u := u) (lam := lam) (fuel := fuel) hs hE hx k r
  have tq : ∀ r, (twistDer (.q k : CVar nj) r).eval (atomVal s E fuel x u lam) = 0 := twistDer_zero _ (leaf_q k) _
  have swap : ∀ g : Fin 6 → ℝ, ∑ i, (∑ r, (twistDer (.n i) r).eval (atomVal s E fuel x u lam) * g r) * atomVal s E fuel x u lam (.N i k) =
      ∑ r, (∑ i, (twistDer (.n i) r).eval (atomVal s E fuel x u lam) * atomVal s E fuel x u lam (.N i k)) * g r := by
    intro g
    simp only [Finset.sum_mul]
    rw [Finset.sum_comm]
    exact Finset.sum_congr rfl fun _ _ => Finset.sum_congr rfl fun _ _ => by ring
  cases a with
  | n i' =>
    have : (atomDer (.q k) (.n i' : CAtom nj)).eval (atomVal s E fuel x u lam) +
        ∑ i, (atomDer (.n i) (.n i' : CAtom nj)).eval (atomVal s E fuel x u lam) * atomVal s E fuel x u lam (.N i k) =
        normalizedDerivative Real.sqrt (quatOf x) i' k := by
      simp only [atomDer, leaf, one0, SExp.eval, ite_mul, one_mul, zero_mul, zero_add, Finset.sum_ite_eq', Finset.mem_univ, if_true]
      exact atomVal_N s hs hE hx i' k
    rw [this]
    exact quatN_hasDerivAt hx i' k
  | c i' =>
    simp only [atomDer, leaf, SExp.eval, zero_mul, Finset.sum_const_zero, add_zero, atomVal]
    simp only [s.comInBase_base hM (baseTransform _), hj]
    exact hasDerivAt_const _ _
  | lam i' =>
    simp only [atomDer, leaf, SExp.eval, zero_mul, Finset.sum_const_zero, add_zero, atomVal]
    exact hasDerivAt_const _ _
  | v i' =>
    simp only [atomDer, leaf, SExp.eval, zero_mul, Finset.sum_const_zero, add_zero, atomVal]
    exact hasDerivAt_const _ _
  | qd i' =>
    simp only [atomDer, leaf, SExp.eval, zero_mul, Finset.sum_const_zero, add_zero, atomVal]
    exact hasDerivAt_const _ _
  | N i' k' =>
    have : (atomDer (.q k) (.N i' k' : CAtom nj)).eval (atomVal s E fuel x u lam) +
        ∑ i, (atomDer (.n i) (.N i' k' : CAtom nj)).eval (atomVal s E fuel x u lam) * atomVal s E fuel x u lam (.N i k) =
        atomVal s E fuel x u lam (.NN i' k' k) := by
      simp only [atomDer, leaf, SExp.eval, zero_mul, Finset.sum_const_zero, add_zero]
    rw [this]
    exact atomVal_NN s hs hE hx i' k' k
  | cj i' j =>
    simp only [atomDer, leaf, SExp.eval, zero_mul, Finset.sum_const_zero, add_zero, atomVal]
    simp only [s.comInBaseJacobian_base (baseTransform _), hj]
    exact hasDerivAt_const _ _
  | mom r =>
    simp only [atomDer, SExp.eval, tq, zero_mul, Finset.sum_const_zero, zero_add]
    rw [swap]
    simp only [atomVal_mom s hm, atomVal_mom1_twist, hj]
    exact hasDerivAt_mom_twist s tw _ _ r
  | mom1 r d =>
    simp only [atomDer, SExp.eval, tq, zero_mul, Finset.sum_const_zero, zero_add]
    rw [swap]
    cases d with
    | position j =>
      simp only [atomVal_mom1_position, atomVal_mom2, s.veval_momentumDeriv2_position_twist hm, hj]
      exact hasDerivAt_mom1_twist s hm tw _ _ j r
    | velocity j =>
      simp only [atomVal_mom1_velocity s hm, atomVal_mom2, s.veval_momentumDeriv2_velocity_twist hm, hj, row_zero, mul_zero, Finset.sum_const_zero]
      exact hasDerivAt_const _ _
    | twist e =>
      simp only [atomVal_mom1_twist s, atomVal_mom2, s.veval_momentumDeriv2_twist_twist hm, hj, row_zero, mul_zero, Finset.sum_const_zero]
      exact hasDerivAt_const _ _
  | _ => exact ha.elim

end
end Verif.NLP.Kin
