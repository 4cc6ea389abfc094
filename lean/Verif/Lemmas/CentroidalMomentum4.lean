import Verif.Lemmas.CentroidalMomentum3
/- Lemmas: the derivatives of the atoms along the joints and the control, and those of the expressions. -/
set_option linter.unusedSectionVars false
namespace Verif.NLP.Kin
open Matrix Verif.Rigid Function
open Verif.Quaternion (rotationFromQuaternion normalized normalizedDerivative leftTrivializedDerivativeInverse)
open Verif.NLP.Dynamics (quatOf velOf baseRotation rpow env NonNull)
open Verif.Levi Verif.Levi.Ex
noncomputable section
variable {n nj : ℕ} {L F : Type} [DecidableEq L] [DecidableEq F] {m : Model L (Fin nj)} (s : Server m F) {x : SVec n} {u : CVec n} {lam : Fin 3 → ℝ} {fuel : ℕ}
  {E : NormExprs} {cfg : Cfg ℝ}

theorem env_other (x : SVec n) (u : CVec n) (p : Idx (SBlk n)) (h : p.1 ≠ .baseQuat) (t : ℝ) : env (update x p t) u 0 = env x u 0 := by
  have : ∀ k, ((.baseQuat, k) : Idx (SBlk n)) ≠ p := by rintro k rfl; exact h rfl
  funext v k
  simp [env, this]

/-- The value of an expression of the quaternion only. -/
theorem N_eq (hs : Levi.Spec.Sound cfg) (hE : E.Made cfg) (hx : quatOf x ≠ 0) {y : SVec n} {v : CVec n} (h : quatOf y = quatOf x) (i k : Fin 4) :
    atomVal s E fuel y v lam (.N i k) = atomVal s E fuel x u lam (.N i k) := by
  rw [atomVal_N s hs hE (by rwa [h]), atomVal_N s hs hE hx, h]

/-! ### Along the joints -/

theorem kstate_joint (x : SVec n) (u : CVec n) (j : Fin nj) (t : ℝ) :
    (kstate (update x (.joints, (j : ℕ)) t) u : KState (Fin nj)) = (kstate x u).move (.position j) (t - x (.joints, (j : ℕ))) := by
  have hq : quatOf (update x (.joints, (j : ℕ)) t) = quatOf x := quatOf_other x _ (by simp) t
  simp only [kstate, KState.move, baseTwist, quatN, hq, jointsOf_update_joint]
  congr 2
  simp [jointsOf]

theorem atom_joint (hm : m.Regular) (hM : m.totalMass ≠ 0) (hs : Levi.Spec.Sound cfg) (hE : E.Made cfg) (hx : quatOf x ≠ 0) (j : Fin nj)
    (a : CAtom nj) (ha : Order1 a) :
    HasDerivAt (fun t => atomVal s E fuel (update x (.joints, (j : ℕ)) t) u lam a)
      ((atomDer (.joint j) a).eval (atomVal s E fuel x u lam) +
        ∑ i, (atomDer (.c i) a).eval (atomVal s E fuel x u lam) * atomVal s E fuel x u lam (.cj i j)) (x (.joints, (j : ℕ))) := by
  have hq : ∀ t, quatOf (update x (.joints, (j : ℕ)) t) = quatOf x := quatOf_other x _ (by simp)
  have hb : ∀ t, baseTwist (update x (.joints, (j : ℕ)) t) u = baseTwist x u := fun t => by simp only [baseTwist, quatN, hq]
  have hj := jointsOf_update_joint x j
  have tc : ∀ i r, (twistDer (.c i : CVar nj) r).eval (atomVal s E fuel x u lam) = 0 := fun i => twistDer_zero _ (leaf_c i) _
  have shift : ∀ {f : ℝ → Spatial} {f' : Spatial}, HasDerivAt f f' 0 → HasDerivAt (fun t => f (t - x (.joints, (j : ℕ)))) f' (x (.joints, (j : ℕ))) := by
    intro f f' h
    rw [← sub_self (x (.joints, (j : ℕ)))] at h
    exact h.comp_sub_const _ _
  cases a with
  | n i' =>
    simp only [atomDer, leaf, SExp.eval, zero_mul, Finset.sum_const_zero, add_zero, atomVal, quatN, hq]
    exact hasDerivAt_const _ _
  | c i' =>
    have : (atomDer (.joint j) (.c i' : CAtom nj)).eval (atomVal s E fuel x u lam) +
        ∑ i, (atomDer (.c i) (.c i' : CAtom nj)).eval (atomVal s E fuel x u lam) * atomVal s E fuel x u lam (.cj i j) =
        s.comInBaseJacobian 1 (jointsOf x) j i' := by
      simp only [atomDer, leaf, one0, SExp.eval, ite_mul, one_mul, zero_mul, zero_add, Finset.sum_ite_eq', Finset.mem_univ, if_true]
      exact congrFun (s.comInBaseJacobian_base _ _ _) i'
    rw [this]
    simp only [atomVal, s.comInBase_base hM (baseTransform _), hj]
    exact hasDerivAt_pi.1 (s.hasDerivAt_comInBase hm 1 (jointsOf x) j) i'
  | lam i' =>
    simp only [atomDer, leaf, SExp.eval, zero_mul, Finset.sum_const_zero, add_zero, atomVal]
    exact hasDerivAt_const _ _
  | v i' =>
    simp only [atomDer, leaf, SExp.eval, zero_mul, Finset.sum_const_zero, add_zero, atomVal]
    exact hasDerivAt_const _ _
  | qd i' =>
    simp only [atomDer, leaf, SExp.eval, zero_mul, Finset.sum_const_zero, add_zero, atomVal]
    exact hasDerivAt_const _ _
  | N i' k' =>
    simp only [atomDer, leaf, SExp.eval, zero_mul, Finset.sum_const_zero, add_zero, N_eq s (u := u) hs hE hx (hq _)]
    exact hasDerivAt_const _ _
  | cj i' j' =>
    have : (atomDer (.joint j) (.cj i' j' : CAtom nj)).eval (atomVal s E fuel x u lam) +
        ∑ i, (atomDer (.c i) (.cj i' j' : CAtom nj)).eval (atomVal s E fuel x u lam) * atomVal s E fuel x u lam (.cj i j) =
        (s.veval (kstate x u) (s.comHessianCols (fuel + 1) j' j)).1 i' := by
      simp only [atomDer, leaf, SExp.eval, zero_mul, Finset.sum_const_zero, add_zero, atomVal]
    rw [this]
    simp only [atomVal, s.comInBaseJacobian_base (baseTransform _), hj]
    exact hasDerivAt_pi.1 (C63_hessian s hm 1 (kstate x u) fuel j' j) i'
  | mom r =>
    simp only [atomDer, SExp.eval, tc, zero_mul, Finset.sum_const_zero, add_zero]
    simp only [atomVal_mom s hm, atomVal_mom1_position, hj, hb]
    exact hasDerivAt_row (s.kin.hasDerivAt_momentum hm 1 _ _ _ j) r
  | mom1 r d =>
    simp only [atomDer, SExp.eval, tc, zero_mul, Finset.sum_const_zero, add_zero]
    simp only [atomVal_mom1 s hm, atomVal_mom2, kstate_joint]
    exact hasDerivAt_row (shift (C62_second s hm (kstate x u) fuel d (.position j))) r
  | _ => exact ha.elim

/-! ### Along the other coordinates of the state -/

theorem atom_other (hm : m.Regular) (hM : m.totalMass ≠ 0) (hs : Levi.Spec.Sound cfg) (hE : E.Made cfg) (hx : quatOf x ≠ 0) (p : Idx (SBlk n))
    (h1 : ¬ (p.1 = .baseQuat ∧ p.2 < 4)) (h2 : ¬ (p.1 = .joints ∧ p.2 < nj)) (t : ℝ) (a : CAtom nj) (ha : Order1 a) :
    atomVal s E fuel (update x p t) u lam a = atomVal s E fuel x u lam a := by
  have hq := quatOf_other x p h1 t
  have hj : (jointsOf (update x p t) : Fin nj → ℝ) = jointsOf x := jointsOf_update_other x p h2 t
  have hb : baseTwist (update x p t) u = baseTwist x u := by simp only [baseTwist, quatN, hq]
  have hk : (kstate (update x p t) u : KState (Fin nj)) = kstate x u := by simp only [kstate, hb, hj]
  cases a with
  | n i => simp only [atomVal, quatN, hq]
  | c i => simp only [atomVal, s.comInBase_base hM (baseTransform _), hj]
  | lam i => rfl
  | v i => rfl
  | qd i => rfl
  | N i k => exact N_eq s hs hE hx hq i k
  | cj i j => simp only [atomVal, s.comInBaseJacobian_base (baseTransform _), hj]
  | mom r => simp only [atomVal, hk]
  | mom1 r d => simp only [atomVal_mom1 s hm, hk]
  | _ => exact ha.elim

/-! ### Along the control -/

/-- The derivative of the base twist along a coordinate of the control. -/
theorem baseTwist_ctrl (p : Idx (CBlk n)) (d : CVar nj)
    (hd : ∀ a : CAtom nj, TwistAtom a → HasDerivAt (fun t => atomVal s E fuel x (update u p t) lam a) ((leaf d a).eval (atomVal s E fuel x u lam)) (u p)) (r : Fin 6) :
    HasDerivAt (fun t => row (baseTwist x (update u p t)) r) ((twistDer d r).eval (atomVal s E fuel x u lam)) (u p) := by
  have h := SExp.hasDerivAt_eval hd (twistExpr_all r)
  simp only [eval_twistExpr, Function.update_eq_self] at h
  rw [twistDer_eq, SExp.eval_der]
  exact h

/-- The coordinates of the control that move the base twist. -/
theorem atom_ctrl (hm : m.Regular) (hs : Levi.Spec.Sound cfg) (hE : E.Made cfg) (hx : quatOf x ≠ 0) (p : Idx (CBlk n)) (d : CVar nj)
    (hp : p.1 ≠ .jointVel) (hd : (∃ i : Fin 3, d = .v i ∧ p = (.baseVel, (i : ℕ))) ∨ ∃ k : Fin 4, d = .qd k ∧ p = (.quatDer, (k : ℕ)))
    (a : CAtom nj) (ha : Order1 a) :
    HasDerivAt (fun t => atomVal s E fuel x (update u p t) lam a) ((atomDer d a).eval (atomVal s E fuel x u lam)) (u p) := by
  have hw : ∀ t, (jointVelOf (update u p t) : Fin nj → ℝ) = jointVelOf u := by
    intro t; funext k
    have : ((.jointVel, (k : ℕ)) : Idx (CBlk n)) ≠ p := by rintro rfl; exact hp rfl
    simp [jointVelOf, this]
  have base : ∀ a : CAtom nj, Order1 a → (∀ r, a ≠ .mom r) → (∀ r e, a ≠ .mom1 r e) →
      HasDerivAt (fun t => atomVal s E fuel x (update u p t) lam a) ((leaf d a).eval (atomVal s E fuel x u lam)) (u p) := by
    intro a ha ha1 ha2
    have c1 : ∀ z : ℝ, (fun t => atomVal s E fuel x (update u p t) lam a) = (fun _ => z) → (leaf d a).eval (atomVal s E fuel x u lam) = 0 →
        HasDerivAt (fun t => atomVal s E fuel x (update u p t) lam a) ((leaf d a).eval (atomVal s E fuel x u lam)) (u p) := by
      intro z h1 h2; rw [h1, h2]; exact hasDerivAt_const _ _
    have hdn : (∀ i, d ≠ .n i) ∧ (∀ i, d ≠ .c i) ∧ (∀ i, d ≠ .q i) ∧ ∀ i, d ≠ .joint i := by
      rcases hd with ⟨i, rfl, -⟩ | ⟨i, rfl, -⟩ <;> simp
    cases a with
    | n i => exact c1 _ rfl (by rcases hd with ⟨i, rfl, -⟩ | ⟨i, rfl, -⟩ <;> rfl)
    | c i => exact c1 _ rfl (by rcases hd with ⟨i, rfl, -⟩ | ⟨i, rfl, -⟩ <;> rfl)
    | lam i => exact c1 _ rfl (by rcases hd with ⟨i, rfl, -⟩ | ⟨i, rfl, -⟩ <;> rfl)
    | N i k => exact c1 _ (funext fun t => N_eq s (u := u) hs hE hx rfl i k) (by rcases hd with ⟨i, rfl, -⟩ | ⟨i, rfl, -⟩ <;> rfl)
    | cj i j => exact c1 _ rfl (by rcases hd with ⟨i, rfl, -⟩ | ⟨i, rfl, -⟩ <;> rfl)
    | v i =>
      rcases hd with ⟨i', rfl, rfl⟩ | ⟨k', rfl, rfl⟩
      · by_cases h : i' = i
        · subst h
          simp only [atomVal, leaf, one0, SExp.eval, if_true, update_self]
          exact hasDerivAt_id _
        · have h' : (i : ℕ) ≠ i' := fun e => h (Fin.ext e.symm)
          simp only [atomVal, leaf, one0, SExp.eval, if_neg h]
          simp only [ne_eq, Prod.mk.injEq, true_and, h', not_false_eq_true, update_of_ne]
          exact hasDerivAt_const _ _
      · refine c1 (u (.baseVel, (i : ℕ))) (funext fun t => ?_) rfl
        simp [atomVal]
    | qd i =>
      rcases hd with ⟨i', rfl, rfl⟩ | ⟨k', rfl, rfl⟩
      · refine c1 (u (.quatDer, (i : ℕ))) (funext fun t => ?_) rfl
        simp [atomVal]
      · by_cases h : k' = i
        · subst h
          simp only [atomVal, leaf, one0, SExp.eval, if_true, update_self]
          exact hasDerivAt_id _
        · have h' : (i : ℕ) ≠ k' := fun e => h (Fin.ext e.symm)
          simp only [atomVal, leaf, one0, SExp.eval, if_neg h]
          simp only [ne_eq, Prod.mk.injEq, true_and, h', not_false_eq_true, update_of_ne]
          exact hasDerivAt_const _ _
    | mom r => exact absurd rfl (ha1 r)
    | mom1 r e => exact absurd rfl (ha2 r e)
    | _ => exact ha.elim
  have tw := baseTwist_ctrl s (fuel := fuel) (E := E) (lam := lam) (x := x) (u := u) p d (fun a ha => base a (by cases a <;> first | trivial | exact ha.elim)
    (by rintro r rfl; exact ha) (by rintro r e rfl; exact ha))
  cases a with
  | mom r =>
    have e : atomDer d (.mom r) = .sum fun k => .mul (twistDer d k) (.atom (.mom1 r (.twist (unit6 k)))) := by
      rcases hd with ⟨i, rfl, -⟩ | ⟨i, rfl, -⟩ <;> rfl
    rw [e]
    simp only [SExp.eval, atomVal_mom s hm, atomVal_mom1_twist, hw]
    exact hasDerivAt_mom_twist s tw _ _ r
  | mom1 r d' =>
    have e : atomDer d (.mom1 r d') = .sum fun k => .mul (twistDer d k) (.atom (.mom2 r d' (.twist (unit6 k)))) := by
      rcases hd with ⟨i, rfl, -⟩ | ⟨i, rfl, -⟩ <;> rfl
    rw [e]
    simp only [SExp.eval]
    cases d' with
    | position j =>
      simp only [atomVal_mom1_position, atomVal_mom2, s.veval_momentumDeriv2_position_twist hm, hw]
      exact hasDerivAt_mom1_twist s hm tw _ _ j r
    | velocity j =>
      simp only [atomVal_mom1_velocity s hm, atomVal_mom2, s.veval_momentumDeriv2_velocity_twist hm, row_zero, mul_zero, Finset.sum_const_zero]
      exact hasDerivAt_const _ _
    | twist e =>
      simp only [atomVal_mom1_twist s, atomVal_mom2, s.veval_momentumDeriv2_twist_twist hm, row_zero, mul_zero, Finset.sum_const_zero]
      exact hasDerivAt_const _ _
  | n i => exact base (.n i) ha (by simp) (by simp)
  | c i => exact base (.c i) ha (by simp) (by simp)
  | lam i => exact base (.lam i) ha (by simp) (by simp)
  | v i => exact base (.v i) ha (by simp) (by simp)
  | qd i => exact base (.qd i) ha (by simp) (by simp)
  | N i k => exact base (.N i k) ha (by simp) (by simp)
  | cj i j => exact base (.cj i j) ha (by simp) (by simp)
  | _ => exact ha.elim

theorem kstate_jointVel (x : SVec n) (u : CVec n) (j : Fin nj) (t : ℝ) :
    (kstate x (update u (.jointVel, (j : ℕ)) t) : KState (Fin nj)) = (kstate x u).move (.velocity j) (t - u (.jointVel, (j : ℕ))) := by
  have hb : baseTwist x (update u (.jointVel, (j : ℕ)) t) = baseTwist x u := by
    have h1 : velOf (update u (.jointVel, (j : ℕ)) t) = velOf u := by funext k; simp [velOf]
    have h2 : quatVelOf (update u (.jointVel, (j : ℕ)) t) = quatVelOf u := by funext k; simp [quatVelOf]
    simp only [baseTwist, h1, h2]
  have hw : (jointVelOf (update u (.jointVel, (j : ℕ)) t) : Fin nj → ℝ) = update (jointVelOf u) j t := by
    funext k
    by_cases h : k = j
    · subst h; simp [jointVelOf]
    · have : (k : ℕ) ≠ j := fun e => h (Fin.ext e)
      simp [jointVelOf, h, this]
  simp only [kstate, KState.move, hb, hw]
  congr 2
  simp [jointVelOf]

theorem atom_jointVel (hm : m.Regular) (hs : Levi.Spec.Sound cfg) (hE : E.Made cfg) (hx : quatOf x ≠ 0) (j : Fin nj) (a : CAtom nj) (ha : Order1 a) :
    HasDerivAt (fun t => atomVal s E fuel x (update u (.jointVel, (j : ℕ)) t) lam a) ((atomDer (.w j) a).eval (atomVal s E fuel x u lam)) (u (.jointVel, (j : ℕ))) := by
  have shift : ∀ {f : ℝ → Spatial} {f' : Spatial}, HasDerivAt f f' 0 → HasDerivAt (fun t => f (t - u (.jointVel, (j : ℕ)))) f' (u (.jointVel, (j : ℕ))) := by
    intro f f' h
    rw [← sub_self (u (.jointVel, (j : ℕ)))] at h
    exact h.comp_sub_const _ _
  cases a with
  | v i => simp [atomVal, atomDer, leaf, SExp.eval, hasDerivAt_const]
  | qd i => simp [atomVal, atomDer, leaf, SExp.eval, hasDerivAt_const]
  | N i k =>
    simp only [atomDer, leaf, SExp.eval, N_eq s (u := u) (x := x) (y := x) hs hE hx rfl]
    exact hasDerivAt_const _ _
  | mom r =>
    have h := C62_first s hm (kstate x u) (.velocity j)
    simp only [atomDer, SExp.eval, atomVal_mom1 s hm]
    simp only [atomVal, kstate_jointVel]
    exact hasDerivAt_row (shift h) r
  | mom1 r d =>
    simp only [atomDer, SExp.eval]
    simp only [atomVal_mom1 s hm, atomVal_mom2, kstate_jointVel]
    exact hasDerivAt_row (shift (C62_second s hm (kstate x u) fuel d (.velocity j))) r
  | n i => exact hasDerivAt_const _ _
  | c i => exact hasDerivAt_const _ _
  | lam i => exact hasDerivAt_const _ _
  | cj i k => exact hasDerivAt_const _ _
  | _ => exact ha.elim

end
end Verif.NLP.Kin
