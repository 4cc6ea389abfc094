import Verif.Lemmas.CentroidalMomentum6
/- Lemmas: the Jacobians of the centroidal momentum constraint are exact. -/
set_option linter.unusedSectionVars false
namespace Verif.NLP.Kin
open Matrix Verif.Rigid Function Verif.NLP.Spec
open Verif.Quaternion (rotationFromQuaternion normalized normalizedDerivative leftTrivializedDerivativeInverse leftTrivializedDerivativeInverseTimesJacobian
  rotatedVectorJacobian)
open Verif.NLP.Dynamics (quatOf velOf baseRotation rpow)
noncomputable section
variable {n nj : ℕ} {L F : Type} [DecidableEq L] [DecidableEq F] {m : Model L (Fin nj)} (s : Server m F) {x : SVec n} {u : CVec n}

theorem stateJac_joint (j : Fin nj) : centroidalStateJac s x u (.joints, (j : ℕ)) =
    (comToBase s x).actF (s.kin.momentumJointsDerivative (baseTransform x) (baseTwist x u) (jointsOf x) (jointVelOf u) j) +
      (0, ((comToBase s x).actF (momentumInBase s x u)).1 ⨯₃ s.kin.comJacobian (baseTransform x) (jointsOf x) j) := by
  simp [centroidalStateJac, putCols, addCols, scaleCols]

theorem stateJac_momentum (l : ℕ) (h : l < 6) : centroidalStateJac s x u (.momentum, l) = -unit6 ⟨l, h⟩ := by
  simp [centroidalStateJac, putCols, addCols, scaleCols, h]

theorem stateJac_quat (k : Fin 4) : centroidalStateJac s x u (.baseQuat, (k : ℕ)) =
    (fun i => (rotatedVectorJacobian Real.sqrt (momentumInBase s x u).1 (quatN x) * normalizedDerivative Real.sqrt (quatOf x)) i k,
     fun i => ((rotatedVectorJacobian Real.sqrt (momentumInBase s x u).2 (quatN x) +
       rotatedVectorJacobian Real.sqrt ((-((baseTransform x)⁻¹.point (comPos s x))) ⨯₃ (momentumInBase s x u).1) (quatN x)) * normalizedDerivative Real.sqrt (quatOf x)) i k) +
    (comToBase s x).actF (∑ i, (leftTrivializedDerivativeInverseTimesJacobian (quatVelOf u) * normalizedDerivative Real.sqrt (quatOf x)) i k • cmmAngular s x i) := by
  simp [centroidalStateJac, putCols, addCols, scaleCols]

theorem stateJac_other (p : Idx (SBlk n)) (h1 : ¬ (p.1 = .baseQuat ∧ p.2 < 4)) (h2 : ¬ (p.1 = .joints ∧ p.2 < nj)) (h3 : ¬ (p.1 = .momentum ∧ p.2 < 6)) :
    centroidalStateJac s x u p = 0 := by
  simp only [centroidalStateJac, putCols, addCols, scaleCols, dif_neg h1, dif_neg h2, dif_neg h3, if_neg h3]

theorem unit6_snd (l : ℕ) (h : l < 6) (i : Fin 3) : (unit6 ⟨l, h⟩).2 i = if l = 3 + (i : ℕ) then 1 else 0 := by
  have : l = 0 ∨ l = 1 ∨ l = 2 ∨ l = 3 ∨ l = 4 ∨ l = 5 := by omega
  rcases this with rfl | rfl | rfl | rfl | rfl | rfl <;> fin_cases i <;> simp [unit6, unit3, Fin.append, Fin.addCases]

/-- The Jacobian with respect to the state. -/
theorem centroidal_stateJac (hm : m.Regular) (hM : m.totalMass ≠ 0) (hx : quatOf x ≠ 0) (i : Fin 3) :
    GradAt (fun y => (centroidalValue s y u).2 i) (fun p => (centroidalStateJac s x u p).2 i) x := by
  simp only [centroidalValue_eq s hM]
  intro p
  by_cases h1 : p.1 = .baseQuat ∧ p.2 < 4
  · obtain ⟨b, l⟩ := p
    obtain ⟨rfl, hl⟩ := h1
    obtain ⟨k, rfl⟩ : ∃ k : Fin 4, l = k := ⟨⟨l, hl⟩, rfl⟩
    have hj : ∀ t, (jointsOf (update x (.baseQuat, (k : ℕ)) t) : Fin nj → ℝ) = jointsOf x := jointsOf_update_other x _ (by simp)
    have hmo : ∀ t, update x (.baseQuat, (k : ℕ)) t (.momentum, 3 + (i : ℕ)) = x (.momentum, 3 + (i : ℕ)) := by intro t; simp
    simp only [hj]
    have hw : ∀ i' : Fin 3, HasDerivAt (fun t => (leftTrivializedDerivativeInverse (quatN (update x (.baseQuat, (k : ℕ)) t)) *ᵥ quatVelOf u) i')
        ((leftTrivializedDerivativeInverseTimesJacobian (quatVelOf u) * normalizedDerivative Real.sqrt (quatOf x)) i' k) (x (.baseQuat, (k : ℕ))) := by
      intro i'
      simp only [inverse_linear]
      have := HasDerivAt.fun_sum (u := Finset.univ) fun c _ => (quatN_hasDerivAt hx c k).const_mul (leftTrivializedDerivativeInverseTimesJacobian (quatVelOf u) i' c)
      exact this
    have hmom := momentum_angular s (velOf u) hw (jointsOf x) (jointVelOf u)
    have h1 : HasDerivAt (fun t => (s.kin.momentum 1 (baseTwist (update x (.baseQuat, (k : ℕ)) t) u) (jointsOf x) (jointVelOf u)).1) _ (x (.baseQuat, (k : ℕ))) := hmom.fst
    have h2 : HasDerivAt (fun t => (s.kin.momentum 1 (baseTwist (update x (.baseQuat, (k : ℕ)) t) u) (jointsOf x) (jointVelOf u)).2) _ (x (.baseQuat, (k : ℕ))) := hmom.snd
    have h3 := h2.sub (hasDerivAt_cross (hasDerivAt_const _ (s.comInBase 1 (jointsOf x))) h1)
    have h4 := rotate_hasDerivAt hx k h3 i
    have h5 := h4.sub_const (x (.momentum, 3 + (i : ℕ)))
    have e : (fun t => (aboutCoM (baseRotation (update x (.baseQuat, (k : ℕ)) t)) (s.comInBase 1 (jointsOf x))
        (s.kin.momentum 1 (baseTwist (update x (.baseQuat, (k : ℕ)) t) u) (jointsOf x) (jointVelOf u)) -
        ((fun c : Fin 3 => update x (.baseQuat, (k : ℕ)) t (.momentum, (c : ℕ)), fun c : Fin 3 => update x (.baseQuat, (k : ℕ)) t (.momentum, 3 + (c : ℕ))) : Spatial)).2 i) =
        fun t => (baseRotation (update x (.baseQuat, (k : ℕ)) t) *ᵥ ((s.kin.momentum 1 (baseTwist (update x (.baseQuat, (k : ℕ)) t) u) (jointsOf x) (jointVelOf u)).2 -
          s.comInBase 1 (jointsOf x) ⨯₃ (s.kin.momentum 1 (baseTwist (update x (.baseQuat, (k : ℕ)) t) u) (jointsOf x) (jointVelOf u)).1)) i - x (.momentum, 3 + (i : ℕ)) := by
      funext t
      simp only [aboutCoM, Prod.snd_sub, Pi.sub_apply, hmo]
    rw [e]
    refine h5.congr_deriv ?_
    have hc : (baseTransform x)⁻¹.point (comPos s x) = s.comInBase 1 (jointsOf x) := s.comInBase_base hM (baseTransform x) (jointsOf x)
    have hcm : ∀ c, cmmAngular s x c = s.kin.momentum 1 (0, unit3 c) (jointsOf x) (fun _ => 0) := fun c => s.kin.momentum_base _ _ _ _
    rw [stateJac_quat, comToBase_actF, s.comInBase_base hM (baseTransform x), momentumInBase, s.kin.momentum_base (baseTransform x)]
    simp only [hc, hcm, aboutCoM, Prod.snd_add, Pi.add_apply, update_eq_self, Pi.sub_apply]
    rw [sub_eq_add_neg (G := Vec), rotated_add, ← LinearMap.neg_apply, ← map_neg, map_zero, LinearMap.zero_apply, zero_add]
  · by_cases h2 : p.1 = .joints ∧ p.2 < nj
    · obtain ⟨b, l⟩ := p
      obtain ⟨rfl, hl⟩ := h2
      obtain ⟨j, rfl⟩ : ∃ j : Fin nj, l = j := ⟨⟨l, hl⟩, rfl⟩
      have hq : ∀ t, quatOf (update x (.joints, (j : ℕ)) t) = quatOf x := quatOf_other x _ (by simp)
      have hb : ∀ t, baseTwist (update x (.joints, (j : ℕ)) t) u = baseTwist x u := fun t => by simp only [baseTwist, quatN, hq]
      have hr : ∀ t, baseRotation (update x (.joints, (j : ℕ)) t) = baseRotation x := fun t => by simp only [baseRotation, hq]
      have hmo : ∀ t, update x (.joints, (j : ℕ)) t (.momentum, 3 + (i : ℕ)) = x (.momentum, 3 + (i : ℕ)) := by intro t; simp
      have h3 := aboutCoM_hasDerivAt (baseRotation x) (s.hasDerivAt_comInBase hm 1 (jointsOf x) j)
        (s.kin.hasDerivAt_momentum hm 1 (baseTwist x u) (jointsOf x) (jointVelOf u) j) i
      have h5 := h3.sub_const (x (.momentum, 3 + (i : ℕ)))
      simp only [hb, hr, jointsOf_update_joint, Prod.snd_sub, Pi.sub_apply, hmo]
      refine h5.congr_deriv ?_
      have hcj : s.kin.comJacobian (baseTransform x) (jointsOf x) j = baseRotation x *ᵥ s.comInBaseJacobian 1 (jointsOf x) j := by
        rw [← s.comInBaseJacobian_base (baseTransform x), Server.comInBaseJacobian]
        show _ = (baseTransform x).R *ᵥ ((baseTransform x).Rᵀ *ᵥ _)
        rw [mulVec_mulVec, (baseTransform x).orthogonal, one_mulVec]
      rw [stateJac_joint, comToBase_actF, comToBase_actF, s.comInBase_base hM (baseTransform x), momentumInBase, s.kin.momentum_base (baseTransform x), s.kin.momentumJointsDerivative_base hm (baseTransform x), hcj]
      have hcr : ∀ a b : Vec, (baseRotation x *ᵥ a) ⨯₃ (baseRotation x *ᵥ b) = baseRotation x *ᵥ (a ⨯₃ b) := (baseTransform x).cross
      simp only [aboutCoM, Prod.snd_add, Pi.add_apply, hcr, update_eq_self, mulVec_sub, mulVec_add, Pi.sub_apply, Pi.add_apply]
      rw [← cross_anticomm (s.comInBaseJacobian 1 (jointsOf x) j), mulVec_neg, Pi.neg_apply]
      ring
    · have hq : ∀ t, quatOf (update x p t) = quatOf x := quatOf_other x p h1
      have hj : ∀ t, (jointsOf (update x p t) : Fin nj → ℝ) = jointsOf x := jointsOf_update_other x p h2
      have hb : ∀ t, baseTwist (update x p t) u = baseTwist x u := fun t => by simp only [baseTwist, quatN, hq]
      have hr : ∀ t, baseRotation (update x p t) = baseRotation x := fun t => by simp only [baseRotation, hq]
      simp only [hb, hr, hj, Prod.snd_sub, Pi.sub_apply]
      by_cases h3 : p.1 = .momentum ∧ p.2 < 6
      · obtain ⟨b, l⟩ := p
        obtain ⟨rfl, hl⟩ := h3
        dsimp only at hl
        rw [stateJac_momentum s l hl]
        simp only [Prod.snd_neg, Pi.neg_apply, unit6_snd]
        by_cases e : l = 3 + (i : ℕ)
        · subst e
          simp only [update_self, if_true]
          simpa using (hasDerivAt_id (x (.momentum, 3 + (i : ℕ)))).const_sub _
        · have e' : 3 + (i : ℕ) ≠ l := fun h => e h.symm
          simp only [if_neg e, neg_zero]
          have : ∀ t, update x (.momentum, l) t (.momentum, 3 + (i : ℕ)) = x (.momentum, 3 + (i : ℕ)) := by intro t; simp [e']
          simp only [this]
          exact hasDerivAt_const _ _
      · rw [stateJac_other s p h1 h2 h3]
        have : ∀ t, update x p t (.momentum, 3 + (i : ℕ)) = x (.momentum, 3 + (i : ℕ)) := by
          intro t
          have : ((.momentum, 3 + (i : ℕ)) : Idx (SBlk n)) ≠ p := by rintro rfl; exact h3 ⟨rfl, by show 3 + (i : ℕ) < 6; omega⟩
          simp [this]
        simp only [this]
        exact hasDerivAt_const _ _

theorem ctrlJac_vel (k : Fin 3) : centroidalCtrlJac s x (.baseVel, (k : ℕ)) = (comToBase s x).actF (cmmLinear s x k) := by
  simp [centroidalCtrlJac, putCols]

theorem ctrlJac_quat (k : Fin 4) : centroidalCtrlJac s x (.quatDer, (k : ℕ)) =
    ∑ i, leftTrivializedDerivativeInverse (quatN x) i k • (comToBase s x).actF (cmmAngular s x i) := by
  simp [centroidalCtrlJac, putCols]

theorem ctrlJac_joint (j : Fin nj) : centroidalCtrlJac s x (.jointVel, (j : ℕ)) = (comToBase s x).actF (cmmJoint s x j) := by
  simp [centroidalCtrlJac, putCols]

theorem ctrlJac_other (p : Idx (CBlk n)) (h1 : ¬ (p.1 = .baseVel ∧ p.2 < 3)) (h2 : ¬ (p.1 = .quatDer ∧ p.2 < 4)) (h3 : ¬ (p.1 = .jointVel ∧ p.2 < nj)) :
    centroidalCtrlJac s x p = 0 := by
  simp only [centroidalCtrlJac, putCols, dif_neg h1, dif_neg h2, dif_neg h3]

/-- The Jacobian with respect to the control. -/
theorem centroidal_ctrlJac (hM : m.totalMass ≠ 0) (i : Fin 3) :
    GradAt (fun v => (centroidalValue s x v).2 i) (fun p => (centroidalCtrlJac s x p).2 i) u := by
  simp only [centroidalValue_eq s hM]
  have done : ∀ (p : Idx (CBlk n)) (h' : Spatial), HasDerivAt (fun t => s.kin.momentum 1 (baseTwist x (update u p t)) (jointsOf x) (jointVelOf (update u p t))) h' (u p) →
      centroidalCtrlJac s x p = (comToBase s x).actF h' →
      HasDerivAt (fun t => (aboutCoM (baseRotation x) (s.comInBase 1 (jointsOf x))
        (s.kin.momentum 1 (baseTwist x (update u p t)) (jointsOf x) (jointVelOf (update u p t))) -
        ((fun k : Fin 3 => x (.momentum, (k : ℕ)), fun k : Fin 3 => x (.momentum, 3 + (k : ℕ))) : Spatial)).2 i) ((centroidalCtrlJac s x p).2 i) (u p) := by
    intro p h' hh e
    have h := (aboutCoM_linear_hasDerivAt (baseRotation x) (s.comInBase 1 (jointsOf x)) hh i).sub_const (x (.momentum, 3 + (i : ℕ)))
    rw [e, comToBase_actF, s.comInBase_base hM (baseTransform x)]
    exact h
  have hcl : ∀ c, cmmLinear s x c = s.kin.momentum 1 (unit3 c, 0) (jointsOf x) (fun _ => 0) := fun c => s.kin.momentum_base _ _ _ _
  have hca : ∀ c, cmmAngular s x c = s.kin.momentum 1 (0, unit3 c) (jointsOf x) (fun _ => 0) := fun c => s.kin.momentum_base _ _ _ _
  have hcj : ∀ c, cmmJoint s x c = s.kin.momentum 1 0 (jointsOf x) (Pi.single c 1) := fun c => s.kin.momentum_base _ _ _ _
  rintro ⟨b, l⟩
  by_cases h1 : b = .baseVel ∧ l < 3
  · obtain ⟨rfl, hl⟩ := h1
    obtain ⟨k, rfl⟩ : ∃ k : Fin 3, l = k := ⟨⟨l, hl⟩, rfl⟩
    refine done _ (cmmLinear s x k) ?_ (ctrlJac_vel s k)
    have e1 : ∀ t, velOf (update u (.baseVel, (k : ℕ)) t) = update (velOf u) k t := by
      intro t; funext c
      by_cases h : c = k
      · subst h; simp [velOf]
      · have : (c : ℕ) ≠ k := fun e => h (Fin.ext e)
        simp [velOf, h, this]
    have e2 : ∀ t, quatVelOf (update u (.baseVel, (k : ℕ)) t) = quatVelOf u := fun t => by funext c; simp [quatVelOf]
    have e3 : ∀ t, (jointVelOf (update u (.baseVel, (k : ℕ)) t) : Fin nj → ℝ) = jointVelOf u := fun t => by funext c; simp [jointVelOf]
    simp only [baseTwist, e1, e2, e3]
    refine (momentum_linear s (v' := fun c => if c = k then 1 else 0) (fun c => ?_) _ _ _).congr_deriv ?_
    · exact Server.hasDerivAt_update (velOf u) k c
    · simp [hcl]
  by_cases h2 : b = .quatDer ∧ l < 4
  · obtain ⟨rfl, hl⟩ := h2
    obtain ⟨k, rfl⟩ : ∃ k : Fin 4, l = k := ⟨⟨l, hl⟩, rfl⟩
    refine done _ (∑ i, leftTrivializedDerivativeInverse (quatN x) i k • cmmAngular s x i) ?_ ?_
    · have e1 : ∀ t, velOf (update u (.quatDer, (k : ℕ)) t) = velOf u := fun t => by funext c; simp [velOf]
      have e2 : ∀ t, quatVelOf (update u (.quatDer, (k : ℕ)) t) = update (quatVelOf u) k t := by
        intro t; funext c
        by_cases h : c = k
        · subst h; simp [quatVelOf]
        · have : (c : ℕ) ≠ k := fun e => h (Fin.ext e)
          simp [quatVelOf, h, this]
      have e3 : ∀ t, (jointVelOf (update u (.quatDer, (k : ℕ)) t) : Fin nj → ℝ) = jointVelOf u := fun t => by funext c; simp [jointVelOf]
      simp only [baseTwist, e1, e2, e3, hca]
      refine momentum_angular s _ (fun c => ?_) _ _
      have h := HasDerivAt.fun_sum (u := Finset.univ) fun c' _ => (Server.hasDerivAt_update (quatVelOf u) k c').const_mul (leftTrivializedDerivativeInverse (quatN x) c c')
      refine h.congr_deriv ?_
      simp
    · rw [ctrlJac_quat, Fin.sum_univ_three, Fin.sum_univ_three]
      simp only [SE3.actF_add, SE3.actF_smul]
  by_cases h3 : b = .jointVel ∧ l < nj
  · obtain ⟨rfl, hl⟩ := h3
    obtain ⟨j, rfl⟩ : ∃ j : Fin nj, l = j := ⟨⟨l, hl⟩, rfl⟩
    refine done _ (cmmJoint s x j) ?_ (ctrlJac_joint s j)
    have e1 : ∀ t, velOf (update u (.jointVel, (j : ℕ)) t) = velOf u := fun t => by funext c; simp [velOf]
    have e2 : ∀ t, quatVelOf (update u (.jointVel, (j : ℕ)) t) = quatVelOf u := fun t => by funext c; simp [quatVelOf]
    have e3 : ∀ t, (jointVelOf (update u (.jointVel, (j : ℕ)) t) : Fin nj → ℝ) = jointVelOf u + (t - u (.jointVel, (j : ℕ))) • (Pi.single j 1 : Fin nj → ℝ) := by
      intro t; funext c
      by_cases h : c = j
      · subst h; simp [jointVelOf]
      · have : (c : ℕ) ≠ j := fun e => h (Fin.ext e)
        simp [jointVelOf, h, this]
    simp only [baseTwist, e1, e2, e3, s.momentum_joints_add, s.momentum_joints_smul, hcj]
    have h := Server.hasDerivAt_smul_const ((hasDerivAt_id (u (.jointVel, (j : ℕ)))).sub_const (u (.jointVel, (j : ℕ)))) (s.kin.momentum 1 0 (jointsOf x) (Pi.single j 1))
    rw [one_smul] at h
    exact h.const_add _
  have c1 : ∀ k < 3, ((.baseVel, k) : Idx (CBlk n)) ≠ (b, l) := by rintro k hk e; cases e; exact h1 ⟨rfl, hk⟩
  have c2 : ∀ k < 4, ((.quatDer, k) : Idx (CBlk n)) ≠ (b, l) := by rintro k hk e; cases e; exact h2 ⟨rfl, hk⟩
  have c3 : ∀ k < nj, ((.jointVel, k) : Idx (CBlk n)) ≠ (b, l) := by rintro k hk e; cases e; exact h3 ⟨rfl, hk⟩
  have e1 : ∀ t, velOf (update u (b, l) t) = velOf u := fun t => by funext k; simp [velOf, c1 k k.2]
  have e2 : ∀ t, quatVelOf (update u (b, l) t) = quatVelOf u := fun t => by funext k; simp [quatVelOf, c2 k k.2]
  have e3 : ∀ t, (jointVelOf (update u (b, l) t) : Fin nj → ℝ) = jointVelOf u := fun t => by funext k; simp [jointVelOf, c3 k k.2]
  refine done _ 0 ?_ (by rw [ctrlJac_other s _ h1 h2 h3, SE3.actF_zero])
  simp only [baseTwist, e1, e2, e3]
  exact hasDerivAt_const _ _

end
end Verif.NLP.Kin
