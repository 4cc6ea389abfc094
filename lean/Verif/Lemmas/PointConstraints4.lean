import Verif.Lemmas.PointConstraints3
/- Lemmas: the Jacobian of the position of the centre of mass. -/
set_option linter.unusedSectionVars false
namespace Verif.NLP.Kin
open Matrix Verif.Rigid Function Verif.NLP.Spec
open Verif.Quaternion (rotationFromQuaternion normalized normalizedDerivative rotatedVectorJacobian)
open Verif.NLP.Dynamics (quatOf velOf baseRotation rpow)
noncomputable section
variable {n nj : ℕ} {L F : Type} [DecidableEq L] [DecidableEq F] {m : Model L (Fin nj)} (s : Server m F) {x : SVec n} {u : CVec n}

theorem comPos_basePos (hM : m.totalMass ≠ 0) (y : SVec n) :
    comPos s y = basePosOf y + baseRotation y *ᵥ s.comInBase 1 (jointsOf y) := by
  rw [comPos_eq, s.comInBase_base hM (baseTransform y)]; rfl

theorem comJac_base (k : Fin 3) : comPositionJac s x (.basePos, (k : ℕ)) = unit3 k := by
  simp [comPositionJac, putCols, scaleCols]
theorem comJac_com (k : Fin 3) : comPositionJac s x (.com, (k : ℕ)) = -unit3 k := by
  simp [comPositionJac, putCols, scaleCols]
theorem comJac_quat (k : Fin 4) : comPositionJac s x (.baseQuat, (k : ℕ)) =
    ∑ i, (rightTrivializedInverse (quatN x) * normalizedDerivative Real.sqrt (quatOf x)) i k • comJacobianAngular s x i := by
  simp [comPositionJac, putCols, scaleCols]
theorem comJac_joint (j : Fin nj) : comPositionJac s x (.joints, (j : ℕ)) = s.kin.comJacobian (baseTransform x) (jointsOf x) j := by
  simp [comPositionJac, putCols, scaleCols]
theorem comJac_other (p : Idx (SBlk n)) (h1 : ¬ (p.1 = .baseQuat ∧ p.2 < 4)) (h2 : ¬ (p.1 = .joints ∧ p.2 < nj)) (h3 : ¬ (p.1 = .basePos ∧ p.2 < 3))
    (h4 : ¬ (p.1 = .com ∧ p.2 < 3)) : comPositionJac s x p = 0 := by
  simp only [comPositionJac, putCols, scaleCols, dif_neg h1, dif_neg h2, dif_neg h3, dif_neg h4, if_neg h4]

theorem quatN_unit (hx : quatOf x ≠ 0) : quatN x 0 * quatN x 0 + quatN x 1 * quatN x 1 + quatN x 2 * quatN x 2 + quatN x 3 * quatN x 3 = 1 := by
  have h := Quaternion.quat_ne_zero hx
  have hs : Real.sqrt (Quaternion.squaredNorm (quatOf x)) ≠ 0 := (Real.sqrt_pos.2 h).ne'
  have hq : Real.sqrt (Quaternion.squaredNorm (quatOf x)) * Real.sqrt (Quaternion.squaredNorm (quatOf x)) = Quaternion.squaredNorm (quatOf x) :=
    Real.mul_self_sqrt h.le
  have e : Quaternion.squaredNorm (quatOf x) = quatOf x 0 * quatOf x 0 + quatOf x 1 * quatOf x 1 + quatOf x 2 * quatOf x 2 + quatOf x 3 * quatOf x 3 := by
    simp [Quaternion.squaredNorm, Fin.sum_univ_four]
  simp only [quatN, normalized, if_pos h, Quaternion.norm]
  field_simp
  nlinarith

theorem normalizedDerivative_perp (hx : quatOf x ≠ 0) (k : Fin 4) :
    let d := fun i => normalizedDerivative Real.sqrt (quatOf x) i k
    quatN x 0 * d 0 + quatN x 1 * d 1 + quatN x 2 * d 2 + quatN x 3 * d 3 = 0 := by
  intro d
  have h := fun i => quatN_hasDerivAt hx i k
  have hu : HasDerivAt (fun t => quatN (update x (.baseQuat, (k : ℕ)) t) 0 * quatN (update x (.baseQuat, (k : ℕ)) t) 0 +
      quatN (update x (.baseQuat, (k : ℕ)) t) 1 * quatN (update x (.baseQuat, (k : ℕ)) t) 1 +
      quatN (update x (.baseQuat, (k : ℕ)) t) 2 * quatN (update x (.baseQuat, (k : ℕ)) t) 2 +
      quatN (update x (.baseQuat, (k : ℕ)) t) 3 * quatN (update x (.baseQuat, (k : ℕ)) t) 3) _ (x (.baseQuat, (k : ℕ))) :=
    ((((h 0).mul (h 0)).add ((h 1).mul (h 1))).add ((h 2).mul (h 2))).add ((h 3).mul (h 3))
  have hc : HasDerivAt (fun _ : ℝ => (1 : ℝ)) 0 (x (.baseQuat, (k : ℕ))) := hasDerivAt_const _ _
  have := hu.unique (hc.congr_of_eventuallyEq (by
    filter_upwards [Dynamics.eventually_update (p := (.baseQuat, (k : ℕ))) (Dynamics.eventually_nonNull hx)] with t ht
    exact quatN_unit ht))
  simp only [update_eq_self] at this
  show quatN x 0 * normalizedDerivative Real.sqrt (quatOf x) 0 k + quatN x 1 * normalizedDerivative Real.sqrt (quatOf x) 1 k + quatN x 2 * normalizedDerivative Real.sqrt (quatOf x) 2 k + quatN x 3 * normalizedDerivative Real.sqrt (quatOf x) 3 k = 0
  linarith

theorem comPosition_stateJac (hm : m.Regular) (hM : m.totalMass ≠ 0) (hx : quatOf x ≠ 0) (i : Fin 3) :
    GradAt (fun y => comPos s y i - y (.com, (i : ℕ))) (fun p => comPositionJac s x p i) x := by
  simp only [comPos_basePos s hM]
  intro p
  by_cases h1 : p.1 = .baseQuat ∧ p.2 < 4
  · obtain ⟨b, l⟩ := p
    obtain ⟨rfl, hl⟩ := h1
    obtain ⟨k, rfl⟩ : ∃ k : Fin 4, l = k := ⟨⟨l, hl⟩, rfl⟩
    have hj : ∀ t, (jointsOf (update x (.baseQuat, (k : ℕ)) t) : Fin nj → ℝ) = jointsOf x := jointsOf_update_other x _ (by simp)
    have hb : ∀ t, basePosOf (update x (.baseQuat, (k : ℕ)) t) = basePosOf x := by intro t; funext a; simp [basePosOf]
    have hc : ∀ t, update x (.baseQuat, (k : ℕ)) t (.com, (i : ℕ)) = x (.com, (i : ℕ)) := by intro t; simp
    simp only [hj, hb, hc, Pi.add_apply]
    refine (((rotate_hasDerivAt hx k (hasDerivAt_const _ (s.comInBase 1 (jointsOf x))) i).const_add (basePosOf x i)).sub_const (x (.com, (i : ℕ)))).congr_deriv ?_
    rw [comJac_quat, mulVec_zero, Pi.zero_apply, add_zero]
    have hr := rotated_angular (quatN x) (fun i => normalizedDerivative Real.sqrt (quatOf x) i k) (s.comInBase 1 (jointsOf x)) (quatN_unit hx)
      (normalizedDerivative_perp hx k)
    have e1 : comPos s x - basePosOf x = rotationFromQuaternion (quatN x) *ᵥ s.comInBase 1 (jointsOf x) := by
      rw [comPos_basePos s hM, add_sub_cancel_left]; rfl
    have e2 : (∑ i, (rightTrivializedInverse (quatN x) * normalizedDerivative Real.sqrt (quatOf x)) i k • comJacobianAngular s x i) =
        (rightTrivializedInverse (quatN x) *ᵥ fun i => normalizedDerivative Real.sqrt (quatOf x) i k) ⨯₃ (rotationFromQuaternion (quatN x) *ᵥ s.comInBase 1 (jointsOf x)) := by
      simp only [comJacobianAngular, e1]
      generalize rotationFromQuaternion (quatN x) *ᵥ s.comInBase 1 (jointsOf x) = y
      have e3 : ∀ i, (rightTrivializedInverse (quatN x) * normalizedDerivative Real.sqrt (quatOf x)) i k =
          (rightTrivializedInverse (quatN x) *ᵥ fun i => normalizedDerivative Real.sqrt (quatOf x) i k) i := fun i => rfl
      simp only [e3]
      generalize (rightTrivializedInverse (quatN x) *ᵥ fun i => normalizedDerivative Real.sqrt (quatOf x) i k) = ω
      funext a
      fin_cases a <;> simp [cross_apply, Fin.sum_univ_three, unit3] <;> ring
    rw [e2, ← hr]
    rfl
  by_cases h2 : p.1 = .joints ∧ p.2 < nj
  · obtain ⟨b, l⟩ := p
    obtain ⟨rfl, hl⟩ := h2
    obtain ⟨j, rfl⟩ : ∃ j : Fin nj, l = j := ⟨⟨l, hl⟩, rfl⟩
    have hb : ∀ t, basePosOf (update x (.joints, (j : ℕ)) t) = basePosOf x := by intro t; funext a; simp [basePosOf]
    have hq : ∀ t, baseRotation (update x (.joints, (j : ℕ)) t) = baseRotation x := fun t => baseRotation_congr (quatOf_other x _ (by simp) t)
    have hc : ∀ t, update x (.joints, (j : ℕ)) t (.com, (i : ℕ)) = x (.com, (i : ℕ)) := by intro t; simp
    simp only [jointsOf_update_joint, hb, hc, hq, Pi.add_apply]
    have hd := s.hasDerivAt_comInBase hm 1 (jointsOf x) j
    have hR := hasDerivAt_mulVec (R := fun _ : ℝ => baseRotation x) (R' := 0) (fun a b => hasDerivAt_const _ _) hd
    have hRi := (hasDerivAt_pi.1 hR) i
    refine ((hRi.const_add (basePosOf x i)).sub_const (x (.com, (i : ℕ)))).congr_deriv ?_
    rw [comJac_joint]
    have : s.kin.comJacobian (baseTransform x) (jointsOf x) j = baseRotation x *ᵥ s.comInBaseJacobian 1 (jointsOf x) j := by
      rw [← s.comInBaseJacobian_base (baseTransform x), Server.comInBaseJacobian, mulVec_mulVec]
      have : baseRotation x * (baseTransform x)⁻¹.R = (baseTransform x * (baseTransform x)⁻¹).R := rfl
      rw [this, mul_inv_cancel]
      show _ = (1 : Matrix (Fin 3) (Fin 3) ℝ) *ᵥ _
      rw [one_mulVec]
    rw [this]
    simp
  have hj : ∀ t, (jointsOf (update x p t) : Fin nj → ℝ) = jointsOf x := jointsOf_update_other x _ h2
  have hq : ∀ t, baseRotation (update x p t) = baseRotation x := fun t => baseRotation_congr (quatOf_other x _ h1 t)
  simp only [hj, hq, Pi.add_apply]
  by_cases h3 : p.1 = .basePos ∧ p.2 < 3
  · obtain ⟨b, l⟩ := p
    obtain ⟨rfl, hl⟩ := h3
    obtain ⟨k, rfl⟩ : ∃ k : Fin 3, l = k := ⟨⟨l, hl⟩, rfl⟩
    rw [comJac_base]
    have hc : ∀ t, update x (.basePos, (k : ℕ)) t (.com, (i : ℕ)) = x (.com, (i : ℕ)) := by intro t; simp
    simp only [hc]
    refine HasDerivAt.sub_const _ (HasDerivAt.add_const _ ?_)
    by_cases hik : i = k
    · subst hik
      simp only [basePosOf, update_self, unit3, Pi.single_eq_same]
      exact hasDerivAt_id _
    · have : (i : ℕ) ≠ k := fun e => hik (Fin.ext e)
      simp only [basePosOf, unit3, Pi.single_eq_of_ne hik]
      have hc : ∀ t, update x (.basePos, (k : ℕ)) t (.basePos, (i : ℕ)) = x (.basePos, (i : ℕ)) := by intro t; simp [this]
      simp only [hc]; exact hasDerivAt_const _ _
  have hb : ∀ t, basePosOf (update x p t) = basePosOf x := by
    intro t; funext a
    have : ((.basePos, (a : ℕ)) : Idx (SBlk n)) ≠ p := by rintro rfl; exact h3 ⟨rfl, a.2⟩
    simp [basePosOf, this]
  simp only [hb]
  by_cases h4 : p.1 = .com ∧ p.2 < 3
  · obtain ⟨b, l⟩ := p
    obtain ⟨rfl, hl⟩ := h4
    obtain ⟨k, rfl⟩ : ∃ k : Fin 3, l = k := ⟨⟨l, hl⟩, rfl⟩
    rw [comJac_com]
    by_cases hik : i = k
    · subst hik
      simp only [update_self, unit3, Pi.neg_apply, Pi.single_eq_same]
      exact (hasDerivAt_id _).const_sub _
    · have : (i : ℕ) ≠ k := fun e => hik (Fin.ext e)
      simp only [unit3, Pi.neg_apply, Pi.single_eq_of_ne hik, neg_zero]
      have hc : ∀ t, update x (.com, (k : ℕ)) t (.com, (i : ℕ)) = x (.com, (i : ℕ)) := by intro t; simp [this]
      simp only [hc]; exact hasDerivAt_const _ _
  · rw [comJac_other s p h1 h2 h3 h4]
    have : ((.com, (i : ℕ)) : Idx (SBlk n)) ≠ p := by rintro rfl; exact h4 ⟨rfl, i.2⟩
    simp only [update_of_ne this]; exact hasDerivAt_const _ _

end
end Verif.NLP.Kin
