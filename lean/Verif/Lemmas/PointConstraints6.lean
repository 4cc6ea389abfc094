import Verif.Lemmas.PointConstraints5
/- Lemmas: the lateral distance of the feet. -/
set_option linter.unusedSectionVars false
namespace Verif.NLP.Kin
open Matrix Verif.Rigid Function Verif.NLP.Spec
noncomputable section
variable {n nj : ℕ} {L F : Type} [DecidableEq L] [DecidableEq F] {m : Model L (Fin nj)} (s : Server m F) {x : SVec n} {u : CVec n} {w : Leftover nj}
  {ref other : F} {lateral : Fin 3} {d : ℝ}

theorem direction_linkDirection (q : Fin nj → ℝ) (a b : F) (j : Fin nj) :
    (s.frames.offset b)⁻¹.act ((s.tree (s.frames.link a)).linkDirection q (s.frames.link b) j) = s.direction q a b j := by
  unfold Traversal.linkDirection Server.direction
  dsimp only
  split_ifs with h
  · rw [← SE3.act_mul]
    congr 1
    rw [s.transform_tree (s.tree (s.frames.link a)), s.frames.offset_ofLink, mul_one, s.frames.link_ofLink]
  · exact SE3.act_zero _

theorem relativeMixedColumn_eq (st : KState (Fin nj)) (ref other : F) (j : Fin nj) :
    relativeMixedColumn s st.q ref other j = s.relativePositionJacobian st ref other j := by
  rw [jacobian_eq, relativeMixedColumn, direction_linkDirection]

theorem lateralJac_joint (j : Fin nj) : (feetLateralDistance s ref other lateral w d).stateJac x u (fun _ _ => 0) 0 (.joints, (j : ℕ)) =
    s.relativePositionJacobian (w.state x) ref other j lateral := by
  rw [← relativeMixedColumn_eq]
  simp [feetLateralDistance, putCols, Leftover.state]

theorem lateralJac_other (p : Idx (SBlk n)) (h : ¬ (p.1 = .joints ∧ p.2 < nj)) :
    (feetLateralDistance s ref other lateral w d).stateJac x u (fun _ _ => 0) 0 p = 0 := dif_neg h

theorem lateral_grad (hm : m.Regular) : GradAt (fun y => (feetLateralDistance s ref other lateral w d).value y u 0)
    ((feetLateralDistance s ref other lateral w d).stateJac x u (fun _ _ => 0) 0) x := by
  intro p
  show HasDerivAt (fun t => (s.transform (jointsOf (update x p t)) ref other).p lateral) _ _
  by_cases h : p.1 = .joints ∧ p.2 < nj
  · obtain ⟨b, l⟩ := p
    obtain ⟨rfl, hl⟩ := h
    obtain ⟨j, rfl⟩ : ∃ j : Fin nj, l = j := ⟨⟨l, hl⟩, rfl⟩
    rw [lateralJac_joint, jacobian_eq]
    simp only [jointsOf_update_joint]
    have h := (hasTangent_iff.1 (s.hasTangent_transform hm (jointsOf x) ref other j)).2
    simp only [update_eq_self] at h
    exact (hasDerivAt_pi.1 h) lateral
  · rw [lateralJac_other s p h]
    simp only [jointsOf_update_other x p h]
    exact hasDerivAt_const _ _

/-- The entries of the second derivatives. -/
theorem lateralHess_eq (lam : Fin 1 → ℝ) (p q : Idx (SBlk n)) :
    (feetLateralDistance s ref other lateral w d).stateHess x u lam (fun _ _ => 0) p q =
      if h : (p.1 = .joints ∧ p.2 < nj) ∧ q.1 = .joints ∧ q.2 < nj then
        s.relativePositionHessian (w.state x) ref other ⟨q.2, h.2.2⟩ ⟨p.2, h.1.2⟩ lateral * lam 0 else 0 := by
  classical
  have hj := foldl_writes (fun (H : Idx (SBlk n) → Idx (SBlk n) → ℝ) (i : Fin nj) =>
      putCol H .joints (.joints, (i : ℕ)) fun k : Fin nj => s.relativePositionHessian (w.state x) ref other i k lateral * lam 0)
    (fun (i : Fin nj) p q => (p.1 = .joints ∧ p.2 < nj) ∧ q = (.joints, (i : ℕ)))
    (fun p q => if h : (p.1 = .joints ∧ p.2 < nj) ∧ q.1 = .joints ∧ q.2 < nj then
        s.relativePositionHessian (w.state x) ref other ⟨q.2, h.2.2⟩ ⟨p.2, h.1.2⟩ lateral * lam 0 else 0)
    (fun H i p q => ⟨fun h => by
      obtain ⟨h1, rfl⟩ := h
      simp only [putCol]
      rw [dif_pos ⟨h1, trivial⟩, dif_pos ⟨h1, trivial, i.2⟩], fun h => by simp only [putCol]; rw [dif_neg h]⟩) (List.finRange nj) (fun _ _ => 0) p q
  by_cases h1 : ∃ i ∈ List.finRange nj, (p.1 = .joints ∧ p.2 < nj) ∧ q = (.joints, (i : ℕ))
  · exact hj.1 h1
  · refine (hj.2 h1).trans ?_
    rw [dif_neg]
    rintro ⟨hp, hq⟩
    exact h1 ⟨⟨q.2, hq.2⟩, List.mem_finRange _, hp, Prod.ext hq.1 rfl⟩

theorem lateral_hess (hm : m.Regular) (hb : s.KeepsAxes other) (lam : Fin 1 → ℝ) :
    HessNear (fun y => weighted (feetLateralDistance s ref other lateral w d) lam y u)
      ((feetLateralDistance s ref other lateral w d).stateHess x u lam fun _ _ => 0) x := by
  refine ⟨fun y p => lam 0 * (feetLateralDistance s ref other lateral w d).stateJac y u (fun _ _ => 0) 0 p, Filter.Eventually.of_forall fun y => ?_, fun p q => ?_⟩
  · intro p
    have e : (fun t => weighted (feetLateralDistance s ref other lateral w d) lam (update y p t) u) =
        fun t => lam 0 * (feetLateralDistance s ref other lateral w d).value (update y p t) u 0 := by
      funext t; simp [weighted]
    rw [e]
    exact (lateral_grad s hm p).const_mul (lam 0)
  · rw [lateralHess_eq]
    by_cases hp : p.1 = .joints ∧ p.2 < nj
    · obtain ⟨b, l⟩ := p
      obtain ⟨rfl, hl⟩ := hp
      obtain ⟨j, rfl⟩ : ∃ j : Fin nj, l = j := ⟨⟨l, hl⟩, rfl⟩
      simp only [lateralJac_joint]
      by_cases hq : q.1 = .joints ∧ q.2 < nj
      · obtain ⟨b, l⟩ := q
        obtain ⟨rfl, hl⟩ := hq
        obtain ⟨k, rfl⟩ : ∃ k : Fin nj, l = k := ⟨⟨l, hl⟩, rfl⟩
        rw [dif_pos ⟨⟨trivial, j.2⟩, rfl, k.2⟩]
        simp only [state_update_joint]
        have h := (C61_position_hessian_keepsAxes s hm (w.state x) ref other hb j k)
        rw [mul_comm, ← h.2]
        exact ((hasDerivAt_pi.1 h.1) lateral).const_mul (lam 0)
      · rw [dif_neg (fun h => hq h.2)]
        simp only [Leftover.state, jointsOf_update_other x q hq]
        exact hasDerivAt_const _ _
    · rw [dif_neg (fun h => hp h.1)]
      simp only [lateralJac_other s p hp]
      exact (hasDerivAt_const _ _).congr_deriv (by simp)

end
end Verif.NLP.Kin
