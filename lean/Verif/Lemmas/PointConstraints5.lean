import Verif.Lemmas.PointConstraints4
/- Lemmas: the Jacobian of the position of a contact point, and the lateral distance. -/
set_option linter.unusedSectionVars false
namespace Verif.NLP.Kin
open Matrix Verif.Rigid Function Verif.NLP.Spec
open Verif.NLP.Dynamics (quatOf velOf baseRotation rpow env rotE)
open Verif.Levi Verif.Levi.Ex
noncomputable section
variable {n nj : ℕ} {L F : Type} [DecidableEq L] [DecidableEq F] {m : Model L (Fin nj)} (s : Server m F) {x : SVec n} {u : CVec n}
  {E : RotExprs} {cfg : Cfg ℝ} {w : Leftover nj} {side : Side} {i : Fin n} {p : Vec} {foot : F}

theorem contactJac_base (I : Inner n nj) (k : Fin 3) : contactPositionJac E I side i p x u (.basePos, (k : ℕ)) = unit3 k := by
  simp [contactPositionJac, putCols, scaleCols]
theorem contactJac_pos (I : Inner n nj) (k : Fin 3) : contactPositionJac E I side i p x u (.pos side i, (k : ℕ)) = -unit3 k := by
  simp [contactPositionJac, putCols, scaleCols]
theorem contactJac_quat (I : Inner n nj) (k : Fin 4) (a : Fin 3) : contactPositionJac E I side i p x u (.baseQuat, (k : ℕ)) a =
    ∑ b, pVal E I x u (.R1 a b k) * (I.c x + ∑ e, p e • I.m x e) b := by
  have : contactPositionJac E I side i p x u (.baseQuat, (k : ℕ)) = fun a => (pder (.q k) (contactPositionE p a 0)).eval (pVal E I x u) := by
    simp [contactPositionJac, putCols, scaleCols]
  rw [this]
  simp only [pder, contactPositionE, SMat.add, SMat.mul, basePosE, baseRotE, SExp.der, pAtomDer, SExp.eval, Fin.sum_univ_three]
  simp only [pVal, Pi.add_apply, Pi.smul_apply, smul_eq_mul]
  ring
theorem contactJac_joint (hx : quatOf x ≠ 0) (I : Inner n nj) (j : Fin nj) : contactPositionJac E I side i p x u (.joints, (j : ℕ)) =
    baseRotation x *ᵥ (I.c1 x j + ∑ e, p e • I.m1 x e j) := by
  have : contactPositionJac E I side i p x u (.joints, (j : ℕ)) = fun a => (pder (.joint j) (contactPositionE p a 0)).eval (pVal E I x u) := by
    simp [contactPositionJac, putCols, scaleCols]
  rw [this]
  funext a
  simp only [pder, contactPositionE, SMat.add, SMat.mul, basePosE, baseRotE, SExp.der, pAtomDer, SExp.eval, R_val hx, Fin.sum_univ_three]
  simp only [pVal, mulVec, dotProduct, Fin.sum_univ_three, Pi.add_apply, Pi.smul_apply, smul_eq_mul]
  ring
theorem contactJac_other (I : Inner n nj) (q : Idx (SBlk n)) (h1 : ¬ (q.1 = .baseQuat ∧ q.2 < 4)) (h2 : ¬ (q.1 = .joints ∧ q.2 < nj)) (h3 : ¬ (q.1 = .basePos ∧ q.2 < 3))
    (h4 : ¬ (q.1 = .pos side i ∧ q.2 < 3)) : contactPositionJac E I side i p x u q = 0 := by
  simp only [contactPositionJac, putCols, scaleCols, dif_neg h1, dif_neg h2, dif_neg h3, dif_neg h4, if_neg h4]

/-- The point, in the world. -/
theorem contact_world (foot : F) (p : Vec) (y : SVec n) :
    (s.kin.world (baseTransform y) (jointsOf y) (s.frames.link foot) * s.frames.offset foot).point p =
      basePosOf y + baseRotation y *ᵥ (s.transform (jointsOf y) s.baseFrame foot).point p := by
  have hT : s.transform (jointsOf y) s.baseFrame foot = (baseTransform y)⁻¹ * (s.kin.world (baseTransform y) (jointsOf y) (s.frames.link foot) * s.frames.offset foot) := by
    rw [Server.transform, s.frames.offset_ofLink, s.frames.link_ofLink, inv_one, one_mul, ← s.kin.rel_base (baseTransform y), Traversal.rel,
      ← s.kin_root, Traversal.world_root, mul_assoc]
  have hpt : (s.kin.world (baseTransform y) (jointsOf y) (s.frames.link foot) * s.frames.offset foot).point p =
      (baseTransform y).point ((s.transform (jointsOf y) s.baseFrame foot).point p) := by
    rw [hT, ← Server.point_comp, mul_inv_cancel_left]
  rw [hpt]; rfl

theorem contact_point (w : Leftover nj) (y : SVec n) :
    (contactInner (n := n) s foot w).c y + ∑ e, p e • (contactInner (n := n) s foot w).m y e = (s.transform (jointsOf y) s.baseFrame foot).point p := by
  have hc : (contactInner (n := n) s foot w).c y = (s.transform (jointsOf y) s.baseFrame foot).p := by
    show (if s.baseFrame = foot then 0 else _) = _
    split_ifs with h
    · subst h
      rw [s.transform_same _ _ _ rfl, inv_mul_cancel]; rfl
    · rfl
  have hrot : ∀ e, (contactInner (n := n) s foot w).m y e = (s.transform (jointsOf y) s.baseFrame foot).R *ᵥ unit3 e := by
    intro e
    show (s.eval _ _ _).1 = _
    rw [s.eval_adj]
    simp [SE3.act]
  rw [hc]
  simp only [hrot, SE3.point]
  congr 1
  funext b
  simp [mulVec, dotProduct, Fin.sum_univ_three, unit3]
  ring

/-- The velocity of the point when a joint moves. -/
theorem point_hasDerivAt (hm : m.Regular) (q : Fin nj → ℝ) (a b : F) (p : Vec) (j : Fin nj) :
    HasDerivAt (fun t => (s.transform (update q j t) a b).point p) ((s.transform q a b).R *ᵥ ((s.direction q a b j).1 + (s.direction q a b j).2 ⨯₃ p)) (q j) := by
  have h := s.hasTangent_transform hm q a b j p
  simp only [update_eq_self] at h
  exact h

theorem jacobian_eq (st : KState (Fin nj)) (a b : F) (j : Fin nj) :
    s.relativePositionJacobian st a b j = (s.transform st.q a b).R *ᵥ (s.direction st.q a b j).1 := by
  unfold Server.relativePositionJacobian
  split_ifs with h
  · subst h
    rw [s.direction_self]; simp
  · rw [s.veval_jacobianColumn, s.eval_adj]; simp [SE3.act]

theorem c1_eq (w : Leftover nj) (y : SVec n) (j : Fin nj) :
    (contactInner (n := n) s foot w).c1 y j = (s.transform (jointsOf y) s.baseFrame foot).R *ᵥ (s.direction (jointsOf y) s.baseFrame foot j).1 :=
  jacobian_eq s (w.state y) s.baseFrame foot j

/-- What the code uses as axis of the joint. -/
def usedAxis (s : Server m F) (q : Fin nj → ℝ) (a b : F) (j : Fin nj) : Vec :=
  if (s.tree (s.frames.link a)).child j = s.frames.link b then ((s.tree (s.frames.link a)).subspace (s.frames.link b)).2 else (s.direction q a b j).2

theorem m1_eq (w : Leftover nj) (y : SVec n) (j : Fin nj) (e : Fin 3) :
    (contactInner (n := n) s foot w).m1 y e j = (s.transform (jointsOf y) s.baseFrame foot).R *ᵥ (usedAxis s (jointsOf y) s.baseFrame foot j ⨯₃ unit3 e) := by
  show (s.eval (jointsOf y) (s.adjDerivative s.baseFrame foot j) (unit3 e, 0)).1 = _
  rw [s.eval_adjDerivative]
  unfold usedAxis
  split_ifs <;> simp [SE3.act, crossM]

theorem contactJac_joint' (hx : quatOf x ≠ 0) (j : Fin nj) : contactPositionJac E (contactInner s foot w) side i p x u (.joints, (j : ℕ)) =
    baseRotation x *ᵥ ((s.transform (jointsOf x) s.baseFrame foot).R *ᵥ
      ((s.direction (jointsOf x) s.baseFrame foot j).1 + usedAxis s (jointsOf x) s.baseFrame foot j ⨯₃ p)) := by
  rw [contactJac_joint hx, c1_eq]
  simp only [m1_eq]
  congr 1
  rw [mulVec_add]
  congr 1
  generalize (s.transform (jointsOf x) s.baseFrame foot).R = R
  generalize usedAxis s (jointsOf x) s.baseFrame foot j = ω
  simp only [← mulVec_smul, ← mulVec_sum]
  congr 1
  funext b
  fin_cases b <;> simp [cross_apply, Fin.sum_univ_three, unit3] <;> ring

/-- The Jacobian is right but, maybe, for the joints. -/
theorem contact_grad_other (hs : Levi.Spec.Sound cfg) (hE : E.Made cfg) (hx : quatOf x ≠ 0) (a : Fin 3) (q : Idx (SBlk n)) (h2 : ¬ (q.1 = .joints ∧ q.2 < nj)) :
    HasDerivAt (fun t => (s.kin.world (baseTransform (update x q t)) (jointsOf (update x q t)) (s.frames.link foot) * s.frames.offset foot).point p a -
      update x q t (.pos side i, (a : ℕ))) (contactPositionJac E (contactInner s foot w) side i p x u q a) (x q) := by
  simp only [contact_world]
  have hj : ∀ t, (jointsOf (update x q t) : Fin nj → ℝ) = jointsOf x := jointsOf_update_other x _ h2
  simp only [hj, Pi.add_apply]
  by_cases h1 : q.1 = .baseQuat ∧ q.2 < 4
  · obtain ⟨b, l⟩ := q
    obtain ⟨rfl, hl⟩ := h1
    obtain ⟨k, rfl⟩ : ∃ k : Fin 4, l = k := ⟨⟨l, hl⟩, rfl⟩
    have hb : ∀ t, basePosOf (update x (.baseQuat, (k : ℕ)) t) = basePosOf x := by intro t; funext a; simp [basePosOf]
    have hc : ∀ t, update x (.baseQuat, (k : ℕ)) t (.pos side i, (a : ℕ)) = x (.pos side i, (a : ℕ)) := by intro t; simp
    simp only [hb, hc]
    rw [contactJac_quat, contact_point]
    exact ((HasDerivAt.fun_sum (u := Finset.univ) fun b _ => (R1_hasDerivAt (I := contactInner s foot w) (u := u) hs hE hx a b k).mul_const
      ((s.transform (jointsOf x) s.baseFrame foot).point p b)).const_add (basePosOf x a)).sub_const (x (.pos side i, (a : ℕ)))
  have hq : ∀ t, baseRotation (update x q t) = baseRotation x := fun t => baseRotation_congr (quatOf_other x _ h1 t)
  simp only [hq]
  by_cases h3 : q.1 = .basePos ∧ q.2 < 3
  · obtain ⟨b, l⟩ := q
    obtain ⟨rfl, hl⟩ := h3
    obtain ⟨k, rfl⟩ : ∃ k : Fin 3, l = k := ⟨⟨l, hl⟩, rfl⟩
    rw [contactJac_base]
    have hc : ∀ t, update x (.basePos, (k : ℕ)) t (.pos side i, (a : ℕ)) = x (.pos side i, (a : ℕ)) := by intro t; simp
    simp only [hc]
    refine HasDerivAt.sub_const _ (HasDerivAt.add_const _ ?_)
    by_cases hik : a = k
    · subst hik
      simp only [basePosOf, update_self, unit3, Pi.single_eq_same]
      exact hasDerivAt_id _
    · have : (a : ℕ) ≠ k := fun e => hik (Fin.ext e)
      simp only [basePosOf, unit3, Pi.single_eq_of_ne hik]
      have hc : ∀ t, update x (.basePos, (k : ℕ)) t (.basePos, (a : ℕ)) = x (.basePos, (a : ℕ)) := by intro t; simp [this]
      simp only [hc]; exact hasDerivAt_const _ _
  have hb : ∀ t, basePosOf (update x q t) = basePosOf x := by
    intro t; funext a
    have : ((.basePos, (a : ℕ)) : Idx (SBlk n)) ≠ q := by rintro rfl; exact h3 ⟨rfl, a.2⟩
    simp [basePosOf, this]
  simp only [hb]
  by_cases h4 : q.1 = .pos side i ∧ q.2 < 3
  · obtain ⟨b, l⟩ := q
    obtain ⟨rfl, hl⟩ := h4
    obtain ⟨k, rfl⟩ : ∃ k : Fin 3, l = k := ⟨⟨l, hl⟩, rfl⟩
    rw [contactJac_pos]
    by_cases hik : a = k
    · subst hik
      simp only [update_self, unit3, Pi.neg_apply, Pi.single_eq_same]
      exact (hasDerivAt_id _).const_sub _
    · have : (a : ℕ) ≠ k := fun e => hik (Fin.ext e)
      simp only [unit3, Pi.neg_apply, Pi.single_eq_of_ne hik, neg_zero]
      have hc : ∀ t, update x (.pos side i, (k : ℕ)) t (.pos side i, (a : ℕ)) = x (.pos side i, (a : ℕ)) := by intro t; simp [this]
      simp only [hc]; exact hasDerivAt_const _ _
  · rw [contactJac_other _ q h1 h2 h3 h4]
    have : ((.pos side i, (a : ℕ)) : Idx (SBlk n)) ≠ q := by rintro rfl; exact h4 ⟨rfl, a.2⟩
    simp only [update_of_ne this]; exact hasDerivAt_const _ _

/-- What the column of a joint should be. -/
theorem contact_grad_joint (hm : m.Regular) (j : Fin nj) :
    HasDerivAt (fun t => (s.kin.world (baseTransform (update x (.joints, (j : ℕ)) t)) (jointsOf (update x (.joints, (j : ℕ)) t)) (s.frames.link foot) * s.frames.offset foot).point p -
      fun a : Fin 3 => update x (.joints, (j : ℕ)) t (.pos side i, (a : ℕ))) (baseRotation x *ᵥ ((s.transform (jointsOf x) s.baseFrame foot).R *ᵥ
      ((s.direction (jointsOf x) s.baseFrame foot j).1 + (s.direction (jointsOf x) s.baseFrame foot j).2 ⨯₃ p))) (x (.joints, (j : ℕ))) := by
  simp only [contact_world]
  have hb : ∀ t, basePosOf (update x (.joints, (j : ℕ)) t) = basePosOf x := by intro t; funext a; simp [basePosOf]
  have hq : ∀ t, baseRotation (update x (.joints, (j : ℕ)) t) = baseRotation x := fun t => baseRotation_congr (quatOf_other x _ (by simp) t)
  have hc : ∀ (t : ℝ) (a : Fin 3), update x (.joints, (j : ℕ)) t (.pos side i, (a : ℕ)) = x (.pos side i, (a : ℕ)) := by intro t a; simp
  simp only [jointsOf_update_joint, hb, hc, hq]
  have hR := hasDerivAt_mulVec (R := fun _ : ℝ => baseRotation x) (R' := 0) (fun a b => hasDerivAt_const _ _) (point_hasDerivAt s hm (jointsOf x) s.baseFrame foot p j)
  refine ((hR.const_add (basePosOf x)).sub_const _).congr_deriv ?_
  simp

/-- The column of a joint is right exactly when the axis used moves the point as the true one. -/
theorem contact_grad_joint_iff (hm : m.Regular) (hx : quatOf x ≠ 0) (j : Fin nj) :
    HasDerivAt (fun t => (s.kin.world (baseTransform (update x (.joints, (j : ℕ)) t)) (jointsOf (update x (.joints, (j : ℕ)) t)) (s.frames.link foot) * s.frames.offset foot).point p -
      fun a : Fin 3 => update x (.joints, (j : ℕ)) t (.pos side i, (a : ℕ))) (contactPositionJac E (contactInner s foot w) side i p x u (.joints, (j : ℕ))) (x (.joints, (j : ℕ))) ↔
    usedAxis s (jointsOf x) s.baseFrame foot j ⨯₃ p = (s.direction (jointsOf x) s.baseFrame foot j).2 ⨯₃ p := by
  have h := contact_grad_joint s (side := side) (i := i) (p := p) (foot := foot) (x := x) hm j
  rw [contactJac_joint' s hx]
  constructor
  · intro h'
    have := h'.unique h
    have h1 := Server.mulVec_R_injective (baseTransform x) this
    exact add_left_cancel (Server.mulVec_R_injective _ h1)
  · intro e; rw [e]; exact h

end
end Verif.NLP.Kin
