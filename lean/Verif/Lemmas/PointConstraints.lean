import Verif.Lemmas.CentroidalMomentum9
import Verif.Lemmas.TreeExpr4
import Verif.Model.PointConstraints
import Verif.Props.Dynamics
/- Lemmas: the derivatives of the expressions of the positions of points. -/
set_option linter.unusedSectionVars false
namespace Verif.NLP.Kin
open Matrix Verif.Rigid Function Verif.NLP.Spec
open Verif.NLP.Dynamics (quatOf velOf baseRotation rpow env NonNull rotE)
open Verif.Levi Verif.Levi.Ex
noncomputable section
variable {n nj : ℕ} {x : SVec n} {u : CVec n} {lam : Fin 3 → ℝ} {E : RotExprs} {cfg : Cfg ℝ} {I : Inner n nj}

/-- The derivatives of the point and of the rotation in the base are right, depend on the joints only and are symmetric. -/
structure Inner.Right (I : Inner n nj) : Prop where
  other : ∀ (x : SVec n) (p : Idx (SBlk n)) (t : ℝ), ¬ (p.1 = .joints ∧ p.2 < nj) →
    I.c (update x p t) = I.c x ∧ I.c1 (update x p t) = I.c1 x ∧ I.m (update x p t) = I.m x ∧ I.m1 (update x p t) = I.m1 x
  c : ∀ (x : SVec n) (j : Fin nj), HasDerivAt (fun t => I.c (update x (.joints, (j : ℕ)) t)) (I.c1 x j) (x (.joints, (j : ℕ)))
  c1 : ∀ (x : SVec n) (j k : Fin nj), HasDerivAt (fun t => I.c1 (update x (.joints, (k : ℕ)) t) j) (I.c2 x j k) (x (.joints, (k : ℕ)))
  m : ∀ (x : SVec n) (e : Fin 3) (j : Fin nj), HasDerivAt (fun t => I.m (update x (.joints, (j : ℕ)) t) e) (I.m1 x e j) (x (.joints, (j : ℕ)))
  m1 : ∀ (x : SVec n) (e : Fin 3) (j k : Fin nj), HasDerivAt (fun t => I.m1 (update x (.joints, (k : ℕ)) t) e j) (I.m2 x e j k) (x (.joints, (k : ℕ)))
  c2_symm : ∀ (x : SVec n) (j k : Fin nj), I.c2 x j k = I.c2 x k j
  m2_symm : ∀ (x : SVec n) (e : Fin 3) (j k : Fin nj), I.m2 x e j k = I.m2 x e k j

/-- The atoms that are not second derivatives. -/
def POrder1 : PAtom nj → Prop
  | .R2 _ _ _ _ | .c2 _ _ _ | .m2 _ _ _ _ => False
  | _ => True

/-- The atoms that are not derivatives. -/
def POrder0 : PAtom nj → Prop
  | .base _ | .R _ _ | .c _ | .m _ _ => True
  | _ => False

def NotBase : PAtom nj → Prop
  | .base _ => False
  | .R2 _ _ _ _ | .c2 _ _ _ | .m2 _ _ _ _ => False
  | _ => True

/-- The derivative of the rotation of the base. -/
theorem R1_hasDerivAt (hs : Levi.Spec.Sound cfg) (hE : E.Made cfg) (hx : quatOf x ≠ 0) (a b : Fin 3) (k : Fin 4) :
    HasDerivAt (fun t => baseRotation (update x (.baseQuat, (k : ℕ)) t) a b) (pVal E I x u (.R1 a b k)) (x (.baseQuat, (k : ℕ))) := by
  obtain ⟨m', hj⟩ := hE.1 b
  have h := Dynamics.deriv_of hs (Dynamics.written_rotE (Dynamics.env_nonNull hx u 0)) (c := b) b.2 (v := Quat.q) (by decide) hj a k a.2 k.2
  simp only [Dynamics.env_set] at h
  have e0 : env x u 0 Quat.q k = x (.baseQuat, (k : ℕ)) := by simp [env]
  rw [e0] at h
  exact h.congr_of_eventuallyEq (f₁ := fun t => baseRotation (update x (.baseQuat, (k : ℕ)) t) a b) (by
    filter_upwards [Dynamics.eventually_update (p := (.baseQuat, (k : ℕ))) (Dynamics.eventually_nonNull hx)] with t ht
    exact (Dynamics.rotE_value ht u 0 a b).symm)

theorem R_val (hx : quatOf x ≠ 0) (a b : Fin 3) : pVal E I x u (.R a b) = baseRotation x a b := Dynamics.rotE_value hx u 0 a b

theorem baseRotation_congr {x y : SVec n} (h : quatOf x = quatOf y) : baseRotation x = baseRotation y := by
  unfold baseRotation; rw [h]

theorem R1_congr (hs : Levi.Spec.Sound cfg) (hE : E.Made cfg) (hx : quatOf x ≠ 0) {y : SVec n} (h : quatOf y = quatOf x) (a b : Fin 3) (k : Fin 4) :
    pVal E I y u (.R1 a b k) = pVal E I x u (.R1 a b k) := by
  have h1 := R1_hasDerivAt (I := I) (u := u) hs hE (x := y) (by rwa [h]) a b k
  have h2 := R1_hasDerivAt (I := I) (u := u) hs hE hx a b k
  have e : ∀ t, baseRotation (update y (.baseQuat, (k : ℕ)) t) = baseRotation (update x (.baseQuat, (k : ℕ)) t) := by
    intro t
    apply baseRotation_congr
    rw [Dynamics.quatOf_update_quat y k k.2, Dynamics.quatOf_update_quat x k k.2, h]
  have e0 : y (.baseQuat, (k : ℕ)) = x (.baseQuat, (k : ℕ)) := congrFun h k
  simp only [e, e0] at h1
  exact h1.unique h2

theorem atom_q (hs : Levi.Spec.Sound cfg) (hE : E.Made cfg) (hI : I.Right) (hx : quatOf x ≠ 0) (k : Fin 4) (a : PAtom nj) (ha : POrder1 a) :
    HasDerivAt (fun t => pVal E I (update x (.baseQuat, (k : ℕ)) t) u a) ((pAtomDer (.q k) a).eval (pVal E I x u)) (x (.baseQuat, (k : ℕ))) := by
  have ho := fun t => hI.other x (.baseQuat, (k : ℕ)) t (by simp)
  cases a with
  | base i =>
    simp only [pVal, pAtomDer, SExp.eval]
    have : ∀ t, update x (.baseQuat, (k : ℕ)) t (.basePos, (i : ℕ)) = x (.basePos, (i : ℕ)) := fun t => update_of_ne (by simp) _ _
    simp only [this]; exact hasDerivAt_const _ _
  | R a b =>
    refine (R1_hasDerivAt (I := I) (u := u) hs hE hx a b k).congr_of_eventuallyEq ?_
    filter_upwards [Dynamics.eventually_update (p := (.baseQuat, (k : ℕ))) (Dynamics.eventually_nonNull hx)] with t ht
    exact R_val ht a b
  | R1 a b l =>
    obtain ⟨m', hj⟩ := hE.1 b
    obtain ⟨m'', hh⟩ := hE.2 b l
    have := (C25_second_derivative_of_what_was_written hs rotE NonNull (fun ρ hρ => Dynamics.written_rotE hρ) (c := b) b.2
        (v := Quat.q) (by decide) (v' := Quat.q) (by decide) (c' := l) l.2 hj hh (env x u 0) (Dynamics.env_nonNull hx u 0) a k a.2 k.2).1
    simp only [Dynamics.env_set] at this
    have e0 : env x u 0 Quat.q k = x (.baseQuat, (k : ℕ)) := by simp [env]
    rw [e0] at this
    exact this
  | R2 _ _ _ _ => exact ha.elim
  | c b => simp only [pVal, (ho _).1]; exact hasDerivAt_const _ _
  | c1 b j => simp only [pVal, (ho _).2.1]; exact hasDerivAt_const _ _
  | c2 _ _ _ => exact ha.elim
  | m b e => simp only [pVal, (ho _).2.2.1]; exact hasDerivAt_const _ _
  | m1 b e j => simp only [pVal, (ho _).2.2.2]; exact hasDerivAt_const _ _
  | m2 _ _ _ _ => exact ha.elim

theorem atom_joint' (hs : Levi.Spec.Sound cfg) (hE : E.Made cfg) (hI : I.Right) (hx : quatOf x ≠ 0) (j : Fin nj) (a : PAtom nj) (ha : POrder1 a) :
    HasDerivAt (fun t => pVal E I (update x (.joints, (j : ℕ)) t) u a) ((pAtomDer (.joint j) a).eval (pVal E I x u)) (x (.joints, (j : ℕ))) := by
  have hq : ∀ t, quatOf (update x (.joints, (j : ℕ)) t) = quatOf x := fun t => quatOf_other x _ (by simp) t
  have comp : ∀ {f : ℝ → Vec} {f' : Vec} {t : ℝ}, HasDerivAt f f' t → ∀ b, HasDerivAt (fun y => f y b) (f' b) t := fun h b => (hasDerivAt_pi.1 h) b
  cases a with
  | base i =>
    simp only [pVal, pAtomDer, SExp.eval]
    have : ∀ t, update x (.joints, (j : ℕ)) t (.basePos, (i : ℕ)) = x (.basePos, (i : ℕ)) := fun t => update_of_ne (by simp) _ _
    simp only [this]; exact hasDerivAt_const _ _
  | R a b =>
    have : ∀ t, pVal E I (update x (.joints, (j : ℕ)) t) u (.R a b) = baseRotation x a b := fun t => by
      rw [R_val (by rwa [hq]), baseRotation_congr (hq t)]
    simp only [this]; exact hasDerivAt_const _ _
  | R1 a b l =>
    simp only [fun t => R1_congr (I := I) (u := u) hs hE hx (hq t) a b l]; exact hasDerivAt_const _ _
  | R2 _ _ _ _ => exact ha.elim
  | c b => exact comp (hI.c x j) b
  | c1 b k => exact comp (hI.c1 x k j) b
  | c2 _ _ _ => exact ha.elim
  | m b e => exact comp (hI.m x e j) b
  | m1 b e k => exact comp (hI.m1 x e k j) b
  | m2 _ _ _ _ => exact ha.elim

theorem atom_other' (hs : Levi.Spec.Sound cfg) (hE : E.Made cfg) (hI : I.Right) (hx : quatOf x ≠ 0) (p : Idx (SBlk n))
    (h1 : ¬ (p.1 = .baseQuat ∧ p.2 < 4)) (h2 : ¬ (p.1 = .joints ∧ p.2 < nj)) (a : PAtom nj) (ha : POrder1 a) :
    HasDerivAt (fun t => pVal E I (update x p t) u a) (if hp : p.1 = .basePos ∧ p.2 < 3 then (pAtomDer (.base ⟨p.2, hp.2⟩) a).eval (pVal E I x u) else 0) (x p) := by
  have hq : ∀ t, quatOf (update x p t) = quatOf x := fun t => quatOf_other x _ h1 t
  have ho := fun t => hI.other x p t h2
  cases a with
  | base i =>
    simp only [pVal, pAtomDer, SExp.eval]
    by_cases h : p = (.basePos, (i : ℕ))
    · subst h
      simp only [update_self]
      exact (hasDerivAt_id _).congr_deriv (by simp)
    · simp only [update_of_ne (Ne.symm h)]
      refine (hasDerivAt_const _ _).congr_deriv ?_
      split_ifs with h3 h4
      · exfalso; apply h
        obtain ⟨p1, p2⟩ := p
        have : p2 = i := congrArg Fin.val h4
        have h3 : p1 = .basePos := h3.1
        rw [h3, this]
      · rfl
      · rfl
  | R a b =>
    have : ∀ t, pVal E I (update x p t) u (.R a b) = baseRotation x a b := fun t => by
      rw [R_val (by rwa [hq]), baseRotation_congr (hq t)]
    simp only [this, pAtomDer, SExp.eval]
    exact (hasDerivAt_const _ _).congr_deriv (by simp)
  | R1 a b l =>
    simp only [fun t => R1_congr (I := I) (u := u) hs hE hx (hq t) a b l, pAtomDer, SExp.eval]
    exact (hasDerivAt_const _ _).congr_deriv (by simp)
  | R2 _ _ _ _ => exact ha.elim
  | c b => simp only [pVal, (ho _).1, pAtomDer, SExp.eval]; exact (hasDerivAt_const _ _).congr_deriv (by simp)
  | c1 b k => simp only [pVal, (ho _).2.1, pAtomDer, SExp.eval]; exact (hasDerivAt_const _ _).congr_deriv (by simp)
  | c2 _ _ _ => exact ha.elim
  | m b e => simp only [pVal, (ho _).2.2.1, pAtomDer, SExp.eval]; exact (hasDerivAt_const _ _).congr_deriv (by simp)
  | m1 b e k => simp only [pVal, (ho _).2.2.2, pAtomDer, SExp.eval]; exact (hasDerivAt_const _ _).congr_deriv (by simp)
  | m2 _ _ _ _ => exact ha.elim

/-- The gradient of an expression. -/
def pGrad (v : PAtom nj → ℝ) (e : SExp (PAtom nj)) (p : Idx (SBlk n)) : ℝ :=
  if hp : p.1 = .baseQuat ∧ p.2 < 4 then (pder (.q ⟨p.2, hp.2⟩) e).eval v
  else if hp : p.1 = .joints ∧ p.2 < nj then (pder (.joint ⟨p.2, hp.2⟩) e).eval v
  else if hp : p.1 = .basePos ∧ p.2 < 3 then (pder (.base ⟨p.2, hp.2⟩) e).eval v
  else 0

theorem pGrad_right (hs : Levi.Spec.Sound cfg) (hE : E.Made cfg) (hI : I.Right) (hx : quatOf x ≠ 0) {e : SExp (PAtom nj)} (he : e.All POrder1) :
    GradAt (fun y => e.eval (pVal E I y u)) (pGrad (pVal E I x u) e) x := by
  intro p
  unfold pGrad
  by_cases h1 : p.1 = .baseQuat ∧ p.2 < 4
  · rw [dif_pos h1]
    obtain ⟨b, k⟩ := p
    have hb : b = .baseQuat := h1.1
    have hk : k < 4 := h1.2
    subst hb
    have h := SExp.hasDerivAt_eval (v := fun t => pVal E I (update x (.baseQuat, k) t) u) (fun a ha => atom_q (u := u) hs hE hI hx ⟨k, hk⟩ a ha) he
    rw [pder, SExp.eval_der]
    simp only [update_eq_self] at h
    exact h
  · rw [dif_neg h1]
    by_cases h2 : p.1 = .joints ∧ p.2 < nj
    · rw [dif_pos h2]
      obtain ⟨b, k⟩ := p
      have hb : b = .joints := h2.1
      have hk : k < nj := h2.2
      subst hb
      have h := SExp.hasDerivAt_eval (v := fun t => pVal E I (update x (.joints, k) t) u) (fun a ha => atom_joint' (u := u) hs hE hI hx ⟨k, hk⟩ a ha) he
      rw [pder, SExp.eval_der]
      simp only [update_eq_self] at h
      exact h
    · rw [dif_neg h2]
      have h := SExp.hasDerivAt_eval (v := fun t => pVal E I (update x p t) u) (fun a ha => atom_other' (u := u) hs hE hI hx p h1 h2 a ha) he
      refine h.congr_deriv ?_
      simp only [update_eq_self]
      split_ifs with h3
      · rw [pder, SExp.eval_der]
      · exact SExp.dev_zero _ _

end
end Verif.NLP.Kin
