import Verif.Lemmas.FrameVelocity2
/- Lemmas: the derivatives with respect to the velocities, and the gradients. -/
set_option linter.unusedSectionVars false
namespace Verif.Rigid.Server
open Matrix Function
variable {L J F : Type} [DecidableEq L] [DecidableEq J] [DecidableEq F] [Fintype J] {m : Model L J} (s : Server m F)

/-- The angular velocity does not depend on the linear velocity of the base. -/
theorem absVel_angular (hm : m.Regular) (st st' : KState J) (b : F) (hq : st.q = st'.q) (hd : st.dq = st'.dq) (ht : st.twist.2 = st'.twist.2) :
    (s.veval st (.absVel b)).2 = (s.veval st' (.absVel b)).2 := by
  simp only [veval]
  split_ifs with h
  · exact ht
  · simp only [s.relativeVelocity_eq hm, s.eval_adj, Prod.snd_add, hq, hd]
    congr 1
    simp only [SE3.act, ht]

theorem absVel_angular_deriv (hm : m.Regular) (st st' : KState J) (b : F) (hq : st.q = st'.q) (hd : st.dq = st'.dq) (ht : st.twist.2 = st'.twist.2) (d : KVar J) :
    (s.veval st (s.vderiv d (.absVel b))).2 = (s.veval st' (s.vderiv d (.absVel b))).2 := by
  have h1 := s.hasDerivAt_veval hm st d (.absVel b) trivial
  have h2 := s.hasDerivAt_veval hm st' d (.absVel b) trivial
  have h1' : HasDerivAt (fun x => (s.veval (st.move d x) (.absVel b)).2) _ 0 := h1.snd
  have h2' : HasDerivAt (fun x => (s.veval (st'.move d x) (.absVel b)).2) _ 0 := h2.snd
  have e : ∀ x, (s.veval (st.move d x) (.absVel b)).2 = (s.veval (st'.move d x) (.absVel b)).2 := by
    intro x
    refine s.absVel_angular hm _ _ b ?_ ?_ ?_ <;> cases d <;> simp [KState.move, hq, hd, ht]
  simp only [e] at h1'
  exact h1'.unique h2'

end Verif.Rigid.Server

namespace Verif.NLP.Kin
open Matrix Verif.Rigid Function Verif.NLP.Spec Filter Topology
open Verif.Quaternion (im skew normalizedDerivative)
open Verif.NLP.Dynamics (quatOf baseRotation rpow env NonNull velOf)
open Verif.Levi
open Verif.Levi.Ex (Env Cfg)
noncomputable section
variable {n nj : ℕ} {L F : Type} [DecidableEq L] [DecidableEq F] {m : Model L (Fin nj)} (c : AngularVelocity m F) {x : SVec n} {v : Velocities n}
  {RE : RotExprs} {E : NormExprs} {cfg : Cfg ℝ}

theorem velOf_other (v : CVec n) (p : Idx (CBlk n)) (h : p.1 ≠ .baseVel) (t : ℝ) : velOf (update v p t) = velOf v := by
  funext k
  have : ((.baseVel, (k : ℕ)) : Idx (CBlk n)) ≠ p := by rintro rfl; exact h rfl
  simp [velOf, this]

theorem quatVelOf_other (v : CVec n) (p : Idx (CBlk n)) (h : ¬ (p.1 = .quatDer ∧ p.2 < 4)) (t : ℝ) : quatVelOf (update v p t) = quatVelOf v := by
  funext k
  have : ((.quatDer, (k : ℕ)) : Idx (CBlk n)) ≠ p := by rintro rfl; exact h ⟨rfl, k.2⟩
  simp [quatVelOf, this]

theorem jointVelOf_other (v : CVec n) (p : Idx (CBlk n)) (h : ¬ (p.1 = .jointVel ∧ p.2 < nj)) (t : ℝ) : (jointVelOf (update v p t) : Fin nj → ℝ) = jointVelOf v := by
  funext k
  have : ((.jointVel, (k : ℕ)) : Idx (CBlk n)) ≠ p := by rintro rfl; exact h ⟨rfl, k.2⟩
  simp [jointVelOf, this]

theorem jointVelOf_update (v : CVec n) (j : Fin nj) (t : ℝ) : jointVelOf (update v (.jointVel, (j : ℕ)) t) = update (jointVelOf v) j t := by
  funext k
  by_cases h : k = j
  · subst h; simp [jointVelOf]
  · have : (k : ℕ) ≠ j := fun e => h (Fin.ext e)
    simp [jointVelOf, h, this]

/-- The rotations do not depend on the velocities. -/
theorem pVal_velocity (hs : Levi.Spec.Sound cfg) (hR : RE.Made cfg) (I : Inner n nj) (hx : quatOf x ≠ 0) (v v' : Velocities n) (a : PAtom nj) (ha : PRot a) :
    pVal RE I x v a = pVal RE I x v' a := by
  cases a with
  | R a b => rw [R_val hx, R_val hx]
  | R1 a b k => exact (R1_hasDerivAt (I := I) (u := v) hs hR hx a b k).unique (R1_hasDerivAt (I := I) (u := v') hs hR hx a b k)
  | m b e => rfl
  | m1 b e j => rfl
  | _ => exact ha.elim

namespace AngularVelocity

theorem vVal_N_velocity (hs : Levi.Spec.Sound cfg) (hE : E.Made cfg) (hx : quatOf x ≠ 0) (v v' : Velocities n) (i k : Fin 4) :
    c.vVal RE E x v (.N i k) = c.vVal RE E x v' (.N i k) := by rw [c.vVal_N hs hE hx, c.vVal_N hs hE hx]

/-! ### Along the derivative of the quaternion -/

theorem angAtom_qd (k : Fin 4) (a : VAtom nj) (ha : AngAtom a) :
    HasDerivAt (fun t => c.vVal RE E x (update v (.quatDer, (k : ℕ)) t) a) ((vLeaf (.qd k) a).eval (c.vVal RE E x v)) (v (.quatDer, (k : ℕ))) := by
  cases a with
  | n i => simp only [vLeaf, SExp.eval, vVal]; exact hasDerivAt_const _ _
  | qd i =>
    simp only [vLeaf, SExp.eval, vVal]
    by_cases h : k = i
    · subst h; simpa using hasDerivAt_id' (v (.quatDer, (k : ℕ)))
    · have hne : ((.quatDer, (i : ℕ)) : Idx (CBlk n)) ≠ (.quatDer, (k : ℕ)) := fun e => h (Fin.ext (by simpa using (congrArg Prod.snd e).symm))
      simp only [update_of_ne hne, if_neg h]
      exact hasDerivAt_const _ _
  | _ => exact ha.elim

theorem atom_qd (hm : m.Regular) (hs : Levi.Spec.Sound cfg) (hR : RE.Made cfg) (hE : E.Made cfg) (hx : quatOf x ≠ 0) (k : Fin 4) (a : VAtom nj) (ha : VOrder1 a) :
    HasDerivAt (fun t => c.vVal RE E x (update v (.quatDer, (k : ℕ)) t) a) ((vAtomDer (.qd k) a).eval (c.vVal RE E x v)) (v (.quatDer, (k : ℕ))) := by
  have hang := fun a ha => c.angAtom_qd (x := x) (v := v) (RE := RE) (E := E) k a ha
  have hve := fun (X : VExp (Fin nj) F) (hX : X.LinkTargets c.server.frames) (b : Fin 3) =>
    c.veval_hasDerivAt (z := fun _ => x) (y := fun t => update v (.quatDer, (k : ℕ)) t) hm hang
      (fun r => by rw [velOf_other v _ (by simp), velOf_other v _ (by simp)]) (fun _ => rfl)
      (fun r => by rw [jointVelOf_other v _ (by simp), jointVelOf_other v _ (by simp)]) X hX b
  simp only [update_eq_self] at hve
  cases a with
  | p a =>
    have : ∀ t, c.vVal RE E x (update v (.quatDer, (k : ℕ)) t) (.p a) = c.vVal RE E x v (.p a) := fun t => pVal_velocity hs hR _ hx _ _ a ha
    simp only [this]; exact hasDerivAt_const _ _
  | a b =>
    refine (hve (.absVel c.frame) trivial b).congr_deriv ?_
    simp only [vAtomDer, SExp.eval, angularDer, SExp.eval_der, vVal]
  | a1 b d =>
    refine (hve (c.server.vderiv d (.absVel c.frame)) (c.server.vderiv_linkTargets d _ trivial) b).congr_deriv ?_
    simp only [vAtomDer, SExp.eval, angularDer, SExp.eval_der, vVal]
  | a2 _ _ _ => exact ha.elim
  | n i => exact hang (.n i) trivial
  | N i l => simp only [fun t => c.vVal_N_velocity (RE := RE) hs hE hx (update v (.quatDer, (k : ℕ)) t) v i l]; exact hasDerivAt_const _ _
  | NN _ _ _ => exact ha.elim
  | qd i => exact hang (.qd i) trivial

/-! ### Along the velocities of the joints -/

theorem atom_w (hm : m.Regular) (hs : Levi.Spec.Sound cfg) (hR : RE.Made cfg) (hE : E.Made cfg) (hx : quatOf x ≠ 0) (j : Fin nj) (a : VAtom nj) (ha : VOrder1 a) :
    HasDerivAt (fun t => c.vVal RE E x (update v (.jointVel, (j : ℕ)) t) a) ((vAtomDer (.w j) a).eval (c.vVal RE E x v)) (v (.jointVel, (j : ℕ))) := by
  have hst : ∀ t, serverState (nj := nj) x (update v (.jointVel, (j : ℕ)) t) = { serverState x v with dq := update (jointVelOf v) j t } := fun t => by
    simp only [serverState, baseTwist, serverTwist, velOf_other v _ (show ((.jointVel, (j : ℕ)) : Idx (CBlk n)).1 ≠ .baseVel by simp),
      quatVelOf_other v _ (show ¬ (((.jointVel, (j : ℕ)) : Idx (CBlk n)).1 = .quatDer ∧ _) by simp), jointVelOf_update]
  have hve : ∀ (X : VExp (Fin nj) F), X.LinkTargets c.server.frames → ∀ b : Fin 3,
      HasDerivAt (fun t => (c.server.veval (serverState x (update v (.jointVel, (j : ℕ)) t)) X).2 b)
        ((c.server.veval (serverState x v) (c.server.vderiv (.velocity j) X)).2 b) (v (.jointVel, (j : ℕ))) := by
    intro X hX b
    have h := c.server.hasDerivAt_velocity hm (serverState x v) j X hX
    simp only [hst]
    have h1 : HasDerivAt (fun t => (c.server.veval { serverState x v with dq := update (jointVelOf v) j t } X).2) _ (jointVelOf v j) := h.snd
    exact hasDerivAt_pi.1 h1 b
  cases a with
  | p a =>
    have : ∀ t, c.vVal RE E x (update v (.jointVel, (j : ℕ)) t) (.p a) = c.vVal RE E x v (.p a) := fun t => pVal_velocity hs hR _ hx _ _ a ha
    simp only [this]; exact hasDerivAt_const _ _
  | a b => exact hve (.absVel c.frame) trivial b
  | a1 b d => exact hve (c.server.vderiv d (.absVel c.frame)) (c.server.vderiv_linkTargets d _ trivial) b
  | a2 _ _ _ => exact ha.elim
  | n i => simp only [vVal]; exact hasDerivAt_const _ _
  | N i l => simp only [fun t => c.vVal_N_velocity (RE := RE) hs hE hx (update v (.jointVel, (j : ℕ)) t) v i l]; exact hasDerivAt_const _ _
  | NN _ _ _ => exact ha.elim
  | qd i =>
    have hne : ((.quatDer, (i : ℕ)) : Idx (CBlk n)) ≠ (.jointVel, (j : ℕ)) := by simp
    simp only [vVal, update_of_ne hne]; exact hasDerivAt_const _ _

/-! ### Along the other coordinates of the control -/

theorem atom_otherVelocity (hm : m.Regular) (hs : Levi.Spec.Sound cfg) (hR : RE.Made cfg) (hE : E.Made cfg) (hx : quatOf x ≠ 0)
    (p : Idx (CBlk n)) (h1 : ¬ (p.1 = .quatDer ∧ p.2 < 4)) (h2 : ¬ (p.1 = .jointVel ∧ p.2 < nj)) (a : VAtom nj) (ha : VOrder1 a) :
    HasDerivAt (fun t => c.vVal RE E x (update v p t) a) 0 (v p) := by
  have hst : ∀ t, (serverState (nj := nj) x (update v p t)).twist.2 = (serverState (nj := nj) x v).twist.2 := fun t => by
    simp only [serverState, serverTwist, quatVelOf_other v p h1]
  have hw : ∀ t, (serverState (nj := nj) x (update v p t)).dq = (serverState x v).dq := fun t => jointVelOf_other v p h2 t
  cases a with
  | p a =>
    have : ∀ t, c.vVal RE E x (update v p t) (.p a) = c.vVal RE E x v (.p a) := fun t => pVal_velocity hs hR _ hx _ _ a ha
    simp only [this]; exact hasDerivAt_const _ _
  | a b => simp only [vVal, fun t => c.server.absVel_angular hm (serverState x (update v p t)) (serverState x v) c.frame rfl (hw t) (hst t)]; exact hasDerivAt_const _ _
  | a1 b d => simp only [vVal, fun t => c.server.absVel_angular_deriv hm (serverState x (update v p t)) (serverState x v) c.frame rfl (hw t) (hst t) d]; exact hasDerivAt_const _ _
  | a2 _ _ _ => exact ha.elim
  | n i => simp only [vVal]; exact hasDerivAt_const _ _
  | N i l => simp only [fun t => c.vVal_N_velocity (RE := RE) hs hE hx (update v p t) v i l]; exact hasDerivAt_const _ _
  | NN _ _ _ => exact ha.elim
  | qd i =>
    have hne : ((.quatDer, (i : ℕ)) : Idx (CBlk n)) ≠ p := by rintro rfl; exact h1 ⟨rfl, i.2⟩
    simp only [vVal, update_of_ne hne]; exact hasDerivAt_const _ _

end AngularVelocity

/-! ### Gradients of expressions -/

/-- The derivatives of an expression with respect to the coordinates of the state. -/
def vGradS (w : VAtom nj → ℝ) (e : SExp (VAtom nj)) (p : Idx (SBlk n)) : ℝ :=
  if hp : p.1 = .baseQuat ∧ p.2 < 4 then (vder (.q ⟨p.2, hp.2⟩) e).eval w
  else if hp : p.1 = .joints ∧ p.2 < nj then (vder (.joint ⟨p.2, hp.2⟩) e).eval w
  else 0

/-- The derivatives of an expression with respect to the coordinates of the control. -/
def vGradC (w : VAtom nj → ℝ) (e : SExp (VAtom nj)) (p : Idx (CBlk n)) : ℝ :=
  if hp : p.1 = .quatDer ∧ p.2 < 4 then (vder (.qd ⟨p.2, hp.2⟩) e).eval w
  else if hp : p.1 = .jointVel ∧ p.2 < nj then (vder (.w ⟨p.2, hp.2⟩) e).eval w
  else 0

namespace AngularVelocity

theorem vGradS_right (hm : m.Regular) (hs : Levi.Spec.Sound cfg) (hR : RE.Made cfg) (hE : E.Made cfg) (hK : c.server.KeepsAxes c.frame) (hx : quatOf x ≠ 0)
    {e : SExp (VAtom nj)} (he : e.All VOrder1) : GradAt (fun y => e.eval (c.vVal RE E y v)) (vGradS (c.vVal RE E x v) e) x := by
  intro p
  unfold vGradS
  by_cases h1 : p.1 = .baseQuat ∧ p.2 < 4
  · rw [dif_pos h1]
    obtain ⟨b, k⟩ := p
    have hb : b = .baseQuat := h1.1
    have hk : k < 4 := h1.2
    subst hb
    have h := SExp.hasDerivAt_eval (v := fun t => c.vVal RE E (update x (.baseQuat, k) t) v)
      (fun a ha => c.atom_q (v := v) hm hs hR hE hK hx ⟨k, hk⟩ a ha) he
    simp only [update_eq_self] at h
    exact h.congr_deriv (SExp.eval_der _ _ _).symm
  · rw [dif_neg h1]
    by_cases h2 : p.1 = .joints ∧ p.2 < nj
    · rw [dif_pos h2]
      obtain ⟨b, k⟩ := p
      have hb : b = .joints := h2.1
      have hk : k < nj := h2.2
      subst hb
      have h := SExp.hasDerivAt_eval (v := fun t => c.vVal RE E (update x (.joints, k) t) v)
        (fun a ha => c.atom_joint (v := v) hm hs hR hE hK hx ⟨k, hk⟩ a ha) he
      simp only [update_eq_self] at h
      exact h.congr_deriv (SExp.eval_der _ _ _).symm
    · rw [dif_neg h2]
      have h := SExp.hasDerivAt_eval (v := fun t => c.vVal RE E (update x p t) v)
        (fun a ha => c.atom_other (v := v) hm hs hR hE hK hx p h1 h2 a ha) he
      exact h.congr_deriv (SExp.dev_zero _ _)

theorem vGradC_right (hm : m.Regular) (hs : Levi.Spec.Sound cfg) (hR : RE.Made cfg) (hE : E.Made cfg) (hx : quatOf x ≠ 0)
    {e : SExp (VAtom nj)} (he : e.All VOrder1) : GradAt (fun y => e.eval (c.vVal RE E x y)) (vGradC (c.vVal RE E x v) e) v := by
  intro p
  unfold vGradC
  by_cases h1 : p.1 = .quatDer ∧ p.2 < 4
  · rw [dif_pos h1]
    obtain ⟨b, k⟩ := p
    have hb : b = .quatDer := h1.1
    have hk : k < 4 := h1.2
    subst hb
    have h := SExp.hasDerivAt_eval (v := fun t => c.vVal RE E x (update v (.quatDer, k) t))
      (fun a ha => c.atom_qd (v := v) hm hs hR hE hx ⟨k, hk⟩ a ha) he
    simp only [update_eq_self] at h
    exact h.congr_deriv (SExp.eval_der _ _ _).symm
  · rw [dif_neg h1]
    by_cases h2 : p.1 = .jointVel ∧ p.2 < nj
    · rw [dif_pos h2]
      obtain ⟨b, k⟩ := p
      have hb : b = .jointVel := h2.1
      have hk : k < nj := h2.2
      subst hb
      have h := SExp.hasDerivAt_eval (v := fun t => c.vVal RE E x (update v (.jointVel, k) t))
        (fun a ha => c.atom_w (v := v) hm hs hR hE hx ⟨k, hk⟩ a ha) he
      simp only [update_eq_self] at h
      exact h.congr_deriv (SExp.eval_der _ _ _).symm
    · rw [dif_neg h2]
      have h := SExp.hasDerivAt_eval (v := fun t => c.vVal RE E x (update v p t))
        (fun a ha => c.atom_otherVelocity (v := v) hm hs hR hE hx p h1 h2 a ha) he
      exact h.congr_deriv (SExp.dev_zero _ _)

end AngularVelocity
end
end Verif.NLP.Kin
