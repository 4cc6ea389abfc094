import Verif.Lemmas.FrameVelocity
/- Lemmas: the derivatives of the atoms of the angular velocity cost. -/
set_option linter.unusedSectionVars false
namespace Verif.NLP.Kin
open Matrix Verif.Rigid Function Verif.NLP.Spec Filter Topology
open Verif.Quaternion (im skew normalizedDerivative)
open Verif.NLP.Dynamics (quatOf baseRotation rpow env NonNull velOf)
open Verif.Levi
open Verif.Levi.Ex (Env Cfg)
noncomputable section
variable {n nj : ℕ} {L F : Type} [DecidableEq L] [DecidableEq F] {m : Model L (Fin nj)} (c : AngularVelocity m F) {x : SVec n} {v : Velocities n}
  {RE : RotExprs} {E : NormExprs} {cfg : Cfg ℝ}

theorem eval_liftP (w : VAtom nj → ℝ) (e : SExp (PAtom nj)) : (liftP e).eval w = e.eval fun a => w (.p a) := by
  induction e with
  | const r => rfl
  | atom a => rfl
  | add e f he hf => simp only [liftP, SExp.eval, he, hf]
  | mul e f he hf => simp only [liftP, SExp.eval, he, hf]
  | neg e he => simp only [liftP, SExp.eval, he]
  | sum f hf => simp only [liftP, SExp.eval, hf]

/-- The entries of the two rotations and of their first derivatives. -/
def PRot : PAtom nj → Prop
  | .R _ _ | .R1 _ _ _ | .m _ _ | .m1 _ _ _ => True
  | _ => False

/-- The atoms that are not second derivatives. -/
def VOrder1 : VAtom nj → Prop
  | .p a => PRot a
  | .a2 _ _ _ | .NN _ _ _ => False
  | _ => True

theorem prot_order1 (a : PAtom nj) (h : PRot a) : POrder1 a := by cases a <;> first | trivial | exact h.elim

/-- The atoms of the angular velocity of the base. -/
def AngAtom : VAtom nj → Prop
  | .n _ | .qd _ => True
  | _ => False

theorem angularE_all (i : Fin 3) : (angularE (nj := nj) i 0).All AngAtom := by
  fin_cases i <;> simp [angularE, SMat.smul, SMat.add, SMat.mul, SMat.neg, SMat.skew, SMat.ident, SExp.All, AngAtom, Fin.forall_fin_succ]

theorem eval_angularE (w : VAtom nj → ℝ) (i : Fin 3) : (angularE i 0).eval w =
    ((2 : ℝ) • ((-(w (.qd 0))) • im (fun k => w (.n k)) + ((w (.n 0)) • (1 : Matrix (Fin 3) (Fin 3) ℝ) + skew (im fun k => w (.n k))) *ᵥ im fun k => w (.qd k))) i := by
  fin_cases i <;>
    simp [angularE, SMat.smul, SMat.add, SMat.mul, SMat.neg, SMat.skew, SMat.ident, SExp.eval, Fin.sum_univ_three, im, skew, mulVec, dotProduct,
      one_apply, vecHead, vecTail] <;> ring

namespace AngularVelocity

theorem angularE_val (y : SVec n) (v : Velocities n) (i : Fin 3) : (angularE i 0).eval (c.vVal RE E y v) = (serverTwist y v).2 i := by
  rw [eval_angularE]; rfl

theorem vVal_N (hs : Levi.Spec.Sound cfg) (hE : E.Made cfg) {y : SVec n} (hy : quatOf y ≠ 0) (i k : Fin 4) :
    c.vVal RE E y v (.N i k) = normalizedDerivative Real.sqrt (quatOf y) i k := atomVal_N (fuel := 0) (lam := 0) c.server hs hE hy i k

/-- A derivative of the base twist. -/
theorem twist_hasDerivAt {z : ℝ → SVec n} {y : ℝ → Velocities n} {w : VAtom nj → ℝ} {t : ℝ}
    (h : ∀ a : VAtom nj, AngAtom a → HasDerivAt (fun r => c.vVal RE E (z r) (y r) a) (w a) t) (hv : ∀ r, velOf (y r) = velOf (y t)) :
    HasDerivAt (fun r => serverTwist (z r) (y r)) (∑ i, ((angularE i 0).dev (c.vVal RE E (z t) (y t)) w) • ((0, unit3 i) : Spatial)) t := by
  have hang : HasDerivAt (fun r => (serverTwist (z r) (y r)).2) (fun i => (angularE i 0).dev (c.vVal RE E (z t) (y t)) w) t := by
    refine hasDerivAt_pi.2 fun i => ?_
    have := SExp.hasDerivAt_eval h (angularE_all (nj := nj) i)
    simp only [angularE_val] at this
    exact this
  have hlin : HasDerivAt (fun r => (serverTwist (z r) (y r)).1) 0 t := by
    simp only [serverTwist, hv]; exact hasDerivAt_const _ _
  have := hlin.prodMk hang
  refine this.congr_deriv ?_
  refine Prod.ext ?_ ?_
  · simp [Prod.fst_sum]
  · funext k
    simp [Prod.snd_sum, unit3, Finset.sum_apply, Pi.single_apply]

/-- The derivative of the velocity, or of one of its derivatives, along a curve that changes the base twist only. -/
theorem veval_hasDerivAt (hm : m.Regular) {z : ℝ → SVec n} {y : ℝ → Velocities n} {w : VAtom nj → ℝ} {t : ℝ}
    (h : ∀ a : VAtom nj, AngAtom a → HasDerivAt (fun r => c.vVal RE E (z r) (y r) a) (w a) t) (hv : ∀ r, velOf (y r) = velOf (y t))
    (hj : ∀ r, (jointsOf (z r) : Fin nj → ℝ) = jointsOf (z t)) (hw : ∀ r, (jointVelOf (y r) : Fin nj → ℝ) = jointVelOf (y t))
    (X : VExp (Fin nj) F) (hX : X.LinkTargets c.server.frames) (b : Fin 3) :
    HasDerivAt (fun r => (c.server.veval (serverState (z r) (y r)) X).2 b)
      (∑ k : Fin 3, (angularE k 0).dev (c.vVal RE E (z t) (y t)) w * (c.server.veval (serverState (z t) (y t)) (c.server.vderiv (.twist (0, unit3 k)) X)).2 b) t := by
  have h1 := c.server.hasDerivAt_twist_curve hm (serverState (z t) (y t)) (c.twist_hasDerivAt h hv) X hX
  have e : ∀ r, c.server.veval (serverState (z r) (y r)) X = c.server.veval { (serverState (z t) (y t)) with twist := serverTwist (z r) (y r) } X := by
    intro r
    rw [← c.server.veval_stateVel hm (serverState (z r) (y r)) (baseTwist (z t) (y t)) X]
    simp only [serverState, hj, hw]
  simp only [← e] at h1
  have h2 : HasDerivAt (fun r => (c.server.veval (serverState (z r) (y r)) X).2) _ t := h1.snd
  refine (hasDerivAt_pi.1 h2 b).congr_deriv ?_
  have e2 : ({ (serverState (z t) (y t)) with twist := serverTwist (z t) (y t) } : KState (Fin nj)) = serverState (z t) (y t) := rfl
  rw [e2, c.server.vderiv_twist_sum _ _ hX]
  simp [Prod.snd_sum, Finset.sum_apply]

/-! ### Along the coordinates of the quaternion -/

theorem angAtom_q (hs : Levi.Spec.Sound cfg) (hE : E.Made cfg) (hx : quatOf x ≠ 0) (k : Fin 4) (a : VAtom nj) (ha : AngAtom a) :
    HasDerivAt (fun t => c.vVal RE E (update x (.baseQuat, (k : ℕ)) t) v a) ((vLeaf (.q k) a).eval (c.vVal RE E x v)) (x (.baseQuat, (k : ℕ))) := by
  cases a with
  | n i => simp only [vLeaf, SExp.eval, c.vVal_N hs hE hx]; exact quatN_hasDerivAt hx i k
  | qd i => simp only [vLeaf, SExp.eval, vVal]; exact hasDerivAt_const _ _
  | _ => exact ha.elim

theorem atom_q (hm : m.Regular) (hs : Levi.Spec.Sound cfg) (hR : RE.Made cfg) (hE : E.Made cfg) (hK : c.server.KeepsAxes c.frame) (hx : quatOf x ≠ 0) (k : Fin 4)
    (a : VAtom nj) (ha : VOrder1 a) :
    HasDerivAt (fun t => c.vVal RE E (update x (.baseQuat, (k : ℕ)) t) v a) ((vAtomDer (.q k) a).eval (c.vVal RE E x v)) (x (.baseQuat, (k : ℕ))) := by
  have hj : ∀ t, (jointsOf (update x (.baseQuat, (k : ℕ)) t) : Fin nj → ℝ) = jointsOf x := jointsOf_update_other _ _ (by simp)
  have hang := fun a ha => c.angAtom_q (v := v) (RE := RE) hs hE hx k a ha
  have hve := fun (X : VExp (Fin nj) F) (hX : X.LinkTargets c.server.frames) (b : Fin 3) =>
    c.veval_hasDerivAt (z := fun t => update x (.baseQuat, (k : ℕ)) t) (y := fun _ => v) hm hang (fun _ => rfl)
      (fun r => by rw [hj, hj]) (fun _ => rfl) X hX b
  simp only [update_eq_self] at hve
  cases a with
  | p a =>
    simp only [vVal, vAtomDer, vLeaf, eval_liftP]
    exact Kin.atom_q hs hR (contactInner_right c.server hm c.frame hK) hx k a (prot_order1 a ha)
  | a b =>
    refine (hve (.absVel c.frame) trivial b).congr_deriv ?_
    simp only [vAtomDer, SExp.eval, angularDer, SExp.eval_der, vVal]
  | a1 b d =>
    refine (hve (c.server.vderiv d (.absVel c.frame)) (c.server.vderiv_linkTargets d _ trivial) b).congr_deriv ?_
    simp only [vAtomDer, SExp.eval, angularDer, SExp.eval_der, vVal]
  | a2 _ _ _ => exact ha.elim
  | n i => exact hang (.n i) trivial
  | N i l => exact atomVal_NN (fuel := 0) (lam := 0) c.server hs hE hx i l k
  | NN _ _ _ => exact ha.elim
  | qd i => exact hang (.qd i) trivial

/-! ### Along the joints -/

theorem atom_joint (hm : m.Regular) (hs : Levi.Spec.Sound cfg) (hR : RE.Made cfg) (hE : E.Made cfg) (hK : c.server.KeepsAxes c.frame) (hx : quatOf x ≠ 0) (j : Fin nj)
    (a : VAtom nj) (ha : VOrder1 a) :
    HasDerivAt (fun t => c.vVal RE E (update x (.joints, (j : ℕ)) t) v a) ((vAtomDer (.joint j) a).eval (c.vVal RE E x v)) (x (.joints, (j : ℕ))) := by
  have hq : ∀ t, quatOf (update x (.joints, (j : ℕ)) t) = quatOf x := fun t => quatOf_other x _ (by simp) t
  have hst : ∀ t, serverState (nj := nj) (update x (.joints, (j : ℕ)) t) v = { serverState x v with q := update (jointsOf x) j t } := fun t => by
    simp only [serverState, baseTwist, serverTwist, quatN, hq, jointsOf_update_joint]
  have hve : ∀ (X : VExp (Fin nj) F), X.LinkTargets c.server.frames → ∀ b : Fin 3,
      HasDerivAt (fun t => (c.server.veval (serverState (update x (.joints, (j : ℕ)) t) v) X).2 b)
        ((c.server.veval (serverState x v) (c.server.vderiv (.position j) X)).2 b) (x (.joints, (j : ℕ))) := by
    intro X hX b
    have h := c.server.hasDerivAt_position hm (serverState x v) j X hX
    simp only [hst]
    have h1 : HasDerivAt (fun t => (c.server.veval { serverState x v with q := update (jointsOf x) j t } X).2) _ (jointsOf x j) := h.snd
    exact hasDerivAt_pi.1 h1 b
  cases a with
  | p a =>
    simp only [vVal, vAtomDer, vLeaf, eval_liftP]
    exact Kin.atom_joint' hs hR (contactInner_right c.server hm c.frame hK) hx j a (prot_order1 a ha)
  | a b => exact hve (.absVel c.frame) trivial b
  | a1 b d => exact hve (c.server.vderiv d (.absVel c.frame)) (c.server.vderiv_linkTargets d _ trivial) b
  | a2 _ _ _ => exact ha.elim
  | n i => simp only [vVal, quatN, hq]; exact hasDerivAt_const _ _
  | N i l =>
    have : ∀ t, c.vVal RE E (update x (.joints, (j : ℕ)) t) v (.N i l) = c.vVal RE E x v (.N i l) := fun t => by
      rw [c.vVal_N hs hE (by rwa [hq]), c.vVal_N hs hE hx, hq]
    simp only [this]; exact hasDerivAt_const _ _
  | NN _ _ _ => exact ha.elim
  | qd i => simp only [vVal]; exact hasDerivAt_const _ _

/-! ### Along the other coordinates of the state -/

theorem atom_other (hm : m.Regular) (hs : Levi.Spec.Sound cfg) (hR : RE.Made cfg) (hE : E.Made cfg) (hK : c.server.KeepsAxes c.frame) (hx : quatOf x ≠ 0)
    (p : Idx (SBlk n)) (h1 : ¬ (p.1 = .baseQuat ∧ p.2 < 4)) (h2 : ¬ (p.1 = .joints ∧ p.2 < nj)) (a : VAtom nj) (ha : VOrder1 a) :
    HasDerivAt (fun t => c.vVal RE E (update x p t) v a) 0 (x p) := by
  have hq : ∀ t, quatOf (update x p t) = quatOf x := fun t => quatOf_other x _ h1 t
  have hj : ∀ t, (jointsOf (update x p t) : Fin nj → ℝ) = jointsOf x := jointsOf_update_other _ _ h2
  have hst : ∀ t, serverState (nj := nj) (update x p t) v = serverState x v := fun t => by
    simp only [serverState, baseTwist, serverTwist, quatN, hq, hj]
  cases a with
  | p a =>
    simp only [vVal]
    refine (atom_other' hs hR (contactInner_right c.server hm c.frame hK) hx p h1 h2 a (prot_order1 a ha)).congr_deriv ?_
    split_ifs with hp
    · cases a <;> first | rfl | exact ha.elim
    · rfl
  | a b => simp only [vVal, hst]; exact hasDerivAt_const _ _
  | a1 b d => simp only [vVal, hst]; exact hasDerivAt_const _ _
  | a2 _ _ _ => exact ha.elim
  | n i => simp only [vVal, quatN, hq]; exact hasDerivAt_const _ _
  | N i l =>
    have : ∀ t, c.vVal RE E (update x p t) v (.N i l) = c.vVal RE E x v (.N i l) := fun t => by
      rw [c.vVal_N hs hE (by rwa [hq]), c.vVal_N hs hE hx, hq]
    simp only [this]; exact hasDerivAt_const _ _
  | NN _ _ _ => exact ha.elim
  | qd i => simp only [vVal]; exact hasDerivAt_const _ _

end AngularVelocity
end
end Verif.NLP.Kin
