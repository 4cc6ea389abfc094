import Verif.Lemmas.FrameVelocity3
/- Lemmas: the gradients and the second derivatives of the angular velocity cost. -/
set_option linter.unusedSectionVars false
namespace Verif.NLP.Kin
open Matrix Verif.Rigid Function Verif.NLP.Spec Filter Topology
open Verif.Quaternion (im skew normalizedDerivative)
open Verif.NLP.Dynamics (quatOf baseRotation rpow env NonNull velOf)
open Verif.Levi
open Verif.Levi.Ex (Env Cfg)
noncomputable section
variable {n nj : ℕ} {L F : Type} [DecidableEq L] [DecidableEq F] {m : Model L (Fin nj)} (c : AngularVelocity m F) {x : SVec n} {v : Velocities n}
  {RE : RotExprs} {E : NormExprs} {cfg : Cfg ℝ} {Rd : Matrix (Fin 3) (Fin 3) ℝ} {gain : ℝ}

/-- The atoms of the error. -/
def VOrder0 : VAtom nj → Prop
  | .p (.R _ _) | .p (.m _ _) | .a _ => True
  | _ => False

theorem vorder0_order1 (a : VAtom nj) (h : VOrder0 a) : VOrder1 a := by
  cases a with
  | p a => cases a <;> first | trivial | exact h.elim
  | _ => first | trivial | exact h.elim

/-- The atoms of the derivatives of the angular velocity of the base. -/
def AngAtom1 : VAtom nj → Prop
  | .n _ | .qd _ | .N _ _ => True
  | _ => False

theorem angularDer_all (d : VVar nj) (i : Fin 3) : (angularDer d i).All AngAtom1 := by
  refine SExp.All.der (P := AngAtom) (fun a ha => ?_) (fun a ha => ?_) (angularE_all i)
  · cases a <;> first | trivial | exact ha.elim
  · cases a with
    | n i => cases d <;> trivial
    | qd i => cases d <;> trivial
    | _ => exact ha.elim

theorem angAtom1_order1 (a : VAtom nj) (h : AngAtom1 a) : VOrder1 a := by cases a <;> first | trivial | exact h.elim

theorem vAtomDer_all (d : VVar nj) (a : VAtom nj) (h : VOrder0 a) : (vAtomDer d a).All VOrder1 := by
  cases a with
  | p a =>
    cases a with
    | R a b => cases d <;> trivial
    | m b e => cases d <;> trivial
    | _ => exact h.elim
  | a b =>
    cases d with
    | joint j => trivial
    | w j => trivial
    | q k => exact fun i => ⟨(angularDer_all _ i).mono angAtom1_order1, trivial⟩
    | qd k => exact fun i => ⟨(angularDer_all _ i).mono angAtom1_order1, trivial⟩
  | _ => exact h.elim

theorem rotationErrorE_all (i j : Fin 3) : (rotationErrorE (nj := nj) Rd i j).All VOrder0 := fun _ => ⟨fun _ => ⟨trivial, trivial⟩, trivial⟩

theorem skewErrorE_all (i j : Fin 3) : (skewErrorE (nj := nj) Rd i j).All VOrder0 := ⟨trivial, rotationErrorE_all i j, rotationErrorE_all j i⟩

theorem velocityErrorE_all (i : Fin 3) : (velocityErrorE (nj := nj) gain Rd i).All VOrder0 := by
  refine ⟨trivial, trivial, ?_⟩
  fin_cases i <;> exact skewErrorE_all _ _

theorem velocityCostE_all : (velocityCostE (nj := nj) gain Rd).All VOrder0 :=
  fun i => ⟨⟨trivial, velocityErrorE_all i⟩, velocityErrorE_all i⟩

theorem velocityDerivativeE_all (d : VVar nj) : (velocityDerivativeE gain Rd d).All VOrder1 :=
  fun i => ⟨(velocityErrorE_all i).mono vorder0_order1, SExp.All.der vorder0_order1 (vAtomDer_all d) (velocityErrorE_all i)⟩

theorem eval_vder_cost (w : VAtom nj → ℝ) (d : VVar nj) : (vder d (velocityCostE gain Rd)).eval w = (velocityDerivativeE gain Rd d).eval w := by
  simp only [velocityCostE, velocityDerivativeE, vder, SExp.der, SExp.eval]
  exact Finset.sum_congr rfl fun i _ => by ring

namespace AngularVelocity

theorem stateGradient_eq (w : VAtom nj → ℝ) : c.stateGradient (n := n) Rd w = vGradS w (velocityCostE c.gain Rd) := by
  funext p
  unfold stateGradient vGradS putCols
  simp only [eval_vder_cost]
  by_cases h1 : p.1 = .baseQuat ∧ p.2 < 4
  · have h2 : ¬ (p.1 = .joints ∧ p.2 < nj) := by rw [h1.1]; simp
    simp only [dif_pos h1, dif_neg h2]
  · simp only [dif_neg h1]

theorem controlGradient_eq (w : VAtom nj → ℝ) : c.controlGradient (n := n) Rd w = vGradC w (velocityCostE c.gain Rd) := by
  funext p
  unfold controlGradient vGradC putCols
  simp only [eval_vder_cost]
  by_cases h1 : p.1 = .quatDer ∧ p.2 < 4
  · have h2 : ¬ (p.1 = .jointVel ∧ p.2 < nj) := by rw [h1.1]; simp
    simp only [dif_pos h1, dif_neg h2]
  · simp only [dif_neg h1]

theorem stateGradient_right (hm : m.Regular) (hs : Levi.Spec.Sound cfg) (hR : RE.Made cfg) (hE : E.Made cfg) (hK : c.server.KeepsAxes c.frame) (hx : quatOf x ≠ 0) :
    GradAt (fun y => (velocityCostE c.gain Rd).eval (c.vVal RE E y v)) (c.stateGradient Rd (c.vVal RE E x v)) x := by
  rw [stateGradient_eq]; exact c.vGradS_right hm hs hR hE hK hx (velocityCostE_all.mono vorder0_order1)

theorem controlGradient_right (hm : m.Regular) (hs : Levi.Spec.Sound cfg) (hR : RE.Made cfg) (hE : E.Made cfg) (hx : quatOf x ≠ 0) :
    GradAt (fun y => (velocityCostE c.gain Rd).eval (c.vVal RE E x y)) (c.controlGradient Rd (c.vVal RE E x v)) v := by
  rw [controlGradient_eq]; exact c.vGradC_right hm hs hR hE hx (velocityCostE_all.mono vorder0_order1)

/-! ### The mixed derivatives commute -/

theorem error_comm (hm : m.Regular) (k : Fin 4) (j : Fin nj) (i : Fin 3) :
    (vder (.q k) (vder (.joint j) (velocityErrorE gain Rd i))).eval (c.vVal RE E x v) = (vder (.joint j) (vder (.q k) (velocityErrorE gain Rd i))).eval (c.vVal RE E x v) := by
  refine SExp.der_comm _ (fun a ha => ?_) (velocityErrorE_all i)
  cases a with
  | p a =>
    cases a with
    | R a b => rfl
    | m b e => rfl
    | _ => exact ha.elim
  | a b =>
    have z : ∀ l, SExp.eval (c.vVal RE E x v) ((angularDer (.q k) l).der (vAtomDer (.joint j))) = 0 := fun l =>
      SExp.eval_der_zero (P := AngAtom1) _ (fun a ha => by cases a <;> first | rfl | exact ha.elim) (angularDer_all (.q k) l)
    simp only [vAtomDer, SExp.der, SExp.eval, z, zero_mul, zero_add]
    refine Finset.sum_congr rfl fun l _ => ?_
    simp only [vVal, c.server.absVel_comm hm]
  | _ => exact ha.elim

theorem derivativeE_comm (hm : m.Regular) (k : Fin 4) (j : Fin nj) :
    (vder (.q k) (velocityDerivativeE c.gain Rd (.joint j))).eval (c.vVal RE E x v) = (vder (.joint j) (velocityDerivativeE c.gain Rd (.q k))).eval (c.vVal RE E x v) := by
  have h := fun i => c.error_comm (x := x) (v := v) (RE := RE) (E := E) (Rd := Rd) (gain := c.gain) hm k j i
  simp only [vder] at h
  simp only [velocityDerivativeE, vder, SExp.der, SExp.eval, h]
  exact Finset.sum_congr rfl fun i _ => by ring

/-! ### The second derivatives -/

theorem stateHessian_eq (hm : m.Regular) (p : Idx (SBlk n)) : c.stateHessian Rd (c.vVal RE E x v) (fun _ _ => 0) p =
    if hp : p.1 = .baseQuat ∧ p.2 < 4 then vGradS (c.vVal RE E x v) (velocityDerivativeE c.gain Rd (.q ⟨p.2, hp.2⟩))
    else if hp : p.1 = .joints ∧ p.2 < nj then vGradS (c.vVal RE E x v) (velocityDerivativeE c.gain Rd (.joint ⟨p.2, hp.2⟩))
    else fun _ => 0 := by
  funext q
  unfold stateHessian Orientation.putBlock
  by_cases hp : p.1 = .baseQuat ∧ p.2 < 4
  · rw [dif_pos hp]
    have hnp : ¬ (p.1 = .joints ∧ p.2 < nj) := by rw [hp.1]; simp
    unfold vGradS
    by_cases h1 : q.1 = .baseQuat ∧ q.2 < 4
    · have hnq : ¬ (q.1 = .joints ∧ q.2 < nj) := by rw [h1.1]; simp
      simp [hp, h1]
    · rw [dif_neg h1]
      by_cases h2 : q.1 = .joints ∧ q.2 < nj
      · simp [h2, hp]
      · simp [h1, h2, hp]
  · rw [dif_neg hp]
    by_cases hp' : p.1 = .joints ∧ p.2 < nj
    · rw [dif_pos hp']
      unfold vGradS
      by_cases h1 : q.1 = .baseQuat ∧ q.2 < 4
      · rw [dif_pos h1]
        simp [h1, hp']
        exact (c.derivativeE_comm hm _ _).symm
      · rw [dif_neg h1]
        by_cases h2 : q.1 = .joints ∧ q.2 < nj
        · simp [h2, hp']
        · simp [h1, h2, hp']
    · rw [dif_neg hp']
      simp [hp, hp']

theorem mixedHessian_eq (p : Idx (SBlk n)) : c.mixedHessian Rd (c.vVal RE E x v) (fun _ _ => 0) p =
    if hp : p.1 = .baseQuat ∧ p.2 < 4 then vGradC (c.vVal RE E x v) (velocityDerivativeE c.gain Rd (.q ⟨p.2, hp.2⟩))
    else if hp : p.1 = .joints ∧ p.2 < nj then vGradC (c.vVal RE E x v) (velocityDerivativeE c.gain Rd (.joint ⟨p.2, hp.2⟩))
    else fun _ => 0 := by
  funext q
  unfold mixedHessian Orientation.putBlock
  by_cases hp : p.1 = .baseQuat ∧ p.2 < 4
  · rw [dif_pos hp]
    unfold vGradC
    by_cases h1 : q.1 = .quatDer ∧ q.2 < 4
    · simp [hp, h1]
    · rw [dif_neg h1]
      by_cases h2 : q.1 = .jointVel ∧ q.2 < nj
      · simp [h2, hp]
      · simp [h1, h2, hp]
  · rw [dif_neg hp]
    by_cases hp' : p.1 = .joints ∧ p.2 < nj
    · rw [dif_pos hp']
      unfold vGradC
      by_cases h1 : q.1 = .quatDer ∧ q.2 < 4
      · simp [h1, hp']
      · rw [dif_neg h1]
        by_cases h2 : q.1 = .jointVel ∧ q.2 < nj
        · simp [h2, hp']
        · simp [h1, h2, hp']
    · rw [dif_neg hp']
      simp [hp, hp']

theorem stateGradient_entry (w : VAtom nj → ℝ) (p : Idx (SBlk n)) : c.stateGradient Rd w p =
    if hp : p.1 = .baseQuat ∧ p.2 < 4 then (velocityDerivativeE c.gain Rd (.q ⟨p.2, hp.2⟩)).eval w
    else if hp : p.1 = .joints ∧ p.2 < nj then (velocityDerivativeE c.gain Rd (.joint ⟨p.2, hp.2⟩)).eval w
    else 0 := by
  rw [stateGradient_eq]; simp only [vGradS, eval_vder_cost]

theorem stateHessian_right (hm : m.Regular) (hs : Levi.Spec.Sound cfg) (hR : RE.Made cfg) (hE : E.Made cfg) (hK : c.server.KeepsAxes c.frame) (hx : quatOf x ≠ 0) :
    HessNear (fun y => (velocityCostE c.gain Rd).eval (c.vVal RE E y v)) (c.stateHessian Rd (c.vVal RE E x v) fun _ _ => 0) x := by
  refine ⟨fun y => c.stateGradient Rd (c.vVal RE E y v), ?_, fun p => ?_⟩
  · filter_upwards [Dynamics.eventually_nonNull hx] with y hy
    exact c.stateGradient_right hm hs hR hE hK hy
  · rw [c.stateHessian_eq hm]
    simp only [stateGradient_entry]
    split_ifs with h1 h2
    · exact c.vGradS_right hm hs hR hE hK hx (velocityDerivativeE_all _)
    · exact c.vGradS_right hm hs hR hE hK hx (velocityDerivativeE_all _)
    · exact fun q => hasDerivAt_const _ _

theorem mixedHessian_right (hm : m.Regular) (hs : Levi.Spec.Sound cfg) (hR : RE.Made cfg) (hE : E.Made cfg) (hK : c.server.KeepsAxes c.frame) (hx : quatOf x ≠ 0) :
    MixedNear (fun y w => (velocityCostE c.gain Rd).eval (c.vVal RE E y w)) (c.mixedHessian Rd (c.vVal RE E x v) fun _ _ => 0) x v := by
  refine ⟨fun w => c.stateGradient Rd (c.vVal RE E x w), fun w => c.stateGradient_right hm hs hR hE hK hx, fun p => ?_⟩
  rw [c.mixedHessian_eq]
  simp only [stateGradient_entry]
  split_ifs with h1 h2
  · exact c.vGradC_right hm hs hR hE hx (velocityDerivativeE_all _)
  · exact c.vGradC_right hm hs hR hE hx (velocityDerivativeE_all _)
  · exact fun q => hasDerivAt_const _ _

end AngularVelocity
end
end Verif.NLP.Kin
