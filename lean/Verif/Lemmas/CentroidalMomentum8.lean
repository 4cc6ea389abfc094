import Verif.Lemmas.CentroidalMomentum7
/- Lemmas: the second derivatives of the centroidal momentum constraint. -/
set_option linter.unusedSectionVars false
namespace Verif.NLP.Kin
open Matrix Verif.Rigid Function Verif.NLP.Spec
open Verif.NLP.Dynamics (quatOf velOf baseRotation rpow)
open Verif.Levi Verif.Levi.Ex
noncomputable section
variable {n nj : ℕ} {L F : Type} [DecidableEq L] [DecidableEq F] {m : Model L (Fin nj)} (s : Server m F) {x : SVec n} {u : CVec n} {lam : Fin 3 → ℝ} {fuel : ℕ}
  {E : NormExprs} {cfg : Cfg ℝ}

/-- The atoms of the first derivatives that do not contain the derivative of the normalisation. -/
def NoN : CAtom nj → Prop
  | .NN _ _ _ | .cjj _ _ _ | .mom2 _ _ _ | .N _ _ => False
  | _ => True

theorem noN_order1 (a : CAtom nj) (h : NoN a) : Order1 a := by
  cases a <;> first | trivial | exact h.elim
theorem order0_noN (a : CAtom nj) (h : Order0 a) : NoN a := by
  cases a <;> first | trivial | exact h.elim
theorem twistAtom_noN (a : CAtom nj) (h : TwistAtom a) : NoN a := by
  cases a <;> first | trivial | exact h.elim

theorem twistDer_all (d : CVar nj) (r : Fin 6) : (twistDer d r).All TwistAtom := by
  rw [twistDer_eq]
  refine SExp.All.der (fun _ h => h) (fun a ha => ?_) (twistExpr_all r)
  cases a <;> cases d <;> first | trivial | exact ha.elim

theorem atomDer_all (d : CVar nj) (a : CAtom nj) (ha : Order0 a) : (atomDer d a).All NoN := by
  cases a with
  | n i => cases d <;> trivial
  | c i => cases d <;> trivial
  | lam i => cases d <;> trivial
  | mom r => cases d <;> first | trivial | exact fun k => ⟨(twistDer_all _ k).mono twistAtom_noN, trivial⟩
  | _ => exact ha.elim

theorem cder_all (d : CVar nj) {e : SExp (CAtom nj)} (he : e.All Order0) : (cder d e).All NoN :=
  SExp.All.der order0_noN (atomDer_all d) he

theorem jointsLagrangian_all (j : Fin nj) : (jointsLagrangian j).All NoN :=
  ⟨cder_all _ lagrangian_all, fun _ => ⟨cder_all _ lagrangian_all, trivial⟩⟩

theorem quaternionLagrangian_all (k : Fin 4) : (quaternionLagrangian (nj := nj) k).All Order1 :=
  fun _ => ⟨(cder_all _ lagrangian_all).mono noN_order1, trivial⟩

/-- Nothing but the derivative of the normalisation depends on the quaternion of the state directly. -/
theorem cder_q_zero (v : CAtom nj → ℝ) (k : Fin 4) {e : SExp (CAtom nj)} (he : e.All NoN) : (cder (.q k) e).eval v = 0 := by
  refine SExp.eval_der_zero v (fun a ha => ?_) he
  have tq := twistDer_zero (.q k) (leaf_q k) v
  cases a with
  | mom r => simp only [atomDer, SExp.eval, tq, zero_mul, Finset.sum_const_zero]
  | mom1 r d => simp only [atomDer, SExp.eval, tq, zero_mul, Finset.sum_const_zero]
  | n i => rfl
  | c i => rfl
  | lam i => rfl
  | v i => rfl
  | qd i => rfl
  | cj i j => rfl
  | _ => exact ha.elim

theorem leaf_joint_zero (v : CAtom nj → ℝ) (j : Fin nj) (a : CAtom nj) (ha : TwistAtom a) : (atomDer (.joint j) a).eval v = 0 := by
  cases a with
  | n i => rfl
  | v i => rfl
  | qd i => rfl
  | _ => exact ha.elim

theorem leaf_c_zero (v : CAtom nj → ℝ) (k : Fin 3) (a : CAtom nj) (ha : TwistAtom a) : (atomDer (.c k) a).eval v = 0 := by
  cases a with
  | n i => rfl
  | v i => rfl
  | qd i => rfl
  | _ => exact ha.elim

theorem leaf_const (d : CVar nj) (d' : CVar nj) (i : Fin 4) (v : CAtom nj → ℝ) : SExp.eval v ((atomDer d (.n i)).der (atomDer d')) = 0 := by
  cases d <;> rfl

/-- The derivatives with respect to the normalised quaternion and to the joints commute. -/
theorem cder_comm_joint (hm : m.Regular) (i : Fin 4) (j : Fin nj) {e : SExp (CAtom nj)} (he : e.All Order0) :
    (cder (.n i) (cder (.joint j) e)).eval (atomVal s E fuel x u lam) = (cder (.joint j) (cder (.n i) e)).eval (atomVal s E fuel x u lam) := by
  refine SExp.der_comm _ (fun a ha => ?_) he
  cases a with
  | n i' => rfl
  | c i' => rfl
  | lam i' => rfl
  | mom r =>
    have z := fun k => SExp.eval_der_zero (atomVal s E fuel x u lam) (leaf_joint_zero _ j) (twistDer_all (.n i) k)
    simp only [atomDer, SExp.der, SExp.eval, z, zero_mul, zero_add]
    refine Finset.sum_congr rfl fun k _ => ?_
    rw [atomVal_mom2, atomVal_mom2, s.veval_momentumDeriv2_position_twist hm, s.veval_momentumDeriv2_twist_position]
  | _ => exact ha.elim

/-- The derivatives with respect to the normalised quaternion and to the centre of mass commute. -/
theorem cder_comm_com (v : CAtom nj → ℝ) (i : Fin 4) (a : Fin 3) {e : SExp (CAtom nj)} (he : e.All Order0) :
    (cder (.n i) (cder (.c a) e)).eval v = (cder (.c a) (cder (.n i) e)).eval v := by
  refine SExp.der_comm _ (fun b hb => ?_) he
  cases b with
  | n i' => rfl
  | c i' => rfl
  | lam i' => rfl
  | mom r =>
    have z1 := fun k => SExp.eval_der_zero v (leaf_c_zero v a) (twistDer_all (.n i) k)
    have z2 := twistDer_zero (.c a) (leaf_c a) v
    have z3 : ∀ k, SExp.eval v ((twistDer (.c a : CVar nj) k).der (atomDer (.n i))) = 0 := by
      intro k; rw [twistDer_eq]; exact SExp.der_der_zero v (leaf_c a) (twistExpr_all k)
    simp only [atomDer, SExp.der, SExp.eval, z1, z2, z3, zero_mul, mul_zero, add_zero, Finset.sum_const_zero]
  | _ => exact hb.elim

theorem cder_sum {k : ℕ} (d : CVar nj) (f : Fin k → SExp (CAtom nj)) : cder d (.sum f) = .sum fun i => cder d (f i) := rfl
theorem cder_add (d : CVar nj) (e f : SExp (CAtom nj)) : cder d (.add e f) = .add (cder d e) (cder d f) := rfl
theorem cder_mul (d : CVar nj) (e f : SExp (CAtom nj)) : cder d (.mul e f) = .add (.mul (cder d e) f) (.mul e (cder d f)) := rfl

/-- The block of the joints and of the quaternion is the transpose of the other. -/
theorem joints_quat (hm : m.Regular) (j : Fin nj) (k : Fin 4) :
    (cder (.q k) (jointsLagrangian j)).eval (atomVal s E fuel x u lam) +
      ∑ i, (cder (.n i) (jointsLagrangian j)).eval (atomVal s E fuel x u lam) * atomVal s E fuel x u lam (.N i k) =
    (quatJoints k j).eval (atomVal s E fuel x u lam) := by
  rw [cder_q_zero _ _ (jointsLagrangian_all j), zero_add]
  have e1 : ∀ (i : Fin 4) (a : Fin 3), cder (.n i) (.atom (.cj a j) : SExp (CAtom nj)) = .const 0 := fun _ _ => rfl
  have e2 : ∀ i : Fin 4, cder (.joint j) (.atom (.N i k) : SExp (CAtom nj)) = .const 0 := fun _ => rfl
  have e3 : ∀ (a : Fin 3) (i : Fin 4), cder (.c a) (.atom (.N i k) : SExp (CAtom nj)) = .const 0 := fun _ _ => rfl
  simp only [quatJoints, jointsLagrangian, quaternionLagrangian, cder_add, cder_sum, cder_mul, SExp.eval, e1, e2, e3, mul_zero, add_zero,
    cder_comm_joint s hm _ _ lagrangian_all, cder_comm_com _ _ _ lagrangian_all]
  simp only [add_mul, Finset.sum_add_distrib, Finset.sum_mul]
  congr 1
  rw [Finset.sum_comm]
  exact Finset.sum_congr rfl fun _ _ => Finset.sum_congr rfl fun _ _ => by ring

/-! ### The matrices written, in any order -/

/-- The block an evaluation is written to. -/
def StateTask.covers (nj : ℕ) : StateTask → Idx (SBlk n) → Idx (SBlk n) → Prop
  | .quatQuat, p, q => (p.1 = .baseQuat ∧ p.2 < 4) ∧ q.1 = .baseQuat ∧ q.2 < 4
  | .quatJoints, p, q => ((p.1 = .joints ∧ p.2 < nj) ∧ q.1 = .baseQuat ∧ q.2 < 4) ∨ ((p.1 = .baseQuat ∧ p.2 < 4) ∧ q.1 = .joints ∧ q.2 < nj)
  | .jointsJoints, p, q => (p.1 = .joints ∧ p.2 < nj) ∧ q.1 = .joints ∧ q.2 < nj

/-- All the entries. -/
def stateEntry (v : CAtom nj → ℝ) (p q : Idx (SBlk n)) : ℝ :=
  if hp : p.1 = .baseQuat ∧ p.2 < 4 then
    if hq : q.1 = .baseQuat ∧ q.2 < 4 then (quatQuat ⟨p.2, hp.2⟩ ⟨q.2, hq.2⟩).eval v
    else if hq : q.1 = .joints ∧ q.2 < nj then (quatJoints ⟨p.2, hp.2⟩ ⟨q.2, hq.2⟩).eval v else 0
  else if hp : p.1 = .joints ∧ p.2 < nj then
    if hq : q.1 = .baseQuat ∧ q.2 < 4 then (quatJoints ⟨q.2, hq.2⟩ ⟨p.2, hp.2⟩).eval v
    else if hq : q.1 = .joints ∧ q.2 < nj then (jointsJoints ⟨p.2, hp.2⟩ ⟨q.2, hq.2⟩).eval v else 0
  else 0

open Classical in
theorem writeState_eq (H : Idx (SBlk n) → Idx (SBlk n) → ℝ) (t : StateTask) (p q : Idx (SBlk n)) :
    writeState s E fuel x u lam H t p q = if t.covers nj p q then stateEntry (atomVal s E fuel x u lam) p q else H p q := by
  have d1 : ∀ p : Idx (SBlk n), p.1 = .joints ∧ p.2 < nj → ¬ (p.1 = .baseQuat ∧ p.2 < 4) := by rintro p ⟨h, -⟩ ⟨h', -⟩; rw [h] at h'; cases h'
  by_cases hp : p.1 = .baseQuat ∧ p.2 < 4 <;> by_cases hq : q.1 = .baseQuat ∧ q.2 < 4 <;>
    by_cases hp' : p.1 = .joints ∧ p.2 < nj <;> by_cases hq' : q.1 = .joints ∧ q.2 < nj <;>
    first
      | exact absurd hp (d1 p hp')
      | exact absurd hq (d1 q hq')
      | cases t <;> simp [writeState, putExprs, StateTask.covers, stateEntry, hp, hq, hp', hq']

open Classical in
theorem stateHess_eq (order : List StateTask) (H : Idx (SBlk n) → Idx (SBlk n) → ℝ) (p q : Idx (SBlk n)) :
    centroidalStateHess s E fuel order x u lam H p q =
      if ∃ t ∈ order, t.covers nj p q then stateEntry (atomVal s E fuel x u lam) p q else H p q := by
  unfold centroidalStateHess
  induction order using List.reverseRecOn with
  | nil => simp
  | append_singleton l t ih =>
    rw [List.foldl_append, List.foldl_cons, List.foldl_nil, writeState_eq, ih]
    by_cases h : t.covers nj p q
    · rw [if_pos h, if_pos ⟨t, by simp, h⟩]
    · rw [if_neg h]
      by_cases h' : ∃ t ∈ l, t.covers nj p q
      · rw [if_pos h']
        obtain ⟨t', ht', h'⟩ := h'
        rw [if_pos ⟨t', by simp [ht'], h'⟩]
      · rw [if_neg h', if_neg]
        rintro ⟨t', ht', hc⟩
        rcases List.mem_append.1 ht' with ht' | ht'
        · exact h' ⟨t', ht', hc⟩
        · rw [List.mem_singleton.1 ht'] at hc; exact h hc

theorem stateHess_all {order : List StateTask} (ho : ∀ t, t ∈ order) (p q : Idx (SBlk n)) :
    centroidalStateHess s E fuel order x u lam (fun _ _ => 0) p q = stateEntry (atomVal s E fuel x u lam) p q := by
  classical
  rw [stateHess_eq]
  split_ifs with h
  · rfl
  · unfold stateEntry
    split_ifs with h1 h2 h3 h4 h5 h6
    · exact absurd ⟨.quatQuat, ho _, h1, h2⟩ h
    · exact absurd ⟨.quatJoints, ho _, Or.inr ⟨h1, h3⟩⟩ h
    · rfl
    · exact absurd ⟨.quatJoints, ho _, Or.inl ⟨h4, h5⟩⟩ h
    · exact absurd ⟨.jointsJoints, ho _, h4, h6⟩ h
    · rfl
    · rfl

/-- The block an evaluation is written to. -/
def MixedTask.covers (nj : ℕ) : MixedTask → Idx (SBlk n) → Idx (CBlk n) → Prop
  | .quatLinVel, p, q => (p.1 = .baseQuat ∧ p.2 < 4) ∧ q.1 = .baseVel ∧ q.2 < 3
  | .quatQuatVel, p, q => (p.1 = .baseQuat ∧ p.2 < 4) ∧ q.1 = .quatDer ∧ q.2 < 4
  | .quatJointsVel, p, q => (p.1 = .baseQuat ∧ p.2 < 4) ∧ q.1 = .jointVel ∧ q.2 < nj
  | .jointsLinVel, p, q => (p.1 = .joints ∧ p.2 < nj) ∧ q.1 = .baseVel ∧ q.2 < 3
  | .jointsQuatVel, p, q => (p.1 = .joints ∧ p.2 < nj) ∧ q.1 = .quatDer ∧ q.2 < 4
  | .jointsJointsVel, p, q => (p.1 = .joints ∧ p.2 < nj) ∧ q.1 = .jointVel ∧ q.2 < nj

/-- All the entries. -/
def mixedEntry (v : CAtom nj → ℝ) (p : Idx (SBlk n)) (q : Idx (CBlk n)) : ℝ :=
  if hp : p.1 = .baseQuat ∧ p.2 < 4 then exprCtrlGrad v (quaternionLagrangian ⟨p.2, hp.2⟩) q
  else if hp : p.1 = .joints ∧ p.2 < nj then exprCtrlGrad v (jointsLagrangian ⟨p.2, hp.2⟩) q
  else 0

open Classical in
theorem writeMixed_eq (H : Idx (SBlk n) → Idx (CBlk n) → ℝ) (t : MixedTask) (p : Idx (SBlk n)) (q : Idx (CBlk n)) :
    writeMixed s E fuel x u lam H t p q = if t.covers nj p q then mixedEntry (atomVal s E fuel x u lam) p q else H p q := by
  have d1 : p.1 = .joints ∧ p.2 < nj → ¬ (p.1 = .baseQuat ∧ p.2 < 4) := by rintro ⟨h, -⟩ ⟨h', -⟩; rw [h] at h'; cases h'
  have d2 : q.1 = .quatDer ∧ q.2 < 4 → ¬ (q.1 = .baseVel ∧ q.2 < 3) := by rintro ⟨h, -⟩ ⟨h', -⟩; rw [h] at h'; cases h'
  have d3 : q.1 = .jointVel ∧ q.2 < nj → ¬ (q.1 = .baseVel ∧ q.2 < 3) := by rintro ⟨h, -⟩ ⟨h', -⟩; rw [h] at h'; cases h'
  have d4 : q.1 = .jointVel ∧ q.2 < nj → ¬ (q.1 = .quatDer ∧ q.2 < 4) := by rintro ⟨h, -⟩ ⟨h', -⟩; rw [h] at h'; cases h'
  have key : ∀ (t : MixedTask), t.covers nj p q → writeMixed s E fuel x u lam H t p q = mixedEntry (atomVal s E fuel x u lam) p q := by
    intro t ht
    cases t <;> obtain ⟨hp, hq⟩ := ht <;> simp only [writeMixed, putExprs, mixedEntry, exprCtrlGrad]
    · rw [dif_pos ⟨hp, hq⟩, dif_pos hp, dif_pos hq]
    · rw [dif_pos ⟨hp, hq⟩, dif_pos hp, dif_neg (d2 hq), dif_pos hq]
    · rw [dif_pos ⟨hp, hq⟩, dif_pos hp, dif_neg (d3 hq), dif_neg (d4 hq), dif_pos hq]
    · rw [dif_pos ⟨hp, hq⟩, dif_neg (d1 hp), dif_pos hp, dif_pos hq]
    · rw [dif_pos ⟨hp, hq⟩, dif_neg (d1 hp), dif_pos hp, dif_neg (d2 hq), dif_pos hq]
    · rw [dif_pos ⟨hp, hq⟩, dif_neg (d1 hp), dif_pos hp, dif_neg (d3 hq), dif_neg (d4 hq), dif_pos hq]
  split_ifs with h
  · exact key t h
  · cases t <;> exact dif_neg h

open Classical in
theorem mixedHess_eq (order : List MixedTask) (H : Idx (SBlk n) → Idx (CBlk n) → ℝ) (p : Idx (SBlk n)) (q : Idx (CBlk n)) :
    centroidalMixedHess s E fuel order x u lam H p q =
      if ∃ t ∈ order, t.covers nj p q then mixedEntry (atomVal s E fuel x u lam) p q else H p q := by
  unfold centroidalMixedHess
  induction order using List.reverseRecOn with
  | nil => simp
  | append_singleton l t ih =>
    rw [List.foldl_append, List.foldl_cons, List.foldl_nil, writeMixed_eq, ih]
    by_cases h : t.covers nj p q
    · rw [if_pos h, if_pos ⟨t, by simp, h⟩]
    · rw [if_neg h]
      by_cases h' : ∃ t ∈ l, t.covers nj p q
      · rw [if_pos h']
        obtain ⟨t', ht', h'⟩ := h'
        rw [if_pos ⟨t', by simp [ht'], h'⟩]
      · rw [if_neg h', if_neg]
        rintro ⟨t', ht', hc⟩
        rcases List.mem_append.1 ht' with ht' | ht'
        · exact h' ⟨t', ht', hc⟩
        · rw [List.mem_singleton.1 ht'] at hc; exact h hc

theorem mixedHess_all {order : List MixedTask} (ho : ∀ t, t ∈ order) (p : Idx (SBlk n)) (q : Idx (CBlk n)) :
    centroidalMixedHess s E fuel order x u lam (fun _ _ => 0) p q = mixedEntry (atomVal s E fuel x u lam) p q := by
  classical
  rw [mixedHess_eq]
  split_ifs with h
  · rfl
  · unfold mixedEntry exprCtrlGrad
    split_ifs with h1 h2 h3 h4 h5 h6 h7 h8
    · exact absurd ⟨.quatLinVel, ho _, h1, h2⟩ h
    · exact absurd ⟨.quatQuatVel, ho _, h1, h3⟩ h
    · exact absurd ⟨.quatJointsVel, ho _, h1, h4⟩ h
    · rfl
    · exact absurd ⟨.jointsLinVel, ho _, h5, h6⟩ h
    · exact absurd ⟨.jointsQuatVel, ho _, h5, h7⟩ h
    · exact absurd ⟨.jointsJointsVel, ho _, h5, h8⟩ h
    · rfl
    · rfl

end
end Verif.NLP.Kin
