import Verif.Model.DynamicsVector
import Verif.Props.ObjectiveHessians
import Verif.Props.PlanBounds
/- C95: the dynamics handed to the optimiser. -/
set_option linter.unusedSectionVars false
set_option linter.unusedSimpArgs false
namespace Verif.Plan
open NLP NLP.Kin SolverM StateM Rigid Matrix Filter
open NLP.Spec (GradAt HessNear MixedNear stateEntries weightedRows)
open NLP.Dynamics (quatOf)
open Labeller (Labeller Range)
open SolverM.Spec (stateVector controlVector StateSize ControlSize)
noncomputable section
variable {n nj : ℕ}

/-! ### The entries of the state and the positions in the vector -/

theorem sizes_eq (b : SBlk n) : NLP.Spec.stateSize nj b = SolverM.stateSize nj b := by
  rcases b with ⟨s, i⟩ | ⟨s, i⟩ | _ | _ | _ | _ | _ <;> rfl

theorem mem_entries_iff (p : Idx (SBlk n)) : p ∈ stateEntries n nj ↔ InState nj p := by
  unfold InState
  rw [← sizes_eq]
  constructor
  · intro hp
    simp only [stateEntries, List.mem_flatMap, List.mem_map, List.mem_range] at hp
    obtain ⟨b', -, k', hk', e⟩ := hp
    subst e
    exact hk'
  · exact mem_entries nj p.1 p.2

theorem labels_nodup : (NLP.Spec.stateLabels n).Nodup := by
  have hf : ∀ s : Side, ((List.finRange n).flatMap fun i => [SBlk.force s i, SBlk.pos s i]).Nodup := by
    intro s
    rw [List.nodup_flatMap]
    refine ⟨fun i _ => by simp, (List.nodup_finRange n).pairwise_of_forall_ne fun i _ j _ hij => ?_⟩
    simp [Function.onFun, List.disjoint_left, hij]
  unfold NLP.Spec.stateLabels
  rw [List.nodup_append, List.nodup_append]
  refine ⟨⟨hf _, hf _, ?_⟩, by simp, ?_⟩
  · intro a ha b hb
    simp only [List.mem_flatMap, List.mem_cons, List.not_mem_nil, or_false] at ha hb
    obtain ⟨i, -, rfl | rfl⟩ := ha <;> obtain ⟨j, -, rfl | rfl⟩ := hb <;> simp
  · intro a ha b hb
    simp only [List.mem_append, List.mem_flatMap, List.mem_cons, List.not_mem_nil, or_false] at ha hb
    rcases ha with ⟨i, -, rfl | rfl⟩ | ⟨i, -, rfl | rfl⟩ <;> rcases hb with rfl | rfl | rfl | rfl | rfl <;> simp

theorem entries_nodup : (stateEntries n nj).Nodup := by
  unfold stateEntries
  rw [List.nodup_flatMap]
  refine ⟨fun b _ => (List.nodup_range).map fun a b h => (Prod.mk.inj h).2, labels_nodup.pairwise_of_forall_ne fun i _ j _ hij => ?_⟩
  simp only [Function.onFun, List.disjoint_left, List.mem_map, not_exists, not_and]
  rintro _ ⟨k, -, rfl⟩ l - h
  exact hij (Prod.mk.inj h).1.symm

variable {r : Ranges} (hL : Labels r n nj) (hr : r = rangesAt nj n)

include hL hr in
/-- The weighted sum over the entries is the weighted sum over the vector. -/
theorem weighted_vector (lam : List ℝ) (f : SVec n) :
    weightedRows nj (readState r lam) f = ∑ a ∈ Finset.range (12 * n + 16 + nj), lam.getD a 0 * stateVectorOf r f a := by
  classical
  unfold weightedRows
  rw [List.sum_toFinset _ entries_nodup |>.symm]
  symm
  have hex : ∀ a, a < 12 * n + 16 + nj → ∃ p : Idx (SBlk n), StatePlace r p a := fun a ha => (hL.1 a ha).exists
  refine Finset.sum_bij (fun a ha => (hex a (Finset.mem_range.1 ha)).choose) ?_ ?_ ?_ ?_
  · intro a ha
    have h := (hex a (Finset.mem_range.1 ha)).choose_spec
    rw [List.mem_toFinset, mem_entries_iff]
    subst hr
    exact ((statePlace_iff _ _).1 h).1
  · intro a ha b hb e
    have h1 := (hex a (Finset.mem_range.1 ha)).choose_spec
    have h2 := (hex b (Finset.mem_range.1 hb)).choose_spec
    rw [← e] at h2
    obtain ⟨rg, e1, -, e2⟩ := h1
    obtain ⟨rg', e1', -, e2'⟩ := h2
    rw [e1] at e1'
    cases e1'
    omega
  · intro p hp
    rw [List.mem_toFinset, mem_entries_iff] at hp
    have : ∃ a, StatePlace r p a := by
      subst hr
      have key : ∃ off, stateRange (rangesAt nj n) p.1 = some ⟨off, SolverM.stateSize nj p.1⟩ := by
        obtain ⟨b, k⟩ := p
        rcases b with ⟨_ | _, i⟩ | ⟨_ | _, i⟩ | _ | _ | _ | _ | _ <;> exact ⟨_, by simp [stateRange, rangesAt, footAt, SolverM.stateSize]; rfl⟩
      obtain ⟨off, ho⟩ := key
      exact ⟨off + p.2, (statePlace_iff _ _).2 ⟨hp, _, ho, rfl⟩⟩
    obtain ⟨a, ha⟩ := this
    have hlt : a < 12 * n + 16 + nj := by
      subst hr
      exact column_lt (place_column ha) hp
    refine ⟨a, Finset.mem_range.2 hlt, ?_⟩
    exact (hL.1 a hlt).unique (hex a hlt).choose_spec ha
  · intro a ha
    have ha' := Finset.mem_range.1 ha
    have h := (hex a ha').choose_spec
    rw [stateVectorOf_at hL ha' h, readState_at h]

/-! ### The declared entries are inside -/

theorem segIn (b : SBlk n) (k0 len : ℕ) (h : k0 + len ≤ SolverM.stateSize nj b) : ∀ p ∈ seg b k0 len, InState nj p := fun _ hp => seg_state hp h
theorem segIn' (b : CBlk n) (k0 len : ℕ) (h : k0 + len ≤ SolverM.controlSize nj b) : ∀ p ∈ seg b k0 len, InControl nj p := fun _ hp => seg_control hp h

theorem momentum_in (k0 len : ℕ) (h : k0 + len ≤ 6) : ∀ p ∈ seg (SBlk.momentum (n := n)) k0 len, InState nj p := segIn _ _ _ h
theorem com_in : ∀ p ∈ seg (SBlk.com (n := n)) 0 3, InState nj p := segIn _ _ _ le_rfl
theorem base_in : ∀ p ∈ seg (SBlk.basePos (n := n)) 0 3, InState nj p := segIn _ _ _ le_rfl
theorem pos_in (s : Side) (i : Fin n) (k0 len : ℕ) (h : k0 + len ≤ 3) : ∀ p ∈ seg (SBlk.pos s i) k0 len, InState nj p := segIn _ _ _ h
theorem forceCtl_in (s : Side) (i : Fin n) : ∀ p ∈ seg (CBlk.forceCtl s i) 0 3, InControl nj p := segIn' _ _ _ le_rfl

theorem foot_state_in (s : Side) : Both (InState nj) (InState nj) (Dynamics.footStateJacPat (n := n) s) :=
  both_flatMap fun i _ => both_append (both_append (both_append (both_append (both_diag (momentum_in 0 3 (by omega)) (inForce s i))
    (both_dense (momentum_in 3 3 (by omega)) (inForce s i))) (both_dense (momentum_in 3 3 (by omega)) (pos_in s i 0 3 (by omega))))
    (both_dense (pos_in s i 0 2 (by omega)) (pos_in s i 2 1 (by omega)))) (both_cons (in_force s i 2 (by omega)) (in_pos s i 2 (by omega)) both_nil)

theorem state_in : Both (InState nj) (InState nj) (Dynamics.stateJacPat (n := n)) :=
  both_append (both_append (both_append (both_append (both_append (foot_state_in _) (foot_state_in _)) (both_dense (momentum_in 3 3 (by omega)) com_in))
    (both_diag com_in (momentum_in 0 3 (by omega)))) (both_dense base_in inQuat)) (both_dense inQuat inQuat)

theorem foot_control_in (s : Side) : Both (InState nj) (InControl nj) (Dynamics.footCtrlJacPat (n := n) s) :=
  both_flatMap fun i _ => both_append (both_diag (inForce s i) (forceCtl_in s i)) (both_diag (pos_in s i 0 3 (by omega)) (inVelCtl s i))

theorem control_in : Both (InState nj) (InControl nj) (Dynamics.ctrlJacPat (n := n) nj) :=
  both_append (both_append (both_append (both_append (foot_control_in _) (foot_control_in _)) (both_dense base_in inBaseVel)) (both_diag inQuat inQuatDer)) (both_diag inJoints inJointVel)

theorem foot_hess_in (s : Side) : Both (InState nj) (InState nj) (Dynamics.footStateHessPat (n := n) s) :=
  both_flatMap fun i _ => both_append (both_append (both_append (both_append (both_dense com_in (inForce s i)) (both_dense (inForce s i) com_in))
    (both_dense (pos_in s i 0 3 (by omega)) (inForce s i))) (both_dense (inForce s i) (pos_in s i 0 3 (by omega)))) (both_cons (in_pos s i 2 (by omega)) (in_pos s i 2 (by omega)) both_nil)

theorem hess_in : Both (InState nj) (InState nj) (Dynamics.stateHessPat (n := n)) :=
  both_append (both_append (foot_hess_in _) (foot_hess_in _)) (both_dense inQuat inQuat)

theorem foot_mixed_in (s : Side) : Both (InState nj) (InControl nj) (Dynamics.footMixedHessPat (n := n) s) :=
  both_flatMap fun i _ => both_cons (in_pos s i 2 (by omega)) (in_velCtl s i 0 (by omega)) (both_cons (in_pos s i 2 (by omega)) (in_velCtl s i 1 (by omega))
    (both_cons (in_pos s i 2 (by omega)) (in_forceCtl s i 2 (by omega)) both_nil))

theorem mixed_in : Both (InState nj) (InControl nj) (Dynamics.mixedHessPat (n := n)) :=
  both_append (both_append (foot_mixed_in _) (foot_mixed_in _)) (both_dense inQuat inBaseVel)

/-! ### The theorems -/

variable {P : Dynamics.Params} {ls lc ls' lc' : Labeller ℝ}

/-- **C95.** The entries of the dynamics, in the vector of the optimiser, do not depend on the earlier calls, and the Jacobians have their derivatives with respect to the entries of the
vectors of the optimiser. -/
theorem C95_jacobians (hP : P.joints = nj) (hv : setVariablesStructure ls lc nj n = some (ls', lc', r))
    (s : State ℝ) (q : V4 ℝ) (c : Control ℝ) (hs : StateSize nj n s) (hc : ControlSize nj n c) (hq : Spec.quat q ≠ 0) (buffer : SVec n) (a : ℕ) (ha : a < 12 * n + 16 + nj) :
    (∀ buffer' v w, dynamicsOn P r n buffer v w a = dynamicsOn P r n buffer' v w a) ∧
    (∀ i < 12 * n + 16 + nj, Spec.PartialDerivative (fun v => some (dynamicsOn P r n buffer v (controlVector c) a)) (stateVector s q) i
      ((dynamicsJacobians P r n (stateVector s q) (controlVector c)).state a i)) ∧
    ∀ i < 12 * n + 7 + nj, Spec.PartialDerivative (fun w => some (dynamicsOn P r n buffer (stateVector s q) w a)) (controlVector c) i
      ((dynamicsJacobians P r n (stateVector s q) (controlVector c)).control a i) := by
  have hL := labels hv
  obtain rfl := ranges_eq hv
  have hx : quatOf (readState (n := n) (rangesAt nj n) (stateVector s q)) ≠ 0 := by rw [read_quat q hs]; exact hq
  obtain ⟨p, hp, -⟩ := hL.1 a ha
  have key := Dynamics.C16_jacobians P (readState (rangesAt nj n) (stateVector s q)) hx (readControl (rangesAt nj n) (controlVector c)) buffer p
  refine ⟨fun b v w => ?_, fun i hi => ⟨_, fun x => rfl, ?_⟩, fun i hi => ⟨_, fun x => rfl, ?_⟩⟩
  · simp only [dynamicsOn, stateVectorOf_at hL ha hp]
    exact Dynamics.C15_independent_of_earlier_calls P _ _ _ _ p (by rw [hP, mem_entries_iff]; exact ((statePlace_iff _ _).1 hp).1)
  · simp only [dynamicsOn, dynamicsJacobians, stateMatrixOf, stateVectorOf_at hL ha hp]
    exact deriv_state hL _ (state_len q hs) (fun y => Dynamics.dynamics P y _ buffer p) _ key.1 i hi
  · simp only [dynamicsOn, dynamicsJacobians, mixedMatrixOf, stateVectorOf_at hL ha hp]
    exact deriv_control hL _ (control_len hc) (fun y => Dynamics.dynamics P _ y buffer p) _ key.2 i hi

/-- **C95.** The matrices of the second derivatives are those of the sum of the entries of the dynamics weighted with the multipliers, however levi rewrites its expressions; the entries
that are not zero are declared, and the declared entries are inside the matrices. -/
theorem C95_hessians {cfg : Levi.Ex.Cfg ℝ} (hcfg : Levi.Spec.Sound cfg) {E : Dynamics.Exprs} (hE : E.Made cfg) (hP : P.joints = nj)
    (hv : setVariablesStructure ls lc nj n = some (ls', lc', r)) (s : State ℝ) (q : V4 ℝ) (c : Control ℝ) (hs : StateSize nj n s) (hc : ControlSize nj n c) (hq : Spec.quat q ≠ 0)
    (buffer : SVec n) (lam : List ℝ) :
    let weighted := fun v w => some (∑ a ∈ Finset.range (12 * n + 16 + nj), lam.getD a 0 * dynamicsOn P r n buffer v w a)
    let H := dynamicsHessians P E r n lam (stateVector s q) (controlVector c)
    (Spec.SecondDerivatives (fun v => weighted v (controlVector c)) (stateVector s q) H.state ∧ Spec.SecondDerivatives (fun w => weighted (stateVector s q) w) (controlVector c) H.control ∧
      Spec.MixedDerivatives weighted (stateVector s q) (controlVector c) H.mixed) ∧
    ((∀ i j, H.state i j ≠ 0 → H.stateDeclared i j) ∧ (∀ i j, H.control i j ≠ 0 → H.controlDeclared i j) ∧ ∀ i j, H.mixed i j ≠ 0 → H.mixedDeclared i j) ∧
    (∀ i j, H.stateDeclared i j → i < 12 * n + 16 + nj ∧ j < 12 * n + 16 + nj) ∧ (∀ i j, H.controlDeclared i j → i < 12 * n + 7 + nj ∧ j < 12 * n + 7 + nj) ∧
      ∀ i j, H.mixedDeclared i j → i < 12 * n + 16 + nj ∧ j < 12 * n + 7 + nj := by
  have hL := labels hv
  obtain rfl := ranges_eq hv
  subst hP
  have hx : quatOf (readState (n := n) (rangesAt P.joints n) (stateVector s q)) ≠ 0 := by rw [read_quat q hs]; exact hq
  have key := Dynamics.C17_hessians hcfg hE P _ hx (readControl (rangesAt P.joints n) (controlVector c)) (readState (rangesAt P.joints n) lam) buffer
  have sp := Dynamics.C18_sparsity_partial P E hcfg hE (readState (rangesAt P.joints n) (stateVector s q)) (readControl (rangesAt P.joints n) (controlVector c))
    (readState (n := n) (rangesAt P.joints n) lam)
  intro weighted H
  have hw : ∀ v w, weighted v w = some (weightedRows P.joints (readState (rangesAt P.joints n) lam)
      (Dynamics.dynamics P (readState (rangesAt P.joints n) v) (readControl (rangesAt P.joints n) w) buffer)) := fun v w => by
    rw [weighted_vector hL rfl]; rfl
  refine ⟨⟨second_state hL _ (state_len q hs) _ _ key.1 fun v => hw v _, second_control hL _ (control_len hc) _ _ key.2.1 fun w => hw _ w,
    second_mixed hL _ _ (state_len q hs) (control_len hc) _ _ key.2.2 hw⟩, ⟨fun i j h => ?_, fun i j h => ?_, fun i j h => ?_⟩, ?_, ?_, ?_⟩
  · obtain ⟨p, h1, h2⟩ := vector_place (fun p => stateVectorOf (rangesAt P.joints n) (Dynamics.stateHess P E _ _ _ (fun _ _ => 0) p) j) (i := i) h
    obtain ⟨q, h3, h4⟩ := vector_place _ h2
    exact ⟨p, q, sp.2.2.1 _ _ h4, place_column h1, place_column h3⟩
  · obtain ⟨p, h1, h2⟩ := vector_place' (fun p => controlVectorOf (rangesAt P.joints n) (Dynamics.ctrlHess (n := n) (fun _ _ => 0) p) j) (i := i) h
    obtain ⟨q, h3, h4⟩ := vector_place' _ h2
    exact absurd rfl h4
  · obtain ⟨p, h1, h2⟩ := vector_place (fun p => controlVectorOf (rangesAt P.joints n) (Dynamics.mixedHess P E _ _ _ (fun _ _ => 0) p) j) (i := i) h
    obtain ⟨q, h3, h4⟩ := vector_place' _ h2
    exact ⟨p, q, sp.2.2.2.2 _ _ h4, place_column h1, place_column' h3⟩
  · rintro i j ⟨p, q, e, a, b⟩
    exact ⟨column_lt a (hess_in _ e).1, column_lt b (hess_in _ e).2⟩
  · rintro i j ⟨p, q, e, a, b⟩
    exact absurd e List.not_mem_nil
  · rintro i j ⟨p, q, e, a, b⟩
    exact ⟨column_lt a (mixed_in _ e).1, column_lt' b (mixed_in _ e).2⟩

/-- The position, in the vector of the state, of the normal force of a point. -/
def NormalForce (r : Ranges) (n : ℕ) (i : ℕ) : Prop := ∃ (s : Side) (k : Fin n), StateColumn r (.force s k, 2) i

/-- **C95** (partial). The entries of the Jacobians of the dynamics that are not zero are declared, but for the derivatives of the rates of the normal forces with respect to the same
forces (see C95_normal_forces); the declared entries are inside the matrices. -/
theorem C95_sparsity_partial {cfg : Levi.Ex.Cfg ℝ} (hcfg : Levi.Spec.Sound cfg) (hP : P.joints = nj) (hv : setVariablesStructure ls lc nj n = some (ls', lc', r)) (v w : List ℝ) :
    let J := dynamicsJacobians P r n v w
    (∀ i j, J.state i j ≠ 0 → ¬ (i = j ∧ NormalForce r n i) → J.stateDeclared i j) ∧ (∀ i j, J.control i j ≠ 0 → J.controlDeclared i j) ∧
    (∀ i j, J.stateDeclared i j → i < 12 * n + 16 + nj ∧ j < 12 * n + 16 + nj) ∧ ∀ i j, J.controlDeclared i j → i < 12 * n + 16 + nj ∧ j < 12 * n + 7 + nj := by
  obtain ⟨E, hE⟩ := Dynamics.C17_expressions_exist hcfg
  obtain rfl := ranges_eq hv
  subst hP
  have sp := Dynamics.C18_sparsity_partial P E hcfg hE (readState (n := n) (rangesAt P.joints n) v) (readControl (rangesAt P.joints n) w) (fun _ => 0)
  refine ⟨fun i j h hn => ?_, fun i j h => ?_, ?_, ?_⟩
  · obtain ⟨p, h1, h2⟩ := vector_place (fun p => stateVectorOf (rangesAt P.joints n) (Dynamics.stateJac P _ _ (fun _ _ => 0) p) j) (i := i) h
    obtain ⟨q, h3, h4⟩ := vector_place _ h2
    refine ⟨p, q, sp.1 _ _ h4 ?_, place_column h1, place_column h3⟩
    rintro ⟨s, k, rfl, rfl⟩
    refine hn ⟨?_, s, k, place_column h1⟩
    obtain ⟨rg, e1, -, e2⟩ := h1
    obtain ⟨rg', e1', -, e2'⟩ := h3
    rw [e1] at e1'
    cases e1'
    omega
  · obtain ⟨p, h1, h2⟩ := vector_place (fun p => controlVectorOf (rangesAt P.joints n) (Dynamics.ctrlJac P _ (fun _ _ => 0) p) j) (i := i) h
    obtain ⟨q, h3, h4⟩ := vector_place' _ h2
    exact ⟨p, q, sp.2.1 _ _ h4, place_column h1, place_column' h3⟩
  · rintro i j ⟨p, q, e, a, b⟩
    exact ⟨column_lt a (state_in _ e).1, column_lt b (state_in _ e).2⟩
  · rintro i j ⟨p, q, e, a, b⟩
    exact ⟨column_lt a (control_in _ e).1, column_lt' b (control_in _ e).2⟩

/-- **C95** (what is missing). With dissipation, the derivative of the rate of a normal force with respect to that force is not declared, and is not zero as soon as the activation is not
one: the optimiser never sees it. -/
theorem C95_normal_forces (hP : P.joints = nj) (hv : setVariablesStructure ls lc nj n = some (ls', lc', r)) (hD : P.dissipation ≠ 0) (v w : List ℝ) (s : Side) (k : Fin n)
    (h : P.δz.eval (readState (n := n) r v (.pos s k, 2)) ≠ 1) :
    ∃ i < 12 * n + 16 + nj, StateColumn r (SBlk.force s k, 2) i ∧ (dynamicsJacobians P r n v w).state i i ≠ 0 ∧ ¬ (dynamicsJacobians P r n v w).stateDeclared i i := by
  have hL := labels hv
  obtain rfl := ranges_eq hv
  obtain ⟨f1, f2⟩ := Dynamics.C18_finding_normal_force_entry_not_declared P hD (readState (n := n) (rangesAt nj n) v) (readControl (rangesAt nj n) w) s k h
  have key : ∃ off, stateRange (rangesAt nj n) (SBlk.force s k) = some ⟨off, 3⟩ := by
    cases s <;> exact ⟨_, by simp [stateRange, rangesAt, footAt]; rfl⟩
  obtain ⟨off, ho⟩ := key
  have hp : StatePlace (rangesAt nj n) (SBlk.force s k, 2) (off + 2) := (statePlace_iff _ _).2 ⟨show 2 < 3 by omega, _, ho, rfl⟩
  have hlt : off + 2 < 12 * n + 16 + nj := column_lt (place_column hp) (in_force s k 2 (by omega))
  refine ⟨off + 2, hlt, place_column hp, ?_, ?_⟩
  · simp only [dynamicsJacobians, stateMatrixOf, stateVectorOf_at hL hlt hp]
    exact f1
  · rintro ⟨p, q, e, a, b⟩
    obtain ⟨ip, iq⟩ := state_in (nj := nj) _ e
    have up : p = (SBlk.force s k, 2) := (hL.1 _ hlt).unique ((statePlace_iff _ _).2 ⟨ip, a⟩) hp
    have uq : q = (SBlk.force s k, 2) := (hL.1 _ hlt).unique ((statePlace_iff _ _).2 ⟨iq, b⟩) hp
    subst up uq
    exact f2 e

section Examples
open Sample

theorem Sample.upright_ne : Spec.quat upright ≠ 0 := fun h => by
  have := congrFun h 0
  simp [Spec.quat, upright] at this

/-- Mass 2, one joint. -/
def Sample.light : Dynamics.Params := ⟨2, 1, {}, { K := 10 }, 1⟩

/-- The hypotheses of C95 hold, and the height of the centre of mass (the entry 20) moves with the vertical momentum (the entry 14) divided by the mass. -/
example (labels : Labeller ℝ) : ∃ ls' lc' r, setVariablesStructure labels labels 1 1 = some (ls', lc', r) ∧ ∀ z w φ ψ,
    StateSize 1 1 (Sample.state z w φ) ∧ ControlSize 1 1 (Sample.control w ψ) ∧ Spec.quat upright ≠ 0 ∧
    (dynamicsJacobians Sample.light r 1 (stateVector (Sample.state z w φ) upright) (controlVector (Sample.control w ψ))).state 20 14 = 1 / 2 ∧
    (dynamicsJacobians Sample.light r 1 (stateVector (Sample.state z w φ) upright) (controlVector (Sample.control w ψ))).stateDeclared 20 14 := by
  obtain ⟨a, b, e, -⟩ := structure_ok labels labels 1 1
  have hL := Plan.labels e
  refine ⟨a, b, _, e, fun z w φ ψ => ⟨state_size z w φ, control_size w ψ, Sample.upright_ne, ?_, ?_⟩⟩
  · have h1 : StatePlace (n := 1) (rangesAt 1 1) (.com, 2) 20 := (statePlace_iff _ _).2 ⟨show 2 < 3 by omega, _, rfl, rfl⟩
    have h2 : StatePlace (n := 1) (rangesAt 1 1) (.momentum, 2) 14 := (statePlace_iff _ _).2 ⟨show 2 < 6 by omega, _, rfl, rfl⟩
    simp only [dynamicsJacobians, stateMatrixOf, stateVectorOf_at hL (by omega : 20 < 12 * 1 + 16 + 1) h1, stateVectorOf_at hL (by omega : 14 < 12 * 1 + 16 + 1) h2]
    rw [Dynamics.stateJac_entry]
    simp [Dynamics.SJ, Sample.light, eye]
  · exact ⟨(.com, 2), (.momentum, 2), by simp [Dynamics.stateJacPat, NLP.diag, seg, List.range, List.range.loop], ⟨_, rfl, rfl⟩, ⟨_, rfl, rfl⟩⟩

/-- The hypotheses of C95_normal_forces hold with the points one metre above the ground. -/
example (labels : Labeller ℝ) : ∃ ls' lc' r, setVariablesStructure labels labels 1 1 = some (ls', lc', r) ∧ Sample.light.dissipation ≠ 0 ∧ ∀ w φ s,
    Sample.light.δz.eval (readState (n := 1) r (stateVector (Sample.state 2 w φ) upright) (.pos s 0, 2)) ≠ 1 := by
  obtain ⟨a, b, e, -⟩ := structure_ok labels labels 1 1
  refine ⟨a, b, _, e, one_ne_zero, fun w φ s => ?_⟩
  have hr : readState (n := 1) (rangesAt 1 1) (stateVector (Sample.state 2 w φ) upright) (.pos s 0, 2) = 1 := by
    cases s
    · show ((2 : ℝ) - 1) = 1
      norm_num
    · show ((2 : ℝ) - 1) = 1
      norm_num
  have hr' : ∀ r, r = rangesAt 1 1 → readState (n := 1) r (stateVector (Sample.state 2 w φ) upright) (.pos s 0, 2) = 1 := by
    rintro _ rfl
    exact hr
  rw [hr' _ rfl]
  simp only [Sample.light, Dynamics.Params.δz, Smooth.Fn.eval, mul_one, Bool.false_eq_true, if_false]
  have : 1 < Real.cosh 10 := Real.one_lt_cosh.2 (by norm_num)
  intro h
  rw [div_eq_one_iff_eq (by linarith)] at h
  linarith

/-- The dynamics that the solver makes from the settings has the number of joints of the robot. -/
example (masses : List ℝ) (d : DynamicsSetup ℝ) : (dynamicsParams nj masses d).joints = nj := rfl

end Examples

end
end Verif.Plan
