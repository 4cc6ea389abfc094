import Verif.Lemmas.CentroidalMomentum9
import Verif.Props.CoMExpr
import Verif.Props.Dynamics
import Verif.Spec.Dynamics
/- C64: the constraint between the momentum state and the momentum of the robot about its centre of mass. -/
set_option linter.unusedSectionVars false
namespace Verif.NLP.Kin
open Matrix Verif.Rigid Function Verif.NLP.Spec Filter Topology
open Verif.NLP.Dynamics (quatOf baseRotation NonNull mem_seg mem_dense)
open Verif.Levi Verif.Levi.Ex
variable {n nj : ℕ} {L F : Type} [DecidableEq L] [DecidableEq F] {m : Model L (Fin nj)} (s : Server m F)

/-- The sum of the masses of the links. -/
noncomputable abbrev massOf (m : Model L (Fin nj)) : ℝ := (m.links.map fun l => (m.inertia l).mass).sum

/-- C64: the value is the angular momentum of all the links about the centre of mass of the robot (the average of the centres of mass of the links,
weighted with the masses), with the orientation of the world, minus the angular part of the momentum in the state. -/
theorem C64_value (E : NormExprs) (fuel : ℕ) (order : List StateTask) (order' : List MixedTask) (tol : ℝ) (hM : massOf m ≠ 0)
    (x : SVec n) (u : CVec n) (i : Fin 3) :
    ∃ c : Vec, massOf m • c = (m.links.map fun l => (m.inertia l).mass • (s.kin.world (baseTransform x) (jointsOf x) l).point (m.inertia l).com).sum ∧
      (centroidalMomentum s E fuel order order' tol).value x u i =
        (m.links.map fun l =>
          let T := s.kin.world (baseTransform x) (jointsOf x) l
          let h := (m.inertia l).mul (s.kin.vel (baseTwist x u) (jointsOf x) (jointVelOf u) l)
          (T.R *ᵥ h.2 + (T.p - c) ⨯₃ (T.R *ᵥ h.1)) i).sum - x (.momentum, 3 + i) := by
  unfold massOf at *
  rw [← Server.totalMass_eq] at hM
  refine ⟨comPos s x, ?_, ?_⟩
  · rw [← Server.totalMass_eq, comPos, Traversal.comPosition, vec_sum_hom (fun x => m.totalMass • x) (fun a b => smul_add _ a b) (smul_zero _)]
    congr 1
    refine List.map_congr_left fun l _ => ?_
    rw [smul_smul, Model.relativeMass, mul_div_cancel₀ _ hM]
  · show (centroidalValue s x u).2 i = _
    rw [centroidalValue]
    show ((translation (0 - comPos s x)).actF _).2 i - _ = _
    congr 1
    rw [← SE3.actF_mul, momentumInBase, Traversal.momentum]
    have hom : ∀ (T : SE3) (ls : List Spatial), (T.actF ls.sum).2 i = (ls.map fun h => (T.actF h).2 i).sum := by
      intro T ls
      induction ls with
      | nil => simp [SE3.actF_zero]
      | cons a ls ih => rw [List.sum_cons, SE3.actF_add, List.map_cons, List.sum_cons, ← ih]; rfl
    rw [hom, List.map_map]
    congr 1
    refine List.map_congr_left fun l _ => ?_
    have e : translation (0 - comPos s x) * baseTransform x * s.kin.rel (baseTransform x) (jointsOf x) s.kin.root l =
        translation (0 - comPos s x) * s.kin.world (baseTransform x) (jointsOf x) l := by
      rw [Traversal.rel, Traversal.world_root, mul_assoc, mul_inv_cancel_left]
    simp only [Function.comp]
    rw [← SE3.actF_mul, e]
    have hR : (translation (0 - comPos s x) * s.kin.world (baseTransform x) (jointsOf x) l).R = (s.kin.world (baseTransform x) (jointsOf x) l).R := by
      show (1 : Matrix (Fin 3) (Fin 3) ℝ) * _ = _; rw [Matrix.one_mul]
    have hp : (translation (0 - comPos s x) * s.kin.world (baseTransform x) (jointsOf x) l).p = (s.kin.world (baseTransform x) (jointsOf x) l).p - comPos s x := by
      show (0 - comPos s x) + (1 : Matrix (Fin 3) (Fin 3) ℝ) *ᵥ _ = _; rw [one_mulVec]; abel
    simp only [SE3.actF, hR, hp]

/-- C64: the Jacobians are right wherever the quaternion of the base is not null. -/
theorem C64_jacobians (E : NormExprs) (fuel : ℕ) (order : List StateTask) (order' : List MixedTask) (tol : ℝ) (hm : m.Regular) (hM : massOf m ≠ 0)
    (x : SVec n) (hx : quatOf x ≠ 0) (u : CVec n) (i : Fin 3) :
    let c := centroidalMomentum s E fuel order order' tol
    GradAt (fun y => c.value y u i) (c.stateJac x u (fun _ _ => 0) i) x ∧ GradAt (fun v => c.value x v i) (c.ctrlJac x u (fun _ _ => 0) i) u := by
  unfold massOf at hM
  rw [← Server.totalMass_eq] at hM
  exact ⟨centroidal_stateJac s hm hM hx i, centroidal_ctrlJac s hM i⟩

/-- C64: levi answers the derivatives of the normalisation the constructor asks for. -/
theorem C64_expressions_exist {cfg : Cfg ℝ} (hs : Levi.Spec.Sound cfg) : ∃ E : NormExprs, E.Made cfg := by
  let ρ : Env ℝ := fun _ _ => 1
  have hρ : ρ ∈ NonNull := by simp [NonNull, ρ]; norm_num
  have ne : NonNull.Nonempty := ⟨ρ, hρ⟩
  have size {e : Ex ℝ} (hw : Levi.Spec.Written (Levi.Spec.PowOk ρ) e) : (build cfg e).size = e.size := by
    have vb := build_val hs (fun a a' α => PowOk.transfer a a' α) hw
    exact size_of_ev vb.1 hw vb.2
  have hb := fun (σ : Env ℝ) (hσ : σ ∈ NonNull) => normE_written hσ
  have hcb : 0 < (build cfg normE).cols := by rw [cols, size (hb ρ hρ)]; decide
  have any {x : Ex ℝ} (hx : Levi.Spec.Obtained cfg normE x) (c : Nat) (hc : c < x.cols) : ∃ m d, D cfg m x c Quat.q = some d := by
    obtain ⟨N, hN⟩ := (C25_column_derivatives_exist_and_are_true hs normE NonNull hb ne hx c hc Quat.q (by decide)).1
    obtain ⟨d, hd⟩ := hN N le_rfl
    exact ⟨N, d, hd⟩
  obtain ⟨m, j, hj⟩ := any Levi.Spec.Obtained.built 0 hcb
  have jc := ((C25_column_derivatives_exist_and_are_true hs normE NonNull hb ne Levi.Spec.Obtained.built 0 hcb Quat.q (by decide)).2 m j hj ρ hρ).size
  have h1 : ∀ i : Fin 4, ∃ d m', D cfg m' j i Quat.q = some d := fun i => by
    obtain ⟨m', d, h⟩ := any (Levi.Spec.Obtained.derived Levi.Spec.Obtained.built hcb (by decide) hj) i (by rw [cols, jc]; exact i.2)
    exact ⟨d, m', h⟩
  choose H hH using h1
  exact ⟨⟨j, H⟩, ⟨m, hj⟩, hH⟩

/-- C64: the second derivatives of the constraint weighted with the multipliers are right, in whatever order the evaluations running in parallel are
found ready, however levi rewrites the expressions it is given. -/
theorem C64_hessians {cfg : Cfg ℝ} (hs : Levi.Spec.Sound cfg) {E : NormExprs} (hE : E.Made cfg) (fuel : ℕ) (order : List StateTask)
    (order' : List MixedTask) (ho : ∀ t, t ∈ order) (ho' : ∀ t, t ∈ order') (tol : ℝ) (hm : m.Regular) (hM : massOf m ≠ 0)
    (x : SVec n) (hx : quatOf x ≠ 0) (u : CVec n) (lam : Fin 3 → ℝ) :
    let c := centroidalMomentum s E fuel order order' tol
    HessNear (fun y => weighted c lam y u) (c.stateHess x u lam fun _ _ => 0) x ∧
    HessNear (fun v => weighted c lam x v) (c.ctrlHess x u lam fun _ _ => 0) u ∧
    MixedNear (weighted c lam) (c.mixedHess x u lam fun _ _ => 0) x u := by
  unfold massOf at hM
  rw [← Server.totalMass_eq] at hM
  intro c
  refine ⟨⟨fun y => stateG (atomVal s E fuel y u lam) lam, ?_, ?_⟩, ⟨fun _ p => ∑ i, lam i * (centroidalCtrlJac s x p).2 i, ?_, ?_⟩,
    ⟨fun v => stateG (atomVal s E fuel x v lam) lam, ?_, ?_⟩⟩
  · filter_upwards [Dynamics.eventually_nonNull hx] with y hy
    exact weighted_state_grad s hm hM hs hE order order' tol hy u
  · intro p
    exact (stateG_grad s hm hM hs hE hx p).congr fun q => (stateHess_all s ho p q).symm
  · refine Eventually.of_forall fun v => ?_
    have h : ∀ i : Fin 3, GradAt (fun v => (centroidalValue s x v).2 i) (fun p => (centroidalCtrlJac s x p).2 i) v := fun i => centroidal_ctrlJac s hM i
    intro p
    have e : (fun t => weighted c lam x (update v p t)) = fun t => ∑ i, lam i * (centroidalValue s x (update v p t)).2 i := by
      funext t; exact List.sum_ofFn
    rw [e]
    exact HasDerivAt.fun_sum (u := Finset.univ) fun i _ => (h i p).const_mul (lam i)
  · intro p
    exact GradAt.const _ _
  · intro v
    exact weighted_state_grad s hm hM hs hE order order' tol hx v
  · intro p
    exact (stateG_ctrl_grad s hm hs hE hx p).congr fun q => (mixedHess_all s ho' p q).symm

/-- C64: the matrices returned do not depend on the order in which the evaluations are found ready. -/
theorem C64_any_order (E : NormExprs) (fuel : ℕ) (o1 o2 : List StateTask) (h1 : ∀ t, t ∈ o1) (h2 : ∀ t, t ∈ o2) (o1' o2' : List MixedTask)
    (h1' : ∀ t, t ∈ o1') (h2' : ∀ t, t ∈ o2') (tol : ℝ) (x : SVec n) (u : CVec n) (lam : Fin 3 → ℝ) :
    (∀ H, (centroidalMomentum s E fuel o1 o1' tol).stateHess x u lam H = (centroidalMomentum s E fuel o2 o2' tol).stateHess x u lam H) ∧
    ∀ H, (centroidalMomentum s E fuel o1 o1' tol).mixedHess x u lam H = (centroidalMomentum s E fuel o2 o2' tol).mixedHess x u lam H := by
  classical
  constructor
  · intro H; funext p q
    show centroidalStateHess s E fuel o1 x u lam H p q = centroidalStateHess s E fuel o2 x u lam H p q
    rw [stateHess_eq, stateHess_eq]
    simp only [h1, h2, true_and]
  · intro H; funext p q
    show centroidalMixedHess s E fuel o1' x u lam H p q = centroidalMixedHess s E fuel o2' x u lam H p q
    rw [mixedHess_eq, mixedHess_eq]
    simp only [h1', h2', true_and]

theorem mem_seg' {B : Type} {b : B} {k0 r : ℕ} {p : Idx B} (h : p.1 = b) (h1 : k0 ≤ p.2) (h2 : p.2 < k0 + r) : p ∈ seg b k0 r := by
  obtain ⟨b', k⟩ := p; cases h; exact mem_seg.2 ⟨h1, h2⟩

/-- C64: every entry that can be different from zero is declared. -/
theorem C64_sparsity (E : NormExprs) (fuel : ℕ) (order : List StateTask) (order' : List MixedTask) (tol : ℝ) :
    SparsityCovers (centroidalMomentum (n := n) s E fuel order order' tol) := by
  classical
  have all3 : ∀ i : Fin 3, i ∈ List.finRange 3 := List.mem_finRange
  refine ⟨?_, ?_, ?_, fun _ _ _ _ _ h => absurd rfl h, ?_⟩
  · intro x u i p h
    replace h : (centroidalStateJac s x u p).2 i ≠ 0 := h
    show (i, p) ∈ dense _ _ ++ diag _ _ ++ dense _ _
    simp only [List.mem_append, mem_dense]
    by_cases h1 : p.1 = .baseQuat ∧ p.2 < 4
    · exact Or.inr ⟨all3 i, mem_seg' h1.1 (Nat.zero_le _) (by omega)⟩
    by_cases h2 : p.1 = .joints ∧ p.2 < nj
    · exact Or.inl (Or.inl ⟨all3 i, mem_seg' h2.1 (Nat.zero_le _) (by omega)⟩)
    by_cases h3 : p.1 = .momentum ∧ p.2 < 6
    · obtain ⟨b, l⟩ := p
      obtain ⟨rfl, hl⟩ := h3
      rw [stateJac_momentum s l hl] at h
      have : l = 3 + (i : ℕ) := by
        by_contra hne
        exact h (by rw [show (-unit6 ⟨l, hl⟩ : Spatial).2 i = -((unit6 ⟨l, hl⟩).2 i) from rfl, unit6_snd, if_neg hne, neg_zero])
      subst this
      refine Or.inl (Or.inr ?_)
      fin_cases i <;> simp [diag, seg, List.finRange, List.ofFn, Fin.foldr, Fin.foldr.loop, List.range, List.range.loop]
    · exact absurd (by rw [stateJac_other s p h1 h2 h3]; rfl) h
  · intro x u i p h
    replace h : (centroidalCtrlJac s x p).2 i ≠ 0 := h
    show (i, p) ∈ dense _ _ ++ dense _ _ ++ dense _ _
    simp only [List.mem_append, mem_dense]
    by_cases h1 : p.1 = .baseVel ∧ p.2 < 3
    · exact Or.inl (Or.inr ⟨all3 i, mem_seg' h1.1 (Nat.zero_le _) (by omega)⟩)
    by_cases h2 : p.1 = .quatDer ∧ p.2 < 4
    · exact Or.inl (Or.inl ⟨all3 i, mem_seg' h2.1 (Nat.zero_le _) (by omega)⟩)
    by_cases h3 : p.1 = .jointVel ∧ p.2 < nj
    · exact Or.inr ⟨all3 i, mem_seg' h3.1 (Nat.zero_le _) (by omega)⟩
    · exact absurd (by rw [ctrlJac_other s p h1 h2 h3]; rfl) h
  · intro x u lam p q h
    replace h : centroidalStateHess s E fuel order x u lam (fun _ _ => 0) p q ≠ 0 := h
    rw [stateHess_eq] at h
    obtain ⟨t, -, ht⟩ : ∃ t ∈ order, t.covers nj p q := by
      by_contra hc; exact h (if_neg hc)
    show (p, q) ∈ dense _ _ ++ dense _ _ ++ dense _ _ ++ dense _ _
    simp only [List.mem_append, mem_dense]
    have mq : ∀ p : Idx (SBlk n), p.1 = .baseQuat ∧ p.2 < 4 → p ∈ seg .baseQuat 0 4 := fun p h => mem_seg' h.1 (Nat.zero_le _) (by omega)
    have mj : ∀ p : Idx (SBlk n), p.1 = .joints ∧ p.2 < nj → p ∈ seg .joints 0 nj := fun p h => mem_seg' h.1 (Nat.zero_le _) (by omega)
    cases t with
    | quatQuat => exact Or.inl (Or.inl (Or.inl ⟨mq p ht.1, mq q ht.2⟩))
    | quatJoints =>
      rcases ht with ht | ht
      · exact Or.inl (Or.inr ⟨mj p ht.1, mq q ht.2⟩)
      · exact Or.inl (Or.inl (Or.inr ⟨mq p ht.1, mj q ht.2⟩))
    | jointsJoints => exact Or.inr ⟨mj p ht.1, mj q ht.2⟩
  · intro x u lam p q h
    replace h : centroidalMixedHess s E fuel order' x u lam (fun _ _ => 0) p q ≠ 0 := h
    rw [mixedHess_eq] at h
    obtain ⟨t, -, ht⟩ : ∃ t ∈ order', t.covers nj p q := by
      by_contra hc; exact h (if_neg hc)
    show (p, q) ∈ dense _ _ ++ dense _ _ ++ dense _ _ ++ dense _ _ ++ dense _ _ ++ dense _ _
    simp only [List.mem_append, mem_dense]
    have mq : ∀ p : Idx (SBlk n), p.1 = .baseQuat ∧ p.2 < 4 → p ∈ seg .baseQuat 0 4 := fun p h => mem_seg' h.1 (Nat.zero_le _) (by omega)
    have mj : ∀ p : Idx (SBlk n), p.1 = .joints ∧ p.2 < nj → p ∈ seg .joints 0 nj := fun p h => mem_seg' h.1 (Nat.zero_le _) (by omega)
    have mc : ∀ (b : CBlk n) (k : ℕ) (p : Idx (CBlk n)), p.1 = b ∧ p.2 < k → p ∈ seg b 0 k := fun b k p h => mem_seg' h.1 (Nat.zero_le _) (by omega)
    cases t with
    | quatLinVel => have := mq p ht.1; have := mc _ _ q ht.2; tauto
    | quatQuatVel => have := mq p ht.1; have := mc _ _ q ht.2; tauto
    | quatJointsVel => have := mq p ht.1; have := mc _ _ q ht.2; tauto
    | jointsLinVel => have := mj p ht.1; have := mc _ _ q ht.2; tauto
    | jointsQuatVel => have := mj p ht.1; have := mc _ _ q ht.2; tauto
    | jointsJointsVel => have := mj p ht.1; have := mc _ _ q ht.2; tauto

/-- C64: a point is feasible exactly when each row is within half the tolerance of zero. -/
theorem C64_bounds (E : NormExprs) (fuel : ℕ) (order : List StateTask) (order' : List MixedTask) (tol : ℝ) (x : SVec n) (u : CVec n) :
    let c := centroidalMomentum s E fuel order order' tol
    ∃ lo hi, c.lower = some lo ∧ c.upper = some hi ∧
      ((∀ i, lo i ≤ c.value x u i ∧ c.value x u i ≤ hi i) ↔ ∀ i, |c.value x u i| ≤ tol / 2) := by
  intro c
  refine ⟨_, _, rfl, rfl, forall_congr' fun i => ?_⟩
  rw [abs_le]
  constructor <;> rintro ⟨h1, h2⟩ <;> exact ⟨by linarith, h2⟩

/-! ### The hypotheses are met -/

/-- A state with a base that is not aligned with the world. -/
noncomputable def turnedState (n : ℕ) : SVec n := fun p => if p = (.baseQuat, 0) ∨ p = (.baseQuat, 1) then 1 else 0

theorem turned_quat (n : ℕ) : quatOf (turnedState n) ≠ 0 := by
  intro h
  have := congrFun h 0
  simp [quatOf, turnedState] at this

example (E : NormExprs) (u : CVec 4) (i : Fin 3) := C64_value sampleServer E 3 [] [] 0 sample_mass (turnedState 4) u i
example (E : NormExprs) (u : CVec 4) (i : Fin 3) := C64_jacobians sampleServer E 3 [] [] 0 sample_regular sample_mass (turnedState 4) (turned_quat 4) u i
example (u : CVec 4) (lam : Fin 3 → ℝ) : ∃ E : NormExprs, HessNear
    (fun y => weighted (centroidalMomentum sampleServer E 3 [.jointsJoints, .quatQuat, .quatJoints]
      [.quatLinVel, .quatQuatVel, .quatJointsVel, .jointsLinVel, .jointsQuatVel, .jointsJointsVel] 0) lam y u)
    (centroidalStateHess sampleServer E 3 [.jointsJoints, .quatQuat, .quatJoints] (turnedState 4) u lam fun _ _ => 0) (turnedState 4) := by
  obtain ⟨E, hE⟩ := C64_expressions_exist Levi.cfgVars_sound
  exact ⟨E, (C64_hessians sampleServer Levi.cfgVars_sound hE 3 _ _ (by intro t; cases t <;> decide) (by intro t; cases t <;> decide) 0 sample_regular
    sample_mass (turnedState 4) (turned_quat 4) u lam).1⟩

end Verif.NLP.Kin
