import Verif.Lemmas.PointConstraints6
import Verif.Props.CentroidalMomentum
/- C65-C67: the constraints on the position of the centre of mass, on the position of the contact points and on the distance of the feet. -/
set_option linter.unusedSectionVars false
namespace Verif.NLP.Kin
open Matrix Verif.Rigid Function Verif.NLP.Spec Filter Topology
open Verif.NLP.Dynamics (quatOf baseRotation NonNull mem_seg mem_dense rotE)
open Verif.Levi Verif.Levi.Ex
variable {n nj : ℕ} {L F : Type} [DecidableEq L] [DecidableEq F] {m : Model L (Fin nj)} (s : Server m F)

/-- levi answers the derivatives of the rotation of the base the constructors ask for. -/
theorem C65_expressions_exist {cfg : Cfg ℝ} (hs : Levi.Spec.Sound cfg) : ∃ E : RotExprs, E.Made cfg := by
  let ρ : Env ℝ := fun _ _ => 1
  have hρ : ρ ∈ NonNull := by simp [NonNull, ρ]; norm_num
  have ne : NonNull.Nonempty := ⟨ρ, hρ⟩
  have size {e : Ex ℝ} (hw : Levi.Spec.Written (Levi.Spec.PowOk ρ) e) : (build cfg e).size = e.size := by
    have vb := build_val hs (fun a a' α => PowOk.transfer a a' α) hw
    exact size_of_ev vb.1 hw vb.2
  have hb := fun (σ : Env ℝ) (hσ : σ ∈ NonNull) => Dynamics.written_rotE hσ
  have hcb : ∀ b : Fin 3, (b : ℕ) < (build cfg rotE).cols := fun b => by
    rw [cols, size (hb ρ hρ)]; exact b.2
  have any {x : Ex ℝ} (hx : Levi.Spec.Obtained cfg rotE x) (c : Nat) (hc : c < x.cols) : ∃ m d, D cfg m x c Quat.q = some d := by
    obtain ⟨N, hN⟩ := (C25_column_derivatives_exist_and_are_true hs rotE NonNull hb ne hx c hc Quat.q (by decide)).1
    obtain ⟨d, hd⟩ := hN N le_rfl
    exact ⟨N, d, hd⟩
  have h0 : ∀ b : Fin 3, ∃ j m, D cfg m (build cfg rotE) b Quat.q = some j := fun b => by
    obtain ⟨m, j, h⟩ := any Levi.Spec.Obtained.built b (hcb b)
    exact ⟨j, m, h⟩
  choose j hj using h0
  have h1 : ∀ (b : Fin 3) (i : Fin 4), ∃ d m', D cfg m' (j b) i Quat.q = some d := fun b i => by
    obtain ⟨m, hm⟩ := hj b
    have jc := ((C25_column_derivatives_exist_and_are_true hs rotE NonNull hb ne Levi.Spec.Obtained.built b (hcb b) Quat.q (by decide)).2 m (j b) hm ρ hρ).size
    obtain ⟨m', d, h⟩ := any (Levi.Spec.Obtained.derived Levi.Spec.Obtained.built (hcb b) (by decide) hm) i (by rw [cols, jc]; exact i.2)
    exact ⟨d, m', h⟩
  choose H hH using h1
  exact ⟨⟨j, H⟩, hj, hH⟩

theorem weighted3 (c : Constraint (Idx (SBlk n)) (Idx (CBlk n)) 3) (lam : Fin 3 → ℝ) (x : SVec n) (u : CVec n) :
    weighted c lam x u = ∑ a, lam a * c.value x u a := List.sum_ofFn

/-! ### C65: the position of the centre of mass -/

/-- C65: the value is the centre of mass of the robot (the average of the centres of mass of the links in the world, weighted with the masses) minus the
centre of mass in the state. -/
theorem C65_value (E : RotExprs) (fuel : ℕ) (w : Leftover nj) (tol : ℝ) (hM : massOf m ≠ 0) (x : SVec n) (u : CVec n) :
    massOf m • ((comPositionConstraint s E fuel w tol).value x u + fun i : Fin 3 => x (.com, (i : ℕ))) =
      (m.links.map fun l => (m.inertia l).mass • (s.kin.world (baseTransform x) (jointsOf x) l).point (m.inertia l).com).sum := by
  show massOf m • (comPos s x - _ + _) = _
  rw [sub_add_cancel]
  unfold massOf at *
  rw [← Server.totalMass_eq] at hM ⊢
  rw [comPos, Traversal.comPosition, vec_sum_hom (fun x => m.totalMass • x) (fun a b => smul_add _ a b) (smul_zero _)]
  congr 1
  refine List.map_congr_left fun l _ => ?_
  rw [smul_smul, Model.relativeMass, mul_div_cancel₀ _ hM]

/-- C65: the Jacobians are right wherever the quaternion of the base is not null. -/
theorem C65_jacobians (E : RotExprs) (fuel : ℕ) (w : Leftover nj) (tol : ℝ) (hm : m.Regular) (hM : massOf m ≠ 0) (x : SVec n) (hx : quatOf x ≠ 0)
    (u : CVec n) (i : Fin 3) :
    let c := comPositionConstraint s E fuel w tol
    GradAt (fun y => c.value y u i) (c.stateJac x u (fun _ _ => 0) i) x ∧ GradAt (fun v => c.value x v i) (c.ctrlJac x u (fun _ _ => 0) i) u := by
  unfold massOf at hM
  rw [← Server.totalMass_eq] at hM
  exact ⟨comPosition_stateJac s hm hM hx i, GradAt.const _ _⟩

/-- C65: the second derivatives of the constraint weighted with the multipliers are right, whatever velocities are left in the shared state and
however levi rewrites the expressions it is given. -/
theorem C65_hessians {cfg : Cfg ℝ} (hs : Levi.Spec.Sound cfg) {E : RotExprs} (hE : E.Made cfg) (fuel : ℕ) (w : Leftover nj) (tol : ℝ) (hm : m.Regular)
    (hM : massOf m ≠ 0) (x : SVec n) (hx : quatOf x ≠ 0) (u : CVec n) (lam : Fin 3 → ℝ) :
    let c := comPositionConstraint s E fuel w tol
    HessNear (fun y => weighted c lam y u) (c.stateHess x u lam fun _ _ => 0) x ∧
    HessNear (fun v => weighted c lam x v) (c.ctrlHess x u lam fun _ _ => 0) u ∧
    MixedNear (weighted c lam) (c.mixedHess x u lam fun _ _ => 0) x u := by
  have hM' := hM
  unfold massOf at hM'
  rw [← Server.totalMass_eq] at hM'
  intro c
  have hnear : HessNear (fun y => weighted c lam y u) (c.stateHess x u lam fun _ _ => 0) x := by
    refine pointHess_right (u := u) hs hE (comInner_right s hm hM') hx pointExpr_com .com fun y hy => ?_
    rw [weighted3]
    refine Finset.sum_congr rfl fun a _ => ?_
    rw [com_value s hy]; rfl
  have hc : ∀ y (v : CVec n), weighted c lam y v = weighted c lam y u := fun _ _ => rfl
  refine ⟨hnear, ⟨fun _ _ => 0, Eventually.of_forall fun v p => ?_, fun p => GradAt.const _ _⟩, ?_⟩
  · simp only [hc]; exact hasDerivAt_const _ _
  · obtain ⟨G, hG, -⟩ := hnear
    have : GradAt (fun y => weighted c lam y u) (G x) x := hG.self_of_nhds
    exact ⟨fun _ => G x, fun v => by simp only [hc _ v]; exact this, fun p => GradAt.const _ _⟩

theorem pointHess_covered {e : SMat (PAtom nj) 3 1} {v : PAtom nj → ℝ} {lam : Fin 3 → ℝ} {p q : Idx (SBlk n)}
    (h : pointHess e v lam (fun _ _ => 0) p q ≠ 0) : (p, q) ∈ pointHessPat n nj := by
  rw [pointHess_eq] at h
  have mq : ∀ p : Idx (SBlk n), p.1 = .baseQuat ∧ p.2 < 4 → p ∈ seg .baseQuat 0 4 := fun p h => mem_seg' h.1 (Nat.zero_le _) (by omega)
  have mj : ∀ p : Idx (SBlk n), p.1 = .joints ∧ p.2 < nj → p ∈ seg .joints 0 nj := fun p h => mem_seg' h.1 (Nat.zero_le _) (by omega)
  have := not_imp_comm.1 (pEntry_zero (lam := lam) e v p q) h
  simp only [pointHessPat, List.mem_append, mem_dense]
  rcases this with ⟨h1 | h1, h2 | h2⟩
  · exact Or.inl (Or.inl (Or.inl ⟨mq p h1, mq q h2⟩))
  · exact Or.inl (Or.inl (Or.inr ⟨mq p h1, mj q h2⟩))
  · exact Or.inl (Or.inr ⟨mj p h1, mq q h2⟩)
  · exact Or.inr ⟨mj p h1, mj q h2⟩

theorem unit3_covered {b : SBlk n} {k i : Fin 3} (h : unit3 k i ≠ 0) : (i, ((b, (k : ℕ)) : Idx (SBlk n))) ∈ diag (List.finRange 3) (seg b 0 3) := by
  have : i = k := by by_contra hne; exact h (by simp [unit3, hne])
  subst this
  fin_cases i <;> simp [diag, seg, List.finRange, List.ofFn, Fin.foldr, Fin.foldr.loop, List.range, List.range.loop]

/-- C65: every entry that can be different from zero is declared. -/
theorem C65_sparsity (E : RotExprs) (fuel : ℕ) (w : Leftover nj) (tol : ℝ) : SparsityCovers (comPositionConstraint (n := n) s E fuel w tol) := by
  refine ⟨?_, fun _ _ _ _ h => absurd rfl h, fun x u lam p q h => pointHess_covered h, fun _ _ _ _ _ h => absurd rfl h, fun _ _ _ _ _ h => absurd rfl h⟩
  intro x u i p h
  replace h : comPositionJac s x p i ≠ 0 := h
  show (i, p) ∈ diag _ _ ++ dense _ _ ++ dense _ _ ++ diag _ _
  simp only [List.mem_append, mem_dense]
  have all3 : ∀ i : Fin 3, i ∈ List.finRange 3 := List.mem_finRange
  by_cases h1 : p.1 = .baseQuat ∧ p.2 < 4
  · exact Or.inl (Or.inl (Or.inr ⟨all3 i, mem_seg' h1.1 (Nat.zero_le _) (by omega)⟩))
  by_cases h2 : p.1 = .joints ∧ p.2 < nj
  · exact Or.inl (Or.inr ⟨all3 i, mem_seg' h2.1 (Nat.zero_le _) (by omega)⟩)
  by_cases h3 : p.1 = .basePos ∧ p.2 < 3
  · obtain ⟨k, rfl⟩ : ∃ k : Fin 3, p = (.basePos, (k : ℕ)) := ⟨⟨p.2, h3.2⟩, Prod.ext h3.1 rfl⟩
    rw [comJac_base] at h
    exact Or.inl (Or.inl (Or.inl (unit3_covered h)))
  by_cases h4 : p.1 = .com ∧ p.2 < 3
  · obtain ⟨k, rfl⟩ : ∃ k : Fin 3, p = (.com, (k : ℕ)) := ⟨⟨p.2, h4.2⟩, Prod.ext h4.1 rfl⟩
    rw [comJac_com, Pi.neg_apply, neg_ne_zero] at h
    exact Or.inr (unit3_covered h)
  · exact absurd (by rw [comJac_other s p h1 h2 h3 h4]; rfl) h

/-- C65: a point is feasible exactly when each row is within half the tolerance of zero. -/
theorem C65_bounds (E : RotExprs) (fuel : ℕ) (w : Leftover nj) (tol : ℝ) (x : SVec n) (u : CVec n) :
    let c := comPositionConstraint s E fuel w tol
    ∃ lo hi, c.lower = some lo ∧ c.upper = some hi ∧
      ((∀ i, lo i ≤ c.value x u i ∧ c.value x u i ≤ hi i) ↔ ∀ i, |c.value x u i| ≤ tol / 2) := by
  intro c
  refine ⟨_, _, rfl, rfl, forall_congr' fun i => ?_⟩
  rw [abs_le]
  constructor <;> rintro ⟨h1, h2⟩ <;> exact ⟨by linarith, h2⟩

/-! ### C66: the position of a contact point -/

/-- C66: the value is the place of the point of the foot, in the world, minus the position of the point in the state. -/
theorem C66_value (E : RotExprs) (foot : F) (w : Leftover nj) (side : Side) (i : Fin n) (p : Vec) (tol : ℝ) (x : SVec n) (u : CVec n) (a : Fin 3) :
    (contactPositionConstraint s E foot w side i p tol).value x u a =
      x (.basePos, (a : ℕ)) + (baseRotation x *ᵥ ((s.kin.world 1 (jointsOf x) (s.frames.link foot)).point ((s.frames.offset foot).point p))) a - x (.pos side i, (a : ℕ)) := by
  show (SE3.point _ p) a - _ = _
  rw [Server.point_comp, s.kin.world_eq (baseTransform x), Server.point_comp]
  rfl

/-- C66: the Jacobians are right wherever the quaternion of the base is not null, but for the joint just above the foot: its column is right if and only if
turning the axis of the joint as the frame of the foot is turned on its link does not change the velocity of the point. -/
theorem C66_jacobian_columns {cfg : Cfg ℝ} (hs : Levi.Spec.Sound cfg) {E : RotExprs} (hE : E.Made cfg) (foot : F) (w : Leftover nj) (side : Side) (i : Fin n)
    (p : Vec) (tol : ℝ) (hm : m.Regular) (x : SVec n) (hx : quatOf x ≠ 0) (u : CVec n) :
    let c := contactPositionConstraint s E foot w side i p tol
    (∀ (a : Fin 3) (q : Idx (SBlk n)), (∀ j : Fin nj, (s.tree s.base).child j = s.frames.link foot → q ≠ (.joints, (j : ℕ))) →
      HasDerivAt (fun t => c.value (update x q t) u a) (c.stateJac x u (fun _ _ => 0) a q) (x q)) ∧
    (∀ j : Fin nj, (s.tree s.base).child j = s.frames.link foot →
      ((∀ a : Fin 3, HasDerivAt (fun t => c.value (update x (.joints, (j : ℕ)) t) u a) (c.stateJac x u (fun _ _ => 0) a (.joints, (j : ℕ))) (x (.joints, (j : ℕ)))) ↔
        ((s.frames.offset foot).Rᵀ *ᵥ ((s.tree s.base).subspace (s.frames.link foot)).2) ⨯₃ p = ((s.tree s.base).subspace (s.frames.link foot)).2 ⨯₃ p)) ∧
    ∀ a, GradAt (fun v => c.value x v a) (c.ctrlJac x u (fun _ _ => 0) a) u := by
  intro c
  have hbase : s.frames.link s.baseFrame = s.base := s.frames.link_ofLink _
  refine ⟨?_, ?_, fun a => GradAt.const _ _⟩
  · intro a q hq
    by_cases h2 : q.1 = .joints ∧ q.2 < nj
    · obtain ⟨j, rfl⟩ : ∃ j : Fin nj, q = (.joints, (j : ℕ)) := ⟨⟨q.2, h2.2⟩, Prod.ext h2.1 rfl⟩
      have hne : (s.tree s.base).child j ≠ s.frames.link foot := fun h => hq j h rfl
      have h := (contact_grad_joint_iff s (E := E) (w := w) (side := side) (i := i) (p := p) (foot := foot) (u := u) hm hx j).2
        (by unfold usedAxis; rw [hbase, if_neg hne])
      exact (hasDerivAt_pi.1 h) a
    · exact contact_grad_other s hs hE hx a q h2
  · intro j hj
    have h := contact_grad_joint_iff s (E := E) (w := w) (side := side) (i := i) (p := p) (foot := foot) (u := u) hm hx j
    have hd : (s.direction (jointsOf x) s.baseFrame foot j).2 = (s.frames.offset foot).Rᵀ *ᵥ ((s.tree s.base).subspace (s.frames.link foot)).2 := by
      rw [s.direction_above _ s.baseFrame foot j (by rw [hbase, hj]), hbase]; simp [SE3.act]
    unfold usedAxis at h
    rw [hbase, if_pos hj, hd] at h
    constructor
    · intro hh
      exact (h.1 (hasDerivAt_pi.2 hh)).symm
    · intro e
      exact hasDerivAt_pi.1 (h.2 e.symm)

/-- C66: so they are right when the frame of the foot is a link, or is turned on its link about the axis of the last joint or not at all. -/
theorem C66_jacobians_partial {cfg : Cfg ℝ} (hs : Levi.Spec.Sound cfg) {E : RotExprs} (hE : E.Made cfg) (foot : F) (hf : s.KeepsAxes foot) (w : Leftover nj)
    (side : Side) (i : Fin n) (p : Vec) (tol : ℝ) (hm : m.Regular) (x : SVec n) (hx : quatOf x ≠ 0) (u : CVec n) (a : Fin 3) :
    let c := contactPositionConstraint s E foot w side i p tol
    GradAt (fun y => c.value y u a) (c.stateJac x u (fun _ _ => 0) a) x ∧ GradAt (fun v => c.value x v a) (c.ctrlJac x u (fun _ _ => 0) a) u := by
  intro c
  obtain ⟨h1, h2, h3⟩ := C66_jacobian_columns s hs hE foot w side i p tol hm x hx u
  refine ⟨fun q => ?_, h3 a⟩
  by_cases hq : ∃ j : Fin nj, (s.tree s.base).child j = s.frames.link foot ∧ q = (.joints, (j : ℕ))
  · obtain ⟨j, hj, rfl⟩ := hq
    have hbase : s.frames.link s.baseFrame = s.base := s.frames.link_ofLink _
    have hne : s.frames.link s.baseFrame ≠ s.frames.link foot := by
      intro e
      rw [hbase] at e
      exact Traversal.child_ne _ j (hj.trans (e.symm.trans (s.root_tree _).symm))
    have e := hf s.baseFrame hne
    rw [hbase] at e
    exact (h2 j hj).2 (by rw [e]) a
  · exact h1 a q fun j hj hqj => hq ⟨j, hj, hqj⟩

/-- C66: the second derivatives, for the same frames. -/
theorem C66_hessians_partial {cfg : Cfg ℝ} (hs : Levi.Spec.Sound cfg) {E : RotExprs} (hE : E.Made cfg) (foot : F) (hf : s.KeepsAxes foot) (w : Leftover nj)
    (side : Side) (i : Fin n) (p : Vec) (tol : ℝ) (hm : m.Regular) (x : SVec n) (hx : quatOf x ≠ 0) (u : CVec n) (lam : Fin 3 → ℝ) :
    let c := contactPositionConstraint s E foot w side i p tol
    HessNear (fun y => weighted c lam y u) (c.stateHess x u lam fun _ _ => 0) x ∧
    HessNear (fun v => weighted c lam x v) (c.ctrlHess x u lam fun _ _ => 0) u ∧
    MixedNear (weighted c lam) (c.mixedHess x u lam fun _ _ => 0) x u := by
  intro c
  have hnear : HessNear (fun y => weighted c lam y u) (c.stateHess x u lam fun _ _ => 0) x := by
    refine pointHess_right (u := u) hs hE (contactInner_right s hm foot hf) hx (pointExpr_contact p) (.pos side i) fun y hy => ?_
    rw [weighted3]
    refine Finset.sum_congr rfl fun a _ => ?_
    rw [contact_value s hy]; rfl
  have hc : ∀ y (v : CVec n), weighted c lam y v = weighted c lam y u := fun _ _ => rfl
  refine ⟨hnear, ⟨fun _ _ => 0, Eventually.of_forall fun v p => ?_, fun p => GradAt.const _ _⟩, ?_⟩
  · simp only [hc]; exact hasDerivAt_const _ _
  · obtain ⟨G, hG, -⟩ := hnear
    have : GradAt (fun y => weighted c lam y u) (G x) x := hG.self_of_nhds
    exact ⟨fun _ => G x, fun v => by simp only [hc _ v]; exact this, fun p => GradAt.const _ _⟩

/-- C66: every entry that can be different from zero is declared, for any frame. -/
theorem C66_sparsity (E : RotExprs) (foot : F) (w : Leftover nj) (side : Side) (i : Fin n) (p : Vec) (tol : ℝ) :
    SparsityCovers (contactPositionConstraint (n := n) s E foot w side i p tol) := by
  refine ⟨?_, fun _ _ _ _ h => absurd rfl h, fun x u lam p q h => pointHess_covered h, fun _ _ _ _ _ h => absurd rfl h, fun _ _ _ _ _ h => absurd rfl h⟩
  intro x u a q h
  replace h : contactPositionJac E (contactInner s foot w) side i p x u q a ≠ 0 := h
  show (a, q) ∈ diag _ _ ++ dense _ _ ++ dense _ _ ++ diag _ _
  simp only [List.mem_append, mem_dense]
  have all3 : ∀ i : Fin 3, i ∈ List.finRange 3 := List.mem_finRange
  by_cases h1 : q.1 = .baseQuat ∧ q.2 < 4
  · exact Or.inl (Or.inl (Or.inr ⟨all3 a, mem_seg' h1.1 (Nat.zero_le _) (by omega)⟩))
  by_cases h2 : q.1 = .joints ∧ q.2 < nj
  · exact Or.inl (Or.inr ⟨all3 a, mem_seg' h2.1 (Nat.zero_le _) (by omega)⟩)
  by_cases h3 : q.1 = .basePos ∧ q.2 < 3
  · obtain ⟨k, rfl⟩ : ∃ k : Fin 3, q = (.basePos, (k : ℕ)) := ⟨⟨q.2, h3.2⟩, Prod.ext h3.1 rfl⟩
    rw [contactJac_base] at h
    exact Or.inl (Or.inl (Or.inl (unit3_covered h)))
  by_cases h4 : q.1 = .pos side i ∧ q.2 < 3
  · obtain ⟨k, rfl⟩ : ∃ k : Fin 3, q = (.pos side i, (k : ℕ)) := ⟨⟨q.2, h4.2⟩, Prod.ext h4.1 rfl⟩
    rw [contactJac_pos, Pi.neg_apply, neg_ne_zero] at h
    exact Or.inr (unit3_covered h)
  · exact absurd (by rw [contactJac_other _ q h1 h2 h3 h4]; rfl) h

/-- C66: a point is feasible exactly when each row is within half the tolerance of zero. -/
theorem C66_bounds (E : RotExprs) (foot : F) (w : Leftover nj) (side : Side) (i : Fin n) (p : Vec) (tol : ℝ) (x : SVec n) (u : CVec n) :
    let c := contactPositionConstraint s E foot w side i p tol
    ∃ lo hi, c.lower = some lo ∧ c.upper = some hi ∧
      ((∀ i, lo i ≤ c.value x u i ∧ c.value x u i ≤ hi i) ↔ ∀ i, |c.value x u i| ≤ tol / 2) := by
  intro c
  refine ⟨_, _, rfl, rfl, forall_congr' fun i => ?_⟩
  rw [abs_le]
  constructor <;> rintro ⟨h1, h2⟩ <;> exact ⟨by linarith, h2⟩

/-! ### C67: the lateral distance of the feet -/

/-- C67: the value is the chosen coordinate of the origin of the other foot in the reference foot, wherever the base is. -/
theorem C67_value (ref other : F) (lateral : Fin 3) (w : Leftover nj) (d : ℝ) (x : SVec n) (u : CVec n) (H : SE3) :
    (feetLateralDistance s ref other lateral w d).value x u 0 =
      ((s.kin.world H (jointsOf x) (s.frames.link ref) * s.frames.offset ref)⁻¹.point
        ((s.kin.world H (jointsOf x) (s.frames.link other) * s.frames.offset other).point 0)) lateral := by
  rw [← Server.point_comp]
  have : (s.kin.world H (jointsOf x) (s.frames.link ref) * s.frames.offset ref)⁻¹ * (s.kin.world H (jointsOf x) (s.frames.link other) * s.frames.offset other) =
      s.transform (jointsOf x) ref other := by
    rw [Server.transform, ← s.kin.rel_base H, Traversal.rel, _root_.mul_inv_rev]; group
  rw [this]
  show _ = ((s.transform (jointsOf x) ref other).p + (s.transform (jointsOf x) ref other).R *ᵥ 0) lateral
  rw [mulVec_zero, add_zero]; rfl

/-- C67: the Jacobians are right. -/
theorem C67_jacobians (ref other : F) (lateral : Fin 3) (w : Leftover nj) (d : ℝ) (hm : m.Regular) (x : SVec n) (u : CVec n) (i : Fin 1) :
    let c := feetLateralDistance s ref other lateral w d
    GradAt (fun y => c.value y u i) (c.stateJac x u (fun _ _ => 0) i) x ∧ GradAt (fun v => c.value x v i) (c.ctrlJac x u (fun _ _ => 0) i) u := by
  fin_cases i
  exact ⟨lateral_grad s hm, GradAt.const _ _⟩

/-- C67: the second derivatives are right when the rotation of the other frame on its link keeps the axis of the last joint. -/
theorem C67_hessians_partial (ref other : F) (ho : s.KeepsAxes other) (lateral : Fin 3) (w : Leftover nj) (d : ℝ) (hm : m.Regular) (x : SVec n) (u : CVec n)
    (lam : Fin 1 → ℝ) :
    let c := feetLateralDistance s ref other lateral w d
    HessNear (fun y => weighted c lam y u) (c.stateHess x u lam fun _ _ => 0) x ∧
    HessNear (fun v => weighted c lam x v) (c.ctrlHess x u lam fun _ _ => 0) u ∧
    MixedNear (weighted c lam) (c.mixedHess x u lam fun _ _ => 0) x u := by
  intro c
  have hnear : HessNear (fun y => weighted c lam y u) (c.stateHess x u lam fun _ _ => 0) x := lateral_hess s hm ho lam
  have hc : ∀ y (v : CVec n), weighted c lam y v = weighted c lam y u := fun _ _ => rfl
  refine ⟨hnear, ⟨fun _ _ => 0, Eventually.of_forall fun v p => ?_, fun p => GradAt.const _ _⟩, ?_⟩
  · simp only [hc]; exact hasDerivAt_const _ _
  · obtain ⟨G, hG, -⟩ := hnear
    have : GradAt (fun y => weighted c lam y u) (G x) x := hG.self_of_nhds
    exact ⟨fun _ => G x, fun v => by simp only [hc _ v]; exact this, fun p => GradAt.const _ _⟩

/-- C67: each entry for a joint that is not just above the other foot is right for any frame: the entry of the row `k` is the derivative with respect to `k` of
the entry of the Jacobian. -/
theorem C67_hessian_entries (ref other : F) (lateral : Fin 3) (w : Leftover nj) (d : ℝ) (hm : m.Regular) (x : SVec n) (u : CVec n) (lam : Fin 1 → ℝ)
    (j k : Fin nj) (hk : (s.tree (s.frames.link ref)).child k ≠ s.frames.link other) :
    let c := feetLateralDistance s ref other lateral w d
    HasDerivAt (fun t => lam 0 * c.stateJac (update x (.joints, (k : ℕ)) t) u (fun _ _ => 0) 0 (.joints, (j : ℕ)))
      (c.stateHess x u lam (fun _ _ => 0) (.joints, (k : ℕ)) (.joints, (j : ℕ))) (x (.joints, (k : ℕ))) := by
  intro c
  simp only [c, lateralJac_joint, state_update_joint, lateralHess_eq]
  rw [dif_pos ⟨⟨trivial, k.2⟩, trivial, j.2⟩, mul_comm]
  exact ((hasDerivAt_pi.1 (C61_position_hessian s hm (w.state x) ref other j k hk)) lateral).const_mul (lam 0)

/-- C67: every entry that can be different from zero is declared. -/
theorem C67_sparsity (ref other : F) (lateral : Fin 3) (w : Leftover nj) (d : ℝ) : SparsityCovers (feetLateralDistance (n := n) s ref other lateral w d) := by
  have mj : ∀ p : Idx (SBlk n), p.1 = .joints ∧ p.2 < nj → p ∈ seg .joints 0 nj := fun p h => mem_seg' h.1 (Nat.zero_le _) (by omega)
  refine ⟨?_, fun _ _ _ _ h => absurd rfl h, ?_, fun _ _ _ _ _ h => absurd rfl h, fun _ _ _ _ _ h => absurd rfl h⟩
  · intro x u i p h
    fin_cases i
    show (_, p) ∈ dense _ _
    rw [mem_dense]
    refine ⟨List.mem_singleton.2 rfl, mj p ?_⟩
    by_contra hp
    exact h (lateralJac_other s p hp)
  · intro x u lam p q h
    rw [lateralHess_eq] at h
    show (p, q) ∈ dense _ _
    rw [mem_dense]
    by_cases hpq : (p.1 = .joints ∧ p.2 < nj) ∧ q.1 = .joints ∧ q.2 < nj
    · exact ⟨mj p hpq.1, mj q hpq.2⟩
    · exact absurd (dif_neg hpq) h

/-- C67: the distance has a lower bound only, the last minimum accepted: a negative one is refused and changes nothing. -/
theorem C67_bounds (ref other : F) (lateral : Fin 3) (w : Leftover nj) (d : ℝ) :
    (feetLateralDistance (n := n) s ref other lateral w d).lower = some (fun _ => d) ∧ (feetLateralDistance (n := n) s ref other lateral w d).upper = none ∧
    (∀ new, (setMinimumDistance d new).2 = true ↔ 0 ≤ new) ∧
    ∀ new, (setMinimumDistance d new).1 = if (setMinimumDistance d new).2 then new else d := by
  refine ⟨rfl, rfl, fun new => ?_, fun new => ?_⟩ <;> unfold setMinimumDistance <;> split_ifs <;> simp_all

/-! ### The hypotheses are met -/

example (E : RotExprs) (w : Leftover 2) (u : CVec 4) := C65_value sampleServer E 3 w 0 sample_mass (turnedState 4) u
example (E : RotExprs) (w : Leftover 2) (u : CVec 4) (i : Fin 3) := C65_jacobians sampleServer E 3 w 0 sample_regular sample_mass (turnedState 4) (turned_quat 4) u i
example (w : Leftover 2) (u : CVec 4) (lam : Fin 3 → ℝ) : ∃ E : RotExprs, HessNear
    (fun y => weighted (comPositionConstraint sampleServer E 3 w 0) lam y u)
    ((comPositionConstraint sampleServer E 3 w 0).stateHess (turnedState 4) u lam fun _ _ => 0) (turnedState 4) := by
  obtain ⟨E, hE⟩ := C65_expressions_exist Levi.cfgVars_sound
  exact ⟨E, (C65_hessians sampleServer Levi.cfgVars_sound hE 3 w 0 sample_regular sample_mass (turnedState 4) (turned_quat 4) u lam).1⟩
example (w : Leftover 2) (u : CVec 4) (lam : Fin 3 → ℝ) : ∃ E : RotExprs, HessNear
    (fun y => weighted (contactPositionConstraint sampleServer E (some 2) w .left 1 ![1, 2, 3] 0) lam y u)
    ((contactPositionConstraint sampleServer E (some 2) w .left 1 ![1, 2, 3] 0).stateHess (turnedState 4) u lam fun _ _ => 0) (turnedState 4) := by
  obtain ⟨E, hE⟩ := C65_expressions_exist Levi.cfgVars_sound
  exact ⟨E, (C66_hessians_partial sampleServer Levi.cfgVars_sound hE (some 2) (sampleServer.keepsAxes_ofLink 2) w .left 1 ![1, 2, 3] 0 sample_regular
    (turnedState 4) (turned_quat 4) u lam).1⟩
example (w : Leftover 2) (x : SVec 4) (u : CVec 4) (lam : Fin 1 → ℝ) := C67_hessians_partial sampleServer (some 0) (some 2) (sampleServer.keepsAxes_ofLink 2) 1 w 1
  sample_regular x u lam

/-- C66 (finding): the Jacobian of a point of a turned frame is wrong. -/
theorem C66_finding_example {cfg : Cfg ℝ} (hs : Levi.Spec.Sound cfg) {E : RotExprs} (hE : E.Made cfg) (w : Leftover 2) (u : CVec 4) :
    ¬ ∀ a, GradAt (fun y => (contactPositionConstraint sampleServer E none w .left (0 : Fin 4) ![0, 0, 1] 0).value y u a)
      ((contactPositionConstraint sampleServer E none w .left (0 : Fin 4) ![0, 0, 1] 0).stateJac (turnedState 4) u (fun _ _ => 0) a) (turnedState 4) := by
  intro h
  have h2 := (C66_jacobian_columns sampleServer hs hE none w .left (0 : Fin 4) ![0, 0, 1] 0 sample_regular (turnedState 4) (turned_quat 4) u).2.1 0 (by rfl)
  have h3 := h2.1 fun a => h a _
  have h4 := congrFun h3 0
  simp [sampleServer, quarterX, Traversal.subspace, sampleTraversal, sampleModel, sampleAxes, Axis.S, mulVec, dotProduct, Fin.sum_univ_three,
    cross_apply, vecHead, vecTail] at h4

/-- C67 (finding): the second derivatives are wrong for a turned frame, for some coordinate. -/
theorem C67_finding_example (u : CVec 4) (d : ℝ) :
    let w : Leftover 2 := ⟨sampleState.stateVel, sampleState.twist, sampleState.dq⟩
    let x : SVec 4 := fun p => if p = (.joints, 0) then 1 else if p = (.joints, 1) then 2 else 0
    ¬ ∀ lateral, HessNear (fun y => weighted (feetLateralDistance sampleServer (some 0) none lateral w d) (fun _ => 1) y u)
      ((feetLateralDistance sampleServer (some 0) none lateral w d).stateHess x u (fun _ => 1) fun _ _ => 0) x := by
  intro w x h
  have hst : w.state x = sampleState := by
    show (⟨_, _, jointsOf x, _⟩ : KState (Fin 2)) = _
    have : jointsOf x = sampleState.q := by
      funext k; fin_cases k <;> simp [jointsOf, x, sampleState]
    rw [this]
  apply C61_finding_example
  refine hasDerivAt_pi.2 fun lateral => ?_
  obtain ⟨G, hG, hH⟩ := h lateral
  have h0 := hH (.joints, 0) (.joints, 0)
  rw [lateralHess_eq, dif_pos (by simp), hst, mul_one] at h0
  have e : ∀ᶠ y in 𝓝 x, G y (.joints, 0) = sampleServer.relativePositionJacobian (w.state y) (some 0) none 0 lateral := by
    filter_upwards [hG] with y hy
    have h1 := hy (.joints, 0)
    have h2 := lateral_grad sampleServer (x := y) (u := u) (w := w) (d := d) (ref := some 0) (other := none) (lateral := lateral) sample_regular (.joints, ((0 : Fin 2) : ℕ))
    rw [lateralJac_joint] at h2
    have e1 : (fun t => weighted (feetLateralDistance sampleServer (some 0) none lateral w d) (fun _ => 1) (update y (.joints, 0) t) u) =
        fun t => (feetLateralDistance sampleServer (some 0) none lateral w d).value (update y (.joints, ((0 : Fin 2) : ℕ)) t) u 0 := by
      funext t; simp [weighted]
    rw [e1] at h1
    exact h1.unique h2
  have h3 := h0.congr_of_eventuallyEq (f₁ := fun t => sampleServer.relativePositionJacobian (w.state (update x (.joints, ((0 : Fin 2) : ℕ)) t)) (some 0) none 0 lateral) (by
    filter_upwards [Dynamics.eventually_update (p := (.joints, 0)) e] with t ht
    exact ht.symm)
  simp only [state_update_joint, hst] at h3
  exact h3

end Verif.NLP.Kin
