import Verif.Lemmas.SecondDerivatives
import Verif.Props.ConstraintStack
/- C93: the second derivatives of the constraints handed to the optimiser. -/
set_option linter.unusedSectionVars false
set_option linter.unusedSimpArgs false
namespace Verif.Plan
open NLP NLP.Kin SolverM StateM Rigid Matrix Filter
open NLP.Spec (GradAt HessAt MixedAt HessNear MixedNear weighted ExactHessians SparsityCovers)
open NLP.Dynamics (quatOf)
open Labeller (Labeller Range)
open SolverM.Spec (stateVector controlVector StateSize ControlSize)
noncomputable section
variable {n nj : ℕ} {L F T : Type} [DecidableEq L] [DecidableEq F] {m : Model L (Fin nj)} (R : Objects m F)

/-- The second derivatives of the constraint are right. -/
def HessReady : SolverM.Con ℝ → Prop
  | .contactPosition _ _ frame _ _ _ => R.server.KeepsAxes (R.frame frame)
  | .feetLateralDistance _ _ other _ => R.server.KeepsAxes (R.frame other)
  | .planarVelocityControl _ _ _ _ _ => False
  | _ => True

theorem near_of_at {ι : Type} [DecidableEq ι] {f : (ι → ℝ) → ℝ} {H : ι → ι → ℝ} {x : ι → ℝ} (h : HessAt f H x) : HessNear f H x := by
  obtain ⟨g, h1, h2⟩ := h
  exact ⟨g, Eventually.of_forall h1, h2⟩

theorem mixed_of_at {ι κ : Type} [DecidableEq ι] [DecidableEq κ] {f : (ι → ℝ) → (κ → ℝ) → ℝ} {H : ι → κ → ℝ} {x : ι → ℝ} {u : κ → ℝ} (h : MixedAt f H x u) : MixedNear f H x u := by
  obtain ⟨g, h1, h2⟩ := h
  exact ⟨fun v => g x v, fun v => h1 x v, h2⟩

/-- The three matrices are right. -/
def NearRight {k : ℕ} (c : Constraint (Idx (SBlk n)) (Idx (CBlk n)) k) (x : SVec n) (u : CVec n) (lam : Fin k → ℝ) : Prop :=
  HessNear (fun y => weighted c lam y u) (c.stateHess x u lam fun _ _ => 0) x ∧
    HessNear (fun v => weighted c lam x v) (c.ctrlHess x u lam fun _ _ => 0) u ∧
    MixedNear (weighted c lam) (c.mixedHess x u lam fun _ _ => 0) x u

theorem nearRight_of_exact {k : ℕ} {c : Constraint (Idx (SBlk n)) (Idx (CBlk n)) k} (h : ExactHessians c) (x : SVec n) (u : CVec n) (lam : Fin k → ℝ) : NearRight c x u lam :=
  ⟨near_of_at (h x u lam).1, near_of_at (h x u lam).2.1, mixed_of_at (h x u lam).2.2⟩

theorem object_hessians {cfg : Levi.Ex.Cfg ℝ} (hcfg : Levi.Spec.Sound cfg) (hR : R.rot.Made cfg) (hE : R.norm.Made cfg) (ho : ∀ t, t ∈ R.order) (ho' : ∀ t, t ∈ R.order')
    (hm : m.Regular) (hM : massOf m ≠ 0) {k : SolverM.Con ℝ} {o}
    (h : constraintObject n R k = some o) (hk : HessReady R k) (x : SVec n) (hx : quatOf x ≠ 0) (u : CVec n) (lam : Fin o.1 → ℝ) : NearRight o.2 x u lam := by
  cases k <;> simp only [constraintObject, Option.some.injEq] at h
  case centroidalMomentum => subst h; exact C64_hessians R.server hcfg hE R.fuel R.order R.order' ho ho' 0 hm hM x hx u lam
  case comPosition => subst h; exact C65_hessians R.server hcfg hR R.fuel R.leftover 0 hm hM x hx u lam
  case quaternionNorm => subst h; exact nearRight_of_exact (quaternion_hess 0) x u lam
  case feetRelativeHeight => subst h; exact nearRight_of_exact (feetRelativeHeight_hess _) x u lam
  case planarVelocityControl => exact hk.elim
  case contactPosition =>
    split at h
    · cases h
      exact C66_hessians_partial R.server hcfg hR _ hk R.leftover _ _ _ 0 hm x hx u lam
    · cases h
  case feetLateralDistance =>
    split at h
    · cases h
      exact C67_hessians_partial R.server _ _ hk _ R.leftover _ hm x u lam
    · cases h
  case classicalPlanarComplementarity =>
    split at h
    · cases h
      exact nearRight_of_exact (planar_hess _ _ _) x u lam
    · cases h
  case dynamicalComplementarity =>
    split at h
    · cases h
      exact nearRight_of_exact (dynamical_hess _ _ _ _) x u lam
    · cases h
  case forceControl =>
    split at h
    · cases h
      exact nearRight_of_exact (forceControl_hess _ _ _ _ _) x u lam
    · cases h
  case classicalComplementarity =>
    split at h
    · cases h
      exact nearRight_of_exact (classical_hess _ _ _) x u lam
    · cases h
  case friction =>
    split at h
    · cases h
      exact nearRight_of_exact (friction_hess _ _ _) x u lam
    · cases h

/-! ### The sum -/

theorem mapIdx_rows {r : Ranges} {k : ℕ} (c : Constraint (Idx (SBlk n)) (Idx (CBlk n)) k) (lam : ℕ → ℝ) (x : SVec n) (u : CVec n) :
    ((rowsOf r c x u).mapIdx fun a row => lam a * row.value).sum = weighted c (fun a => lam a) x u := by
  unfold weighted
  congr 1
  apply List.ext_getElem
  · simp [rowsOf]
  · intro i h1 h2
    simp [rowsOf]

theorem weighted_cons {r : Ranges} {k : SolverM.Con ℝ} {o} (h : constraintObject n R k = some o) (l : List (SolverM.Con ℝ)) (lam : ℕ → ℝ) (v w : List ℝ) :
    weightedStack R r n (k :: l) lam v w =
      weighted o.2 (fun a => lam a) (readState r v) (readControl r w) + weightedStack R r n l (fun i => lam (o.1 + i)) v w := by
  have e : stack R r n (k :: l) v w = rowsOf r o.2 (readState (n := n) r v) (readControl (n := n) r w) ++ stack R r n l v w := by simp [stack, h]
  unfold weightedStack
  rw [e, List.mapIdx_append, List.sum_append, mapIdx_rows, rows_length]
  simp only [Nat.add_comm]

section
variable {r : Ranges} (hL : Labels r n nj) (sv cv : List ℝ) (hsv : sv.length = 12 * n + 16 + nj) (hcv : cv.length = 12 * n + 7 + nj)
include hL hsv hcv

theorem stack_hessians {cfg : Levi.Ex.Cfg ℝ} (hcfg : Levi.Spec.Sound cfg) (hR : R.rot.Made cfg) (hE : R.norm.Made cfg) (ho : ∀ t, t ∈ R.order) (ho' : ∀ t, t ∈ R.order')
    (hm : m.Regular) (hM : massOf m ≠ 0) (hx : quatOf (readState (n := n) r sv) ≠ 0) (l : List (SolverM.Con ℝ)) (hk : ∀ k ∈ l, HessReady R k) (lam : ℕ → ℝ) :
    let H := stackHessians R r n l lam sv cv
    Spec.SecondDerivatives (fun v => some (weightedStack R r n l lam v cv)) sv H.state ∧
    Spec.SecondDerivatives (fun w => some (weightedStack R r n l lam sv w)) cv H.control ∧
    Spec.MixedDerivatives (fun v w => some (weightedStack R r n l lam v w)) sv cv H.mixed := by
  induction l generalizing lam with
  | nil => exact ⟨second_const _ _, second_const _ _, mixed_const _ _ _⟩
  | cons k l ih =>
    have ih := fun lam => ih (fun j hj => hk j (List.mem_cons_of_mem _ hj)) lam
    cases hob : constraintObject n R k with
    | none =>
      have e : ∀ v w, weightedStack R r n (k :: l) lam v w = weightedStack R r n l lam v w := fun v w => by simp [weightedStack, stack, hob]
      simp only [e, stackHessians, hob]
      exact ih lam
    | some o =>
      have key := object_hessians R hcfg hR hE ho ho' hm hM hob (hk k List.mem_cons_self) (readState (n := n) r sv) hx (readControl (n := n) r cv) fun a => lam a
      have ih := ih fun i => lam (o.1 + i)
      simp only [stackHessians, hob]
      have hsum : ∀ v w (a b : ℝ), some (weighted o.2 (fun a => lam a) (readState (n := n) r v) (readControl (n := n) r w)) = some a →
          some (weightedStack R r n l (fun i => lam (o.1 + i)) v w) = some b → some (weightedStack R r n (k :: l) lam v w) = some (a + b) := fun v w a b ha hb => by
        rw [weighted_cons R hob, ← Option.some.inj ha, ← Option.some.inj hb]
      refine ⟨second_add (second_state hL sv hsv _ _ key.1 fun v' => rfl) ih.1 fun v a b => hsum v cv a b,
        second_add (second_control hL cv hcv _ _ key.2.1 fun v' => rfl) ih.2.1 fun w a b => hsum sv w a b,
        mixed_add (second_mixed hL sv cv hsv hcv _ _ key.2.2 fun v' w' => rfl) ih.2.2 hsum⟩

end

/-! ### The declared entries -/

/-- The two parts of every pair satisfy the two properties. -/
def Both {α β : Type} (f : α → Prop) (g : β → Prop) (l : List (α × β)) : Prop := ∀ e ∈ l, f e.1 ∧ g e.2

section
variable {α β : Type} {f : α → Prop} {g : β → Prop}
theorem both_nil : Both f g [] := fun _ h => absurd h List.not_mem_nil
theorem both_cons {e : α × β} {l : List (α × β)} (h1 : f e.1) (h2 : g e.2) (h : Both f g l) : Both f g (e :: l) := fun x hx => by
  rcases List.mem_cons.1 hx with rfl | hx
  exacts [⟨h1, h2⟩, h x hx]
theorem both_append {a b : List (α × β)} (ha : Both f g a) (hb : Both f g b) : Both f g (a ++ b) := fun x hx => by
  rcases List.mem_append.1 hx with hx | hx
  exacts [ha x hx, hb x hx]
theorem both_dense {a : List α} {b : List β} (ha : ∀ x ∈ a, f x) (hb : ∀ x ∈ b, g x) : Both f g (dense a b) := fun x hx => by
  simp only [dense, List.mem_flatMap, List.mem_map] at hx
  obtain ⟨p, hp, q, hq, rfl⟩ := hx
  exact ⟨ha p hp, hb q hq⟩
theorem both_diag {a : List α} {b : List β} (ha : ∀ x ∈ a, f x) (hb : ∀ x ∈ b, g x) : Both f g (diag a b) := fun x hx =>
  ⟨ha _ (List.of_mem_zip (a := x.1) (b := x.2) hx).1, hb _ (List.of_mem_zip (a := x.1) (b := x.2) hx).2⟩
end

/-- The entry is inside its range. -/
def InState (nj : ℕ) (p : Idx (SBlk n)) : Prop := p.2 < SolverM.stateSize nj p.1
def InControl (nj : ℕ) (p : Idx (CBlk n)) : Prop := p.2 < SolverM.controlSize nj p.1

theorem seg_in {b : SBlk n} {len : ℕ} (h : len ≤ SolverM.stateSize nj b) : ∀ p ∈ seg b 0 len, InState nj p := fun _ hp => seg_state hp (by omega)
theorem seg_in' {b : CBlk n} {len : ℕ} (h : len ≤ SolverM.controlSize nj b) : ∀ p ∈ seg b 0 len, InControl nj p := fun _ hp => seg_control hp (by omega)

/-- The declared entries of the second derivatives are inside their ranges. -/
def HessInside (nj : ℕ) {k : ℕ} (c : Constraint (Idx (SBlk n)) (Idx (CBlk n)) k) : Prop :=
  Both (InState nj) (InState nj) c.stateHessPat ∧ Both (InControl nj) (InControl nj) c.ctrlHessPat ∧ Both (InState nj) (InControl nj) c.mixedHessPat

theorem inQuat : ∀ p ∈ seg (SBlk.baseQuat (n := n)) 0 4, InState nj p := seg_in le_rfl
theorem inJoints : ∀ p ∈ seg (SBlk.joints (n := n)) 0 nj, InState nj p := seg_in le_rfl
theorem inForce (s : Side) (i : Fin n) : ∀ p ∈ seg (SBlk.force s i) 0 3, InState nj p := seg_in le_rfl
theorem inBaseVel : ∀ p ∈ seg (CBlk.baseVel (n := n)) 0 3, InControl nj p := seg_in' le_rfl
theorem inQuatDer : ∀ p ∈ seg (CBlk.quatDer (n := n)) 0 4, InControl nj p := seg_in' le_rfl
theorem inJointVel : ∀ p ∈ seg (CBlk.jointVel (n := n)) 0 nj, InControl nj p := seg_in' le_rfl

theorem point_inside : Both (InState nj) (InState nj) (pointHessPat n nj) :=
  both_append (both_append (both_append (both_dense inQuat inQuat) (both_dense inQuat inJoints)) (both_dense inJoints inQuat)) (both_dense inJoints inJoints)

theorem in_force (s : Side) (i : Fin n) (k : ℕ) (h : k < 3) : InState nj (SBlk.force s i, k) := h
theorem in_pos (s : Side) (i : Fin n) (k : ℕ) (h : k < 3) : InState nj (SBlk.pos s i, k) := h
theorem in_forceCtl (s : Side) (i : Fin n) (k : ℕ) (h : k < 3) : InControl nj (CBlk.forceCtl s i, k) := h
theorem in_velCtl (s : Side) (i : Fin n) (k : ℕ) (h : k < 3) : InControl nj (CBlk.velCtl s i, k) := h

theorem object_inside {k : SolverM.Con ℝ} {o} (h : constraintObject n R k = some o) : HessInside nj o.2 := by
  cases k <;> simp only [constraintObject, Option.some.injEq] at h
  case centroidalMomentum =>
    subst h
    exact ⟨both_append (both_append (both_append (both_dense inQuat inQuat) (both_dense inQuat inJoints)) (both_dense inJoints inQuat)) (both_dense inJoints inJoints), both_nil,
      both_append (both_append (both_append (both_append (both_append (both_dense inQuat inBaseVel) (both_dense inQuat inQuatDer)) (both_dense inQuat inJointVel))
        (both_dense inJoints inBaseVel)) (both_dense inJoints inQuatDer)) (both_dense inJoints inJointVel)⟩
  case comPosition => subst h; exact ⟨point_inside, both_nil, both_nil⟩
  case quaternionNorm => subst h; exact ⟨both_diag inQuat inQuat, both_nil, both_nil⟩
  case feetRelativeHeight => subst h; exact ⟨both_nil, both_nil, both_nil⟩
  case contactPosition =>
    split at h
    · cases h
      exact ⟨point_inside, both_nil, both_nil⟩
    · cases h
  case feetLateralDistance =>
    split at h
    · cases h
      exact ⟨both_dense inJoints inJoints, both_nil, both_nil⟩
    · cases h
  case planarVelocityControl =>
    split at h
    · cases h
      exact ⟨both_cons (in_pos _ _ 2 (by omega)) (in_pos _ _ 2 (by omega)) both_nil, both_nil, both_nil⟩
    · cases h
  case classicalPlanarComplementarity =>
    split at h
    · cases h
      exact ⟨both_nil, both_nil, both_cons (in_force _ _ 2 (by omega)) (in_velCtl _ _ 0 (by omega)) (both_cons (in_force _ _ 2 (by omega)) (in_velCtl _ _ 1 (by omega)) both_nil)⟩
    · cases h
  case dynamicalComplementarity =>
    split at h
    · cases h
      exact ⟨both_cons (in_force _ _ 2 (by omega)) (in_pos _ _ 2 (by omega)) (both_cons (in_pos _ _ 2 (by omega)) (in_force _ _ 2 (by omega)) both_nil), both_nil,
        both_cons (in_force _ _ 2 (by omega)) (in_velCtl _ _ 2 (by omega)) (both_cons (in_pos _ _ 2 (by omega)) (in_forceCtl _ _ 2 (by omega)) both_nil)⟩
    · cases h
  case forceControl =>
    split at h
    · cases h
      exact ⟨both_cons (in_pos _ _ 2 (by omega)) (in_pos _ _ 2 (by omega)) (both_cons (in_pos _ _ 2 (by omega)) (in_force _ _ 2 (by omega))
        (both_cons (in_force _ _ 2 (by omega)) (in_pos _ _ 2 (by omega)) both_nil)), both_nil, both_nil⟩
    · cases h
  case classicalComplementarity =>
    split at h
    · cases h
      exact ⟨both_cons (in_force _ _ 2 (by omega)) (in_pos _ _ 2 (by omega)) (both_cons (in_pos _ _ 2 (by omega)) (in_force _ _ 2 (by omega)) both_nil), both_nil, both_nil⟩
    · cases h
  case friction =>
    split at h
    · cases h
      exact ⟨both_diag (inForce _ _) (inForce _ _), both_nil, both_nil⟩
    · cases h

section
variable {r : Ranges} (sv cv : List ℝ)

theorem matrix_declared {k : ℕ} (c : Constraint (Idx (SBlk n)) (Idx (CBlk n)) k) (hs : SparsityCovers c) (x : SVec n) (u : CVec n) (lam : Fin k → ℝ) :
    let H := hessiansOf r c x u lam
    (∀ i j, H.state i j ≠ 0 → H.stateDeclared i j) ∧ (∀ i j, H.control i j ≠ 0 → H.controlDeclared i j) ∧ (∀ i j, H.mixed i j ≠ 0 → H.mixedDeclared i j) := by
  refine ⟨fun i j h => ?_, fun i j h => ?_, fun i j h => ?_⟩
  · obtain ⟨p, h1, h2⟩ := vector_place (fun p => stateVectorOf r (c.stateHess x u lam (fun _ _ => 0) p) j) (i := i) h
    obtain ⟨q, h3, h4⟩ := vector_place _ h2
    exact ⟨p, q, hs.2.2.1 _ _ _ _ _ h4, place_column h1, place_column h3⟩
  · obtain ⟨p, h1, h2⟩ := vector_place' (fun p => controlVectorOf r (c.ctrlHess x u lam (fun _ _ => 0) p) j) (i := i) h
    obtain ⟨q, h3, h4⟩ := vector_place' _ h2
    exact ⟨p, q, hs.2.2.2.1 _ _ _ _ _ h4, place_column' h1, place_column' h3⟩
  · obtain ⟨p, h1, h2⟩ := vector_place (fun p => controlVectorOf r (c.mixedHess x u lam (fun _ _ => 0) p) j) (i := i) h
    obtain ⟨q, h3, h4⟩ := vector_place' _ h2
    exact ⟨p, q, hs.2.2.2.2 _ _ _ _ _ h4, place_column h1, place_column' h3⟩

theorem stack_declared (l : List (SolverM.Con ℝ)) (lam : ℕ → ℝ) :
    let H := stackHessians R r n l lam sv cv
    (∀ i j, H.state i j ≠ 0 → H.stateDeclared i j) ∧ (∀ i j, H.control i j ≠ 0 → H.controlDeclared i j) ∧ (∀ i j, H.mixed i j ≠ 0 → H.mixedDeclared i j) := by
  induction l generalizing lam with
  | nil => exact ⟨fun _ _ h => absurd rfl h, fun _ _ h => absurd rfl h, fun _ _ h => absurd rfl h⟩
  | cons k l ih =>
    cases hob : constraintObject n R k with
    | none => simp only [stackHessians, hob]; exact ih lam
    | some o =>
      simp only [stackHessians, hob]
      have ih := ih fun i => lam (o.1 + i)
      have key := matrix_declared (r := r) o.2 (object_sparsity R hob) (readState (n := n) r sv) (readControl (n := n) r cv) fun a => lam a
      have sum : ∀ {a b : ℝ}, a + b ≠ 0 → a ≠ 0 ∨ b ≠ 0 := fun {a b} h => by
        by_contra hn
        push Not at hn
        exact h (by rw [hn.1, hn.2, add_zero])
      exact ⟨fun i j h => (sum h).imp (key.1 i j) (ih.1 i j), fun i j h => (sum h).imp (key.2.1 i j) (ih.2.1 i j), fun i j h => (sum h).imp (key.2.2 i j) (ih.2.2 i j)⟩

theorem column_lt {p : Idx (SBlk n)} {i : ℕ} (h : StateColumn (rangesAt nj n) p i) (h3 : InState nj p) : i < 12 * n + 16 + nj := by
  obtain ⟨rg, h2, rfl⟩ := h
  obtain ⟨b, e⟩ := p
  unfold InState at h3
  cases b with
  | force f j => cases f <;> (simp [stateRange, rangesAt, footAt] at h2; subst h2; have := j.2; simp only [SolverM.stateSize] at h3; simp; omega)
  | pos f j => cases f <;> (simp [stateRange, rangesAt, footAt] at h2; subst h2; have := j.2; simp only [SolverM.stateSize] at h3; simp; omega)
  | _ => cases h2; simp only [SolverM.stateSize] at h3; simp [rangesAt]; omega

theorem column_lt' {p : Idx (CBlk n)} {i : ℕ} (h : ControlColumn (rangesAt nj n) p i) (h3 : InControl nj p) : i < 12 * n + 7 + nj := by
  obtain ⟨rg, h2, rfl⟩ := h
  obtain ⟨b, e⟩ := p
  unfold InControl at h3
  cases b with
  | forceCtl f j => cases f <;> (simp [controlRange, rangesAt, footAt] at h2; subst h2; have := j.2; simp only [SolverM.controlSize] at h3; simp; omega)
  | velCtl f j => cases f <;> (simp [controlRange, rangesAt, footAt] at h2; subst h2; have := j.2; simp only [SolverM.controlSize] at h3; simp; omega)
  | _ => cases h2; simp only [SolverM.controlSize] at h3; simp [rangesAt]; omega

theorem stack_inside (hr : r = rangesAt nj n) (l : List (SolverM.Con ℝ)) (lam : ℕ → ℝ) :
    let H := stackHessians R r n l lam sv cv
    (∀ i j, H.stateDeclared i j → i < 12 * n + 16 + nj ∧ j < 12 * n + 16 + nj) ∧ (∀ i j, H.controlDeclared i j → i < 12 * n + 7 + nj ∧ j < 12 * n + 7 + nj) ∧
      (∀ i j, H.mixedDeclared i j → i < 12 * n + 16 + nj ∧ j < 12 * n + 7 + nj) := by
  subst hr
  induction l generalizing lam with
  | nil => exact ⟨fun _ _ h => h.elim, fun _ _ h => h.elim, fun _ _ h => h.elim⟩
  | cons k l ih =>
    cases hob : constraintObject n R k with
    | none => simp only [stackHessians, hob]; exact ih lam
    | some o =>
      simp only [stackHessians, hob]
      have ih := ih fun i => lam (o.1 + i)
      obtain ⟨h1, h2, h3⟩ := object_inside R hob
      refine ⟨fun i j h => h.elim ?_ (ih.1 i j), fun i j h => h.elim ?_ (ih.2.1 i j), fun i j h => h.elim ?_ (ih.2.2 i j)⟩
      · rintro ⟨p, q, e, a, b⟩
        exact ⟨column_lt a (h1 _ e).1, column_lt b (h1 _ e).2⟩
      · rintro ⟨p, q, e, a, b⟩
        exact ⟨column_lt' a (h2 _ e).1, column_lt' b (h2 _ e).2⟩
      · rintro ⟨p, q, e, a, b⟩
        exact ⟨column_lt a (h3 _ e).1, column_lt' b (h3 _ e).2⟩

end

/-! ### The constraints of the problem -/

section
variable {st : ProblemSettings ℝ T}

theorem point_ready (hF : ∀ f, R.server.KeepsAxes (R.frame (SolverM.Spec.footFrame st f))) (hp : st.planarComplementarity ≠ .hyperbolicTangentInequality)
    (f : Foot) (i : ℕ) {k : SolverM.Con ℝ} (hk : k ∈ pointCons st f i) : HessReady R k := by
  simp only [pointCons, List.mem_append, List.mem_ite_nil_right, List.mem_cons, List.not_mem_nil, or_false] at hk
  rcases hk with (⟨h, rfl⟩ | ⟨-, rfl⟩) | (⟨-, rfl⟩ | ⟨-, rfl⟩ | ⟨-, rfl⟩) | rfl | rfl
  · exact absurd h hp
  all_goals first | trivial | exact hF f

theorem all_ready (hF : ∀ f, R.server.KeepsAxes (R.frame (SolverM.Spec.footFrame st f))) (hO : R.server.KeepsAxes (R.frame st.otherFrameNameForFeetDistance))
    (hp : st.planarComplementarity ≠ .hyperbolicTangentInequality) {k : SolverM.Con ℝ} (hk : k ∈ allCons st) : HessReady R k := by
  rcases List.mem_append.1 hk with hk | hk
  · simp only [globalCons, List.mem_cons, List.not_mem_nil, or_false] at hk
    rcases hk with rfl | rfl | rfl | rfl | rfl
    · trivial
    · trivial
    · exact hO
    · trivial
    · trivial
  · rcases List.mem_append.1 hk with hk | hk
    all_goals
      obtain ⟨i, hi, hk⟩ := List.mem_flatMap.1 hk
      exact point_ready R hF hp _ i hk

/-- C93: for any multipliers of the rows of C92, the three matrices handed to the optimiser have the second derivatives of the weighted sum of the rows, with respect to each pair of
entries of its vectors; the declared entries are enough, and inside the matrices. Partial: for frames turned with respect to their links (C66, C67) and for the planar constraints of
the hyperbolic tangent (C22) the second derivatives are wrong. -/
theorem C93_hessians_partial {accepts : List (SolverM.Con ℝ) → SolverM.Con ℝ → Bool} {l : List (SolverM.Con ℝ)} (h : setConstraints accepts st = some l)
    {ls lc ls' lc' : Labeller ℝ} {r : Ranges} (hv : setVariablesStructure ls lc nj n = some (ls', lc', r)) (hM : Spec.mass m ≠ 0) (hm : m.Regular)
    {cfg : Levi.Ex.Cfg ℝ} (hcfg : Levi.Spec.Sound cfg) (hR : R.rot.Made cfg) (hE : R.norm.Made cfg) (ho : ∀ t, t ∈ R.order) (ho' : ∀ t, t ∈ R.order')
    (hF : ∀ f, R.server.KeepsAxes (R.frame (SolverM.Spec.footFrame st f))) (hO : R.server.KeepsAxes (R.frame st.otherFrameNameForFeetDistance))
    (hp : st.planarComplementarity ≠ .hyperbolicTangentInequality)
    {s : State ℝ} {c : Control ℝ} (q : V4 ℝ) (hq : Spec.quat q ≠ 0) (hs : StateSize nj n s) (hc : ControlSize nj n c) (lam : ℕ → ℝ) :
    let H := stackHessians R r n l lam (stateVector s q) (controlVector c)
    let W := fun v w => some (((stack R r n l v w).mapIdx fun a row => lam a * row.value).sum)
    (Spec.SecondDerivatives (fun v => W v (controlVector c)) (stateVector s q) H.state ∧
      Spec.SecondDerivatives (fun w => W (stateVector s q) w) (controlVector c) H.control ∧
      Spec.MixedDerivatives W (stateVector s q) (controlVector c) H.mixed) ∧
    ((∀ i j, H.state i j ≠ 0 → H.stateDeclared i j) ∧ (∀ i j, H.control i j ≠ 0 → H.controlDeclared i j) ∧ (∀ i j, H.mixed i j ≠ 0 → H.mixedDeclared i j)) ∧
    (∀ i j, H.stateDeclared i j → i < 12 * n + 16 + nj ∧ j < 12 * n + 16 + nj) ∧ (∀ i j, H.controlDeclared i j → i < 12 * n + 7 + nj ∧ j < 12 * n + 7 + nj) ∧
      (∀ i j, H.mixedDeclared i j → i < 12 * n + 16 + nj ∧ j < 12 * n + 7 + nj) := by
  have hL := labels hv
  have hre := ranges_eq hv
  obtain ⟨-, -, rfl⟩ := (setConstraints_iff l).1 h
  exact ⟨stack_hessians R hL _ _ (state_len q hs) (control_len hc) hcfg hR hE ho ho' hm hM (by rw [hre, read_quat q hs]; exact hq) (allCons st)
      (fun k hk => all_ready R hF hO hp hk) lam, stack_declared R _ _ _ lam, stack_inside R _ _ hre _ lam⟩

end

section Examples
open Sample
variable (leftover : Leftover 1) (stored : V3 ℝ) (k : Settings.ComplementarityType)

/-- The hypotheses of C93 hold for the robot with two legs, with each of the mechanisms for the forces, when all the evaluations are written. -/
example (labels : Labeller ℝ) {cfg : Levi.Ex.Cfg ℝ} (hcfg : Levi.Spec.Sound cfg) : ∃ rot norm order order' l ls' lc' r,
    setConstraints SolverM.Spec.ocpConstraints (settings k .classical) = some l ∧ setVariablesStructure labels labels 1 1 = some (ls', lc', r) ∧ ∀ z w φ ψ lam,
      Spec.SecondDerivatives (fun v => some (((stack (objects rot norm order order' leftover stored) r 1 l v (controlVector (Sample.control w ψ))).mapIdx
          fun a row => lam a * row.value).sum)) (stateVector (Sample.state z w φ) upright)
        (stackHessians (objects rot norm order order' leftover stored) r 1 l lam (stateVector (Sample.state z w φ) upright) (controlVector (Sample.control w ψ))).state := by
  obtain ⟨rot, hR⟩ := C65_expressions_exist hcfg
  obtain ⟨norm, hE⟩ := C64_expressions_exist hcfg
  obtain ⟨l, hl⟩ := Option.isSome_iff_exists.1 ((C54_constraints_set_iff (st := settings k .classical)).2 (sample_ready k .classical))
  obtain ⟨a, b, e, -⟩ := structure_ok labels labels 1 1
  refine ⟨rot, norm, [.jointsJoints, .quatQuat, .quatJoints], [.jointsJointsVel, .quatLinVel, .quatQuatVel, .quatJointsVel, .jointsLinVel, .jointsQuatVel], l, a, b, _, hl, e,
    fun z w φ ψ lam => ?_⟩
  exact (C93_hessians_partial (objects rot norm _ _ leftover stored) hl e mass_ne biped_regular hcfg hR hE (fun t => by cases t <;> simp [objects]) (fun t => by cases t <;> simp [objects])
    (Sample.feet_keep norm _ _ leftover stored k .classical rot) (Server.keepsAxes_ofLink server 0) (by simp [settings]) upright
    (by intro h; simpa [Spec.quat, upright] using congrFun h 0) (state_size z w φ) (control_size w ψ) lam).1.1

/-- An entry that is not zero: the second derivative of the norm of the quaternion, with respect to its first entry (the entry 24 of the state with one point and one joint). -/
example (rot : RotExprs) (norm : NormExprs) (order : List StateTask) (order' : List MixedTask) (lam : ℕ → ℝ) (v w : List ℝ) :
    (stackHessians (objects rot norm order order' leftover stored) (rangesAt 1 1) 1 [.quaternionNorm 0 0] lam v w).state 24 24 = 2 * lam 0 := by
  obtain ⟨a, b, e, -⟩ := structure_ok (⟨[], [], []⟩ : Labeller ℝ) (⟨[], [], []⟩ : Labeller ℝ) 1 1
  have hL := labels e
  have hp : StatePlace (n := 1) (rangesAt 1 1) (.baseQuat, 0) 24 := (statePlace_iff _ _).2 ⟨by simp [SolverM.stateSize], _, rfl, rfl⟩
  simp only [stackHessians, constraintObject, hessiansOf, stateMatrixOf, stateVectorOf_at hL (by norm_num : 24 < 12 * 1 + 16 + 1) hp, add_zero]
  simp [withBounds, quaternionNorm, put]

end Examples

end
end Verif.Plan
