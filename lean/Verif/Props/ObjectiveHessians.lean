import Verif.Model.ObjectiveHessians
import Verif.Props.ConstraintHessians
/- C94: the second derivatives of the objective handed to the optimiser. -/
set_option linter.unusedSectionVars false
set_option linter.unusedSimpArgs false
namespace Verif.Plan
open NLP NLP.Kin SolverM StateM Rigid Matrix Filter
open NLP.Spec (GradAt HessAt MixedAt HessNear MixedNear ExactCostHessians CostSparsityCovers)
open NLP.Dynamics (quatOf)
open Labeller (Labeller Range)
open SolverM.Spec (stateVector controlVector StateSize ControlSize)
noncomputable section
variable {n nj : ℕ} {L F T : Type} [DecidableEq L] [DecidableEq F] {m : Model L (Fin nj)} (R : CostObjects m F) (Q : Readings T) (t : ℝ)

/-! ### Scaling -/

theorem partial_mul (c : ℝ) {G : List ℝ → Option ℝ} {v : List ℝ} {i : ℕ} {d : ℝ} (h : Spec.PartialDerivative G v i d)
    {S : List ℝ → Option ℝ} (hS : ∀ v a, G v = some a → S v = some (c * a)) : Spec.PartialDerivative S v i (c * d) := by
  obtain ⟨f, h1, h2⟩ := h
  exact ⟨fun a => c * f a, fun a => hS _ _ (h1 a), h2.const_mul c⟩

theorem second_mul (c : ℝ) {G : List ℝ → Option ℝ} {v : List ℝ} {H : ℕ → ℕ → ℝ} (h : Spec.SecondDerivatives G v H)
    {S : List ℝ → Option ℝ} (hS : ∀ v a, G v = some a → S v = some (c * a)) : Spec.SecondDerivatives S v fun i j => c * H i j := by
  obtain ⟨g, ⟨ε, hε, h1⟩, h2⟩ := h
  exact ⟨fun v i => c * g v i, ⟨ε, hε, fun v' hv' i hi => partial_mul c (h1 v' hv' i hi) hS⟩,
    fun i hi j hj => partial_mul c (h2 i hi j hj) fun v a ha => by rw [← Option.some.inj ha]⟩

theorem mixed_mul (c : ℝ) {G : List ℝ → List ℝ → Option ℝ} {v w : List ℝ} {H : ℕ → ℕ → ℝ} (h : Spec.MixedDerivatives G v w H)
    {S : List ℝ → List ℝ → Option ℝ} (hS : ∀ v w a, G v w = some a → S v w = some (c * a)) : Spec.MixedDerivatives S v w fun i j => c * H i j := by
  obtain ⟨g, h1, h2⟩ := h
  exact ⟨fun v i => c * g v i, fun w' hw' i hi => partial_mul c (h1 w' hw' i hi) fun v a => hS v w' a,
    fun i hi j hj => partial_mul c (h2 i hi j hj) fun v a ha => by rw [← Option.some.inj ha]⟩

/-! ### What is right of the matrices -/

/-- The matrices are the second derivatives, the declared entries are enough, and inside. -/
def HessiansRight (n nj : ℕ) (sv cv : List ℝ) (G : List ℝ → List ℝ → Option ℝ) (H : Hessians) : Prop :=
  (Spec.SecondDerivatives (fun v => G v cv) sv H.state ∧ Spec.SecondDerivatives (fun w => G sv w) cv H.control ∧ Spec.MixedDerivatives G sv cv H.mixed) ∧
  ((∀ i j, H.state i j ≠ 0 → H.stateDeclared i j) ∧ (∀ i j, H.control i j ≠ 0 → H.controlDeclared i j) ∧ (∀ i j, H.mixed i j ≠ 0 → H.mixedDeclared i j)) ∧
  (∀ i j, H.stateDeclared i j → i < 12 * n + 16 + nj ∧ j < 12 * n + 16 + nj) ∧ (∀ i j, H.controlDeclared i j → i < 12 * n + 7 + nj ∧ j < 12 * n + 7 + nj) ∧
    (∀ i j, H.mixedDeclared i j → i < 12 * n + 16 + nj ∧ j < 12 * n + 7 + nj)

/-- The declared entries of the second derivatives are inside their ranges. -/
def CostInside (nj : ℕ) (c : NLP.Cost (Idx (SBlk n)) (Idx (CBlk n))) : Prop :=
  Both (InState nj) (InState nj) c.stateHessPat ∧ Both (InControl nj) (InControl nj) c.ctrlHessPat ∧ Both (InState nj) (InControl nj) c.mixedHessPat

/-- The three matrices of a cost are right. -/
def CostNear (c : NLP.Cost (Idx (SBlk n)) (Idx (CBlk n))) (x : SVec n) (u : CVec n) : Prop :=
  HessNear (fun y => c.value y u) (c.stateHess x u fun _ _ => 0) x ∧ HessNear (fun v => c.value x v) (c.ctrlHess x u fun _ _ => 0) u ∧
    MixedNear (fun y v => c.value y v) (c.mixedHess x u fun _ _ => 0) x u

theorem costNear_of_exact {c : NLP.Cost (Idx (SBlk n)) (Idx (CBlk n))} (h : ExactCostHessians c) (x : SVec n) (u : CVec n) : CostNear c x u :=
  ⟨near_of_at (h x u).1, near_of_at (h x u).2.1, mixed_of_at (h x u).2.2⟩

variable {r : Ranges} (hL : Labels r n nj) (hr : r = rangesAt nj n) (sv cv : List ℝ) (hsv : sv.length = 12 * n + 16 + nj) (hcv : cv.length = 12 * n + 7 + nj)

theorem cost_declared (c : NLP.Cost (Idx (SBlk n)) (Idx (CBlk n))) (hs : CostSparsityCovers c) (x : SVec n) (u : CVec n) :
    let H := costHessians r c x u
    (∀ i j, H.state i j ≠ 0 → H.stateDeclared i j) ∧ (∀ i j, H.control i j ≠ 0 → H.controlDeclared i j) ∧ (∀ i j, H.mixed i j ≠ 0 → H.mixedDeclared i j) := by
  refine ⟨fun i j h => ?_, fun i j h => ?_, fun i j h => ?_⟩
  · obtain ⟨p, h1, h2⟩ := vector_place (fun p => stateVectorOf r (c.stateHess x u (fun _ _ => 0) p) j) (i := i) h
    obtain ⟨q, h3, h4⟩ := vector_place _ h2
    exact ⟨p, q, hs.1 _ _ _ _ h4, place_column h1, place_column h3⟩
  · obtain ⟨p, h1, h2⟩ := vector_place' (fun p => controlVectorOf r (c.ctrlHess x u (fun _ _ => 0) p) j) (i := i) h
    obtain ⟨q, h3, h4⟩ := vector_place' _ h2
    exact ⟨p, q, hs.2.1 _ _ _ _ h4, place_column' h1, place_column' h3⟩
  · obtain ⟨p, h1, h2⟩ := vector_place (fun p => controlVectorOf r (c.mixedHess x u (fun _ _ => 0) p) j) (i := i) h
    obtain ⟨q, h3, h4⟩ := vector_place' _ h2
    exact ⟨p, q, hs.2.2 _ _ _ _ h4, place_column h1, place_column' h3⟩

section
include hL hr hsv hcv

theorem cost_right (c : NLP.Cost (Idx (SBlk n)) (Idx (CBlk n))) (h : CostNear c (readState r sv) (readControl r cv)) (hs : CostSparsityCovers c) (hi : CostInside nj c)
    {H : Hessians} (hH : H = costHessians r c (readState r sv) (readControl r cv)) {G : List ℝ → List ℝ → Option ℝ}
    (hG : ∀ v w, G v w = some (c.value (readState r v) (readControl r w))) : HessiansRight n nj sv cv G H := by
  subst hH
  refine ⟨⟨second_state hL sv hsv _ _ h.1 fun v => hG v cv, second_control hL cv hcv _ _ h.2.1 fun w => hG sv w, second_mixed hL sv cv hsv hcv _ _ h.2.2 hG⟩,
    cost_declared c hs _ _, ?_, ?_, ?_⟩
  all_goals
    subst hr
    rintro i j ⟨p, q, e, a, b⟩
  · exact ⟨column_lt a (hi.1 _ e).1, column_lt b (hi.1 _ e).2⟩
  · exact ⟨column_lt' a (hi.2.1 _ e).1, column_lt' b (hi.2.1 _ e).2⟩
  · exact ⟨column_lt a (hi.2.2 _ e).1, column_lt' b (hi.2.2 _ e).2⟩

end

/-! ### The norms -/

theorem normGradient_at (w x ref : List ℝ) (k : ℕ) (h1 : k < x.length) (h2 : k < ref.length) : (normGradient w x ref).getD k 0 = w.getD k 0 * (x.getD k 0 - ref.getD k 0) := by
  unfold normGradient
  simp only [List.getD_eq_getElem?_getD, List.getElem?_zipWith, List.getElem?_eq_getElem h1, List.getElem?_eq_getElem h2, List.zip]
  cases w[k]? <;> simp

theorem segmentOf_at (rg : Range) (v : List ℝ) (k : ℕ) (hk : k < rg.size) : (segmentOf rg v).getD k 0 = v.getD (rg.offset + k) 0 := by
  simp [segmentOf, List.getD_eq_getElem?_getD, List.getElem?_take, hk]

theorem segment_second (cp : Bool) (w ref : List ℝ) (rg : Range) (v : List ℝ) (hr : ref.length = rg.size) (hv : rg.offset + rg.size ≤ v.length)
    {G : List ℝ → Option ℝ} (hG : ∀ v', G v' = some (normValue cp w (segmentOf rg v') ref)) : Spec.SecondDerivatives G v (segmentHessian rg w) := by
  refine ⟨fun v' => segmentGradient rg (normGradient w (segmentOf rg v') ref), ⟨1, one_pos, fun v' hv' i hi => ⟨_, fun a => hG _, segment_deriv cp w rg v' ref hr (by rw [hv'.1]; exact hv) i⟩⟩,
    fun i hi j hj => ⟨fun a => segmentGradient rg (normGradient w (segmentOf rg (v.set j a)) ref) i, fun a => rfl, ?_⟩⟩
  by_cases hs : rg.offset ≤ i ∧ i < rg.offset + rg.size
  · have hk : i - rg.offset < rg.size := by omega
    have e : (fun a => segmentGradient rg (normGradient w (segmentOf rg (v.set j a)) ref) i) =
        fun a => w.getD (i - rg.offset) 0 * ((v.set j a).getD i 0 - ref.getD (i - rg.offset) 0) := by
      funext a
      have hlen : i - rg.offset < (segmentOf rg (v.set j a)).length := by simp [segmentOf]; omega
      unfold segmentGradient
      rw [if_pos hs, normGradient_at _ _ _ _ hlen (by omega), segmentOf_at _ _ _ hk, Nat.add_sub_cancel' hs.1]
    rw [e]
    unfold segmentHessian
    by_cases hij : i = j
    · subst hij
      rw [if_pos ⟨rfl, hs⟩]
      have e' : (fun a : ℝ => w.getD (i - rg.offset) 0 * ((v.set i a).getD i 0 - ref.getD (i - rg.offset) 0)) = fun a => w.getD (i - rg.offset) 0 * (a - ref.getD (i - rg.offset) 0) := by
        funext a
        rw [List.getD_eq_getElem?_getD (l := v.set i a), List.getElem?_set_self (by omega)]
        rfl
      rw [e']
      simpa using ((hasDerivAt_id (v.getD i 0)).sub_const (ref.getD (i - rg.offset) 0)).const_mul (w.getD (i - rg.offset) 0)
    · rw [if_neg fun h => hij h.1]
      have e' : (fun a : ℝ => w.getD (i - rg.offset) 0 * ((v.set j a).getD i 0 - ref.getD (i - rg.offset) 0)) =
          fun a => w.getD (i - rg.offset) 0 * (v.getD i 0 - ref.getD (i - rg.offset) 0) := by
        funext a
        rw [List.getD_eq_getElem?_getD (l := v.set j a), List.getElem?_set_ne (Ne.symm hij), ← List.getD_eq_getElem?_getD]
      rw [e']
      exact hasDerivAt_const _ _
  · have e : (fun a => segmentGradient rg (normGradient w (segmentOf rg (v.set j a)) ref) i) = fun _ => 0 := by
      funext a
      exact if_neg hs
    rw [e]
    unfold segmentHessian
    rw [if_neg fun h => hs h.2]
    exact hasDerivAt_const _ _

theorem segment_declared (rg : Range) (w : List ℝ) (i j : ℕ) (h : segmentHessian rg w i j ≠ 0) : segmentDeclared rg i j := by
  unfold segmentHessian at h
  split_ifs at h with hs
  · obtain ⟨rfl, h1⟩ := hs
    exact ⟨h1, h1⟩
  · exact absurd rfl h

theorem constant_second (N : ℕ) (v : List ℝ) {G : List ℝ → Option ℝ} {c : ℝ} (hG : ∀ v', G v' = some c) : Spec.SecondDerivatives G v fun _ _ => 0 := by
  obtain rfl : G = fun _ => some c := funext hG
  exact second_const c v

theorem mixed_separate {G : List ℝ → List ℝ → Option ℝ} {v w : List ℝ} {f g : List ℝ → ℝ} (hG : ∀ v' w', G v' w' = some (f v' + g w'))
    {d : ℕ → ℝ} (hf : ∀ i < v.length, Spec.PartialDerivative (fun v' => some (f v')) v i (d i)) : Spec.MixedDerivatives G v w fun _ _ => 0 := by
  refine ⟨fun _ => d, fun w' _ i hi => ?_, fun i hi j hj => partial_const _ _ _⟩
  obtain ⟨a, h1, h2⟩ := hf i hi
  exact ⟨fun b => a b + g w', fun b => by dsimp only; rw [hG, Option.some.inj (h1 b)], h2.add_const _⟩

section
include hsv hcv

theorem stateNorm_right (cp : Bool) (w ref : List ℝ) (rg : Range) (hr : ref.length = rg.size) (hv : rg.offset + rg.size ≤ 12 * n + 16 + nj) {G : List ℝ → List ℝ → Option ℝ}
    (hG : ∀ v u, G v u = some (normValue cp w (segmentOf rg v) ref)) : HessiansRight n nj sv cv G (stateNormHessians rg w) := by
  refine ⟨⟨segment_second cp w ref rg sv hr (by omega) fun v => hG v cv, constant_second 0 cv fun w => hG sv w, ?_⟩,
    ⟨fun i j h => segment_declared rg w i j h, fun _ _ h => absurd rfl h, fun _ _ h => absurd rfl h⟩, ?_, fun _ _ h => h.elim, fun _ _ h => h.elim⟩
  · exact mixed_separate (f := fun v => normValue cp w (segmentOf rg v) ref) (g := fun _ => 0) (fun v u => by rw [hG, add_zero])
      fun i hi => ⟨_, fun a => rfl, segment_deriv cp w rg sv ref hr (by omega) i⟩
  · rintro i j ⟨h1, h2⟩
    omega

theorem controlNorm_right (cp : Bool) (w ref : List ℝ) (rg : Range) (hr : ref.length = rg.size) (hv : rg.offset + rg.size ≤ 12 * n + 7 + nj) {G : List ℝ → List ℝ → Option ℝ}
    (hG : ∀ v u, G v u = some (normValue cp w (segmentOf rg u) ref)) : HessiansRight n nj sv cv G (controlNormHessians rg w) := by
  refine ⟨⟨constant_second 0 sv fun v => hG v cv, segment_second cp w ref rg cv hr (by omega) fun w => hG sv w, ?_⟩,
    ⟨fun _ _ h => absurd rfl h, fun i j h => segment_declared rg w i j h, fun _ _ h => absurd rfl h⟩, fun _ _ h => h.elim, ?_, fun _ _ h => h.elim⟩
  · exact mixed_separate (f := fun _ => 0) (g := fun u => normValue cp w (segmentOf rg u) ref) (fun v u => by rw [hG, zero_add]) (d := fun _ => 0) fun i hi => partial_const _ _ _
  · rintro i j ⟨h1, h2⟩
    omega

end

/-! ### The declared entries are inside the ranges -/

theorem both_flatMap {α β γ : Type} {f : α → Prop} {g : β → Prop} {l : List γ} {a : γ → List (α × β)} (h : ∀ x ∈ l, Both f g (a x)) : Both f g (l.flatMap a) := fun e he => by
  obtain ⟨x, hx, hx'⟩ := List.mem_flatMap.1 he
  exact h x hx e hx'
theorem both_if {α β : Type} {f : α → Prop} {g : β → Prop} {c : Bool} {a : List (α × β)} (h : Both f g a) : Both f g (if c then a else []) := by
  cases c
  exacts [both_nil, h]

theorem inPos (s : Side) (i : Fin n) (k : ℕ) (h : k ≤ 3) : ∀ p ∈ seg (SBlk.pos s i) 0 k, InState nj p := seg_in h
theorem inForces (s : Side) (i : Fin n) (k : ℕ) (h : k ≤ 3) : ∀ p ∈ seg (SBlk.force s i) 0 k, InState nj p := seg_in h
theorem inVelCtl (s : Side) (i : Fin n) : ∀ p ∈ seg (CBlk.velCtl s i) 0 3, InControl nj p := seg_in' le_rfl
theorem inPos2 (s : Side) (i : Fin n) : ∀ p ∈ seg (SBlk.pos s i) 2 1, InState nj p := fun _ hp => seg_state hp (le_refl 3)

theorem swing_inside (s : Side) (i : Fin n) (h : ℝ) (w : V3 ℝ) : CostInside nj (swing s i h w) :=
  ⟨both_cons (in_pos s i 2 (by omega)) (in_pos s i 2 (by omega)) both_nil, both_diag (inVelCtl s i) (inVelCtl s i), both_dense (inPos2 s i) (inVelCtl s i)⟩

theorem complementarity_inside (s : Side) (i : Fin n) : CostInside nj (complementarityCost s i) :=
  ⟨both_cons (in_force s i 2 (by omega)) (in_force s i 2 (by omega)) both_nil, both_cons (in_velCtl s i 2 (by omega)) (in_velCtl s i 2 (by omega)) both_nil,
    both_cons (in_force s i 2 (by omega)) (in_velCtl s i 2 (by omega)) both_nil⟩

theorem forceMean_inside (s : Side) (i : Fin n) : CostInside nj (forceMean s i) := by
  have h : ∀ j : Fin n, ∀ p ∈ seg (SBlk.force s j) 0 2, InState nj p := fun j => inForces s j 2 (by omega)
  exact ⟨both_append (both_append (both_diag (h i) (h i)) (both_flatMap fun j _ => both_append (both_diag (h i) (h j)) (both_diag (h j) (h i))))
    (both_flatMap fun e _ => both_append (both_diag (h _) (h _)) (both_if (both_diag (h _) (h _)))), both_nil, both_nil⟩

theorem forceRatio_inside (s : Side) (i : Fin n) (r : ℝ) : CostInside nj (forceRatio s i r) := by
  have h : ∀ j : Fin n, InState nj (SBlk.force s j, 2) := fun j => in_force s j 2 (by omega)
  exact ⟨both_append (both_append (both_cons (h i) (h i) both_nil) (both_flatMap fun j _ => both_cons (h i) (h j) (both_cons (h j) (h i) both_nil)))
    (both_flatMap fun e _ => both_cons (h _) (h _) (both_if (both_cons (h _) (h _) both_nil))), both_nil, both_nil⟩

theorem meanPoint_inside (d w : V3 ℝ) : CostInside nj (meanPointPosition (n := n) d w) :=
  ⟨both_flatMap fun e _ => both_append (both_diag (inPos _ _ 3 le_rfl) (inPos _ _ 3 le_rfl)) (both_if (both_diag (inPos _ _ 3 le_rfl) (inPos _ _ 3 le_rfl))), both_nil, both_nil⟩

theorem feetDistance_inside : CostInside nj (feetDistance (n := n)) :=
  ⟨both_flatMap fun e _ => both_append (both_diag (inPos _ _ 3 le_rfl) (inPos _ _ 3 le_rfl)) (both_if (both_diag (inPos _ _ 3 le_rfl) (inPos _ _ 3 le_rfl))), both_nil, both_nil⟩

theorem jointsPostural_inside (w g d : ℕ → ℝ) : CostInside nj (jointsPostural (n := n) nj w g d) :=
  ⟨both_diag inJoints inJoints, both_diag inJointVel inJointVel, both_diag inJoints inJointVel⟩

theorem footYaw_inside (s : Side) (br tr tl : Fin n) (i d : ℝ) : CostInside nj (footYaw s br tr tl i d) := by
  have h : ∀ j : Fin n, ∀ p ∈ seg (SBlk.pos s j) 0 2, InState nj p := fun j => inPos s j 2 (by omega)
  have d : ∀ j k : Fin n, Both (InState nj) (InState nj) (dense (seg (SBlk.pos s j) 0 2) (seg (SBlk.pos s k) 0 2)) := fun j k => both_dense (h j) (h k)
  exact ⟨both_append (both_append (both_append (both_append (both_append (both_append (d _ _) (d _ _)) (d _ _)) (d _ _)) (d _ _)) (d _ _)) (d _ _), both_nil, both_nil⟩

theorem orientation_inside (c : Orientation m F) (E : NormExprs) (left : Leftover nj) (w : ℝ) (Rd : Matrix (Fin 3) (Fin 3) ℝ) : CostInside nj (c.cost (n := n) E left w Rd) :=
  ⟨both_append (both_append (both_append (both_dense inQuat inQuat) (both_dense inQuat inJoints)) (both_dense inJoints inQuat)) (both_dense inJoints inJoints), both_nil, both_nil⟩

/-! ### The costs -/

/-- What the second derivatives of a cost need. -/
def SecondReady (x : SVec n) : Body ℝ T → Prop
  | .frameOrientation frame ref w => BodyReady (n := n) R Q t x (.frameOrientation frame ref w) ∧
    ∀ Rd, setOr Q.rotation 1 ref t = some Rd → Quaternion.rotationFromQuaternion (R.asQuaternion Rd) = Rd
  | .staticTorques _ _ _ _ _ => False
  | .frameAngularVelocity _ _ _ => False
  | .phantomForces _ => False
  | b => BodyReady (n := n) R Q t x b

/-- There is no value, or the matrices are right. -/
def HessRight (n : ℕ) (r : Ranges) (sv cv : List ℝ) (k : SolverM.Cost) (b : Body ℝ T) : Prop :=
  (∀ v w, evalBody R Q (readState (n := n) r v) (readControl (n := n) r w) v w t k b = none) ∨
  ∃ H, hessBody R Q r (readState (n := n) r sv) (readControl (n := n) r cv) t k b = some H ∧
    HessiansRight n nj sv cv (fun v w => evalBody R Q (readState (n := n) r v) (readControl (n := n) r w) v w t k b) H

section
include hsv hcv

theorem norms_hess (k : SolverM.Cost) (rg : Range) (w : Option (List ℝ)) (ref : Option T) :
    (rg.offset + rg.size ≤ 12 * n + 16 + nj → HessRight R Q t n r sv cv k (.stateNorm rg w ref)) ∧
    (rg.offset + rg.size ≤ 12 * n + 7 + nj → HessRight R Q t n r sv cv k (.controlNorm rg w ref)) ∧
    (rg.offset + rg.size ≤ 12 * n + 16 + nj ∧ rg.size = 3 → HessRight R Q t n r sv cv k (.linearMomentumNorm rg w ref)) := by
  refine ⟨fun h => ?_, fun h => ?_, fun h => ?_⟩
  · cases e : normReference Q rg.size t ref with
    | none => left; cases k <;> simp [evalBody, e]
    | some v =>
      refine Or.inr ⟨_, by cases k <;> rfl, stateNorm_right sv cv hsv hcv R.constantPart _ v rg (reference_len Q t e) h fun v u => by cases k <;> simp [evalBody, e]⟩
  · cases e : normReference Q rg.size t ref with
    | none => left; cases k <;> simp [evalBody, e]
    | some v =>
      refine Or.inr ⟨_, by cases k <;> rfl, controlNorm_right sv cv hsv hcv R.constantPart _ v rg (reference_len Q t e) h fun v u => by cases k <;> simp [evalBody, e]⟩
  · cases e : momentumReference Q (Dynamics.totalMass (m.links.map fun k => (m.inertia k).mass)) rg.size t ref with
    | none => left; cases k <;> simp [evalBody, e]
    | some v =>
      refine Or.inr ⟨_, by cases k <;> rfl, stateNorm_right sv cv hsv hcv R.constantPart _ v rg (momentum_len Q t h.2 e) h.1 fun v u => by cases k <;> simp [evalBody, e]⟩

end

section
include hL hr hsv hcv

theorem body_hess {k : SolverM.Cost} {b : Body ℝ T} (c : NLP.Cost (Idx (SBlk n)) (Idx (CBlk n))) (h : CostNear c (readState r sv) (readControl r cv)) (hs : CostSparsityCovers c)
    (hi : CostInside nj c) (hg : hessBody R Q r (readState (n := n) r sv) (readControl (n := n) r cv) t k b = some (costHessians r c (readState r sv) (readControl r cv)))
    (he : ∀ v w, evalBody R Q (readState (n := n) r v) (readControl (n := n) r w) v w t k b = some (c.value (readState r v) (readControl r w))) :
    HessRight R Q t n r sv cv k b :=
  Or.inr ⟨_, hg, cost_right hL hr sv cv hsv hcv c h hs hi rfl he⟩

theorem points_hess (f : Foot) (i : ℕ) : HessRight R Q t n r sv cv (.forceMean f i) .forceMean ∧
    (∀ ratio, HessRight R Q t n r sv cv (.forceRatio f i) (.forceRatio ratio)) ∧
    (∀ height weights, HessRight R Q t n r sv cv (.swing f i) (.swing height weights)) ∧
    HessRight R Q t n r sv cv (.complementarity f i) .complementarity := by
  by_cases h : i < n
  · exact ⟨body_hess R Q t hL hr sv cv hsv hcv _ (costNear_of_exact (forceMean_hess (side f) ⟨i, h⟩) _ _) (forceMean_sparsity _ _) (forceMean_inside _ _)
        (by simp [hessBody, h]) (by simp [evalBody, h]),
      fun a => body_hess R Q t hL hr sv cv hsv hcv _ (costNear_of_exact (forceRatio_hess (side f) ⟨i, h⟩ a) _ _) (forceRatio_sparsity _ _ _) (forceRatio_inside _ _ _)
        (by simp [hessBody, h]) (by simp [evalBody, h]),
      fun a b => body_hess R Q t hL hr sv cv hsv hcv _ (costNear_of_exact (swing_hess (side f) ⟨i, h⟩ a b) _ _) (swing_sparsity _ _ _ _) (swing_inside _ _ _ _)
        (by simp [hessBody, h]) (by simp [evalBody, h]),
      body_hess R Q t hL hr sv cv hsv hcv _ (costNear_of_exact (complementarityCost_hess (side f) ⟨i, h⟩) _ _) (complementarityCost_sparsity _ _) (complementarity_inside _ _)
        (by simp [hessBody, h]) (by simp [evalBody, h])⟩
  · exact ⟨Or.inl (by simp [evalBody, h]), fun _ => Or.inl (by simp [evalBody, h]), fun _ _ => Or.inl (by simp [evalBody, h]), Or.inl (by simp [evalBody, h])⟩

theorem mean_hess (reference weight : Option T) : HessRight R Q t n r sv cv .meanPointPosition (.meanPointPosition reference weight) := by
  cases e1 : setOr Q.position ⟨0, 0, 0⟩ reference t with
  | none => exact Or.inl (by simp [evalBody, e1])
  | some d =>
    cases e2 : setOr Q.vector [1, 1, 1] weight t with
    | none => exact Or.inl (by simp [evalBody, e1, e2])
    | some w =>
      match w, e2 with
      | [], e2 | [_], e2 | [_, _], e2 | _ :: _ :: _ :: _ :: _, e2 => exact Or.inl (by simp [evalBody, e1, e2])
      | [a, b, c], e2 =>
        exact body_hess R Q t hL hr sv cv hsv hcv _ (costNear_of_exact (meanPoint_hess d ⟨a, b, c⟩) _ _) (meanPoint_sparsity _ _) (meanPoint_inside _ _)
          (by simp only [hessBody, e2]; rfl) (by simp [evalBody, e1, e2])

theorem yaw_hess (f : Foot) (points : List (V3 ℝ)) (reference : Option T) : HessRight R Q t n r sv cv (.footYaw f) (.footYaw points reference) := by
  cases h1 : (corners points).bottomRight with
  | none => exact Or.inl (by simp [evalBody, h1])
  | some br =>
    cases h2 : (corners points).topRight with
    | none => exact Or.inl (by simp [evalBody, h1, h2])
    | some tr =>
      cases h3 : (corners points).topLeft with
      | none => exact Or.inl (by simp [evalBody, h1, h2, h3])
      | some tl =>
        by_cases h : br < n ∧ tr < n ∧ tl < n
        · cases e : setOr Q.number 0 reference t with
          | none => exact Or.inl (by simp [evalBody, h1, h2, h3, h, e])
          | some yaw =>
            exact body_hess R Q t hL hr sv cv hsv hcv _
              (costNear_of_exact (C39_derivatives points (side f) ⟨br, h.1⟩ ⟨tr, h.2.1⟩ ⟨tl, h.2.2⟩ _ yaw h1 h2 h3).2.2.2.2 _ _) (footYaw_sparsity _ _ _ _ _ _) (footYaw_inside _ _ _ _ _ _)
              (by simp only [hessBody, h1, h2, h3, dif_pos h, e]; rfl) (fun v w => by simp only [evalBody, h1, h2, h3, dif_pos h, e]; rfl)
        · exact Or.inl (by simp only [evalBody, h1, h2, h3, dif_neg h]; simp)

theorem postural_hess (weights gains : List ℝ) (reference : Option T) :
    HessRight R Q t n r sv cv .jointsVelocityForPostural (.jointsVelocityForPostural weights gains reference) := by
  cases reference with
  | none => exact Or.inl (by simp [evalBody])
  | some o =>
    cases e : Q.vector o t with
    | none => exact Or.inl (by simp [evalBody, e])
    | some d =>
      by_cases h : d.length = nj
      · exact body_hess R Q t hL hr sv cv hsv hcv _
          (costNear_of_exact (jointsPostural_hess nj (fun k => weights.getD k 0) (fun k => gains.getD k 0) (fun k => d.getD k 0)) _ _) (jointsPostural_sparsity _ _ _ _)
          (jointsPostural_inside _ _ _) rfl (by simp [evalBody, e, h])
      · exact Or.inl (by simp [evalBody, e, h])

theorem feet_hess : HessRight R Q t n r sv cv .feetDistance .feetDistance :=
  body_hess R Q t hL hr sv cv hsv hcv _ (costNear_of_exact feetDistance_hess _ _) feetDistance_sparsity feetDistance_inside (by simp [hessBody]) (by simp [evalBody])

variable (hm : m.Regular) (hx : quatOf (readState (n := n) r sv) ≠ 0) {cfg : Levi.Ex.Cfg ℝ} (hcfg : Levi.Spec.Sound cfg) (hE : R.norm.Made cfg)
include hm hx hcfg hE

theorem orientation_hess (frame : String) (ref w : Option T) (h : SecondReady (n := n) R Q t (readState r sv) (.frameOrientation frame ref w)) :
    HessRight R Q t n r sv cv .frameOrientation (.frameOrientation frame ref w) := by
  cases e1 : setOr Q.rotation 1 ref t with
  | none => exact Or.inl (by simp [evalBody, e1])
  | some Rd =>
    cases e2 : setOr Q.number 1 w t with
    | none => exact Or.inl (by simp [evalBody, e1, e2])
    | some c =>
      obtain ⟨h1, h2⟩ := h.1 Rd e1
      exact body_hess R Q t hL hr sv cv hsv hcv _
        (C69_hessians (⟨R.server, R.frame frame, R.asQuaternion⟩ : Orientation m F) hcfg hE R.leftover hm c Rd h1 (h.2 Rd e1) _ hx (readControl r cv) h2)
        (C69_sparsity _ _ _ _ _) (orientation_inside _ _ _ _ _) (by simp only [hessBody, e1, e2]; rfl) (fun v w => by simp only [evalBody, e1, e2]; rfl)

theorem all_hess (k : SolverM.Cost) (b : Body ℝ T) (h : SecondReady (n := n) R Q t (readState r sv) b) : HessRight R Q t n r sv cv k b := by
  have hp := points_hess R Q t hL hr sv cv hsv hcv
  cases b with
  | stateNorm rg w ref => exact (norms_hess R Q t sv cv hsv hcv k rg w ref).1 h
  | controlNorm rg w ref => exact (norms_hess R Q t sv cv hsv hcv k rg w ref).2.1 h
  | linearMomentumNorm rg w ref => exact (norms_hess R Q t sv cv hsv hcv k rg w ref).2.2 h
  | frameOrientation frame ref w =>
    cases k <;> first | exact Or.inl fun _ _ => rfl | exact orientation_hess R Q t hL hr sv cv hsv hcv hm hx hcfg hE frame ref w h
  | frameAngularVelocity frame gain ref => exact h.elim
  | staticTorques a b l r' w => exact h.elim
  | phantomForces a => exact h.elim
  | feetDistance => cases k <;> first | exact Or.inl fun _ _ => rfl | exact feet_hess R Q t hL hr sv cv hsv hcv
  | meanPointPosition ref w => cases k <;> first | exact Or.inl fun _ _ => rfl | exact mean_hess R Q t hL hr sv cv hsv hcv ref w
  | jointsVelocityForPostural w g ref => cases k <;> first | exact Or.inl fun _ _ => rfl | exact postural_hess R Q t hL hr sv cv hsv hcv w g ref
  | footYaw p ref => cases k <;> first | exact Or.inl fun _ _ => rfl | exact yaw_hess R Q t hL hr sv cv hsv hcv _ p ref
  | forceMean => cases k <;> first | exact Or.inl fun _ _ => rfl | exact (hp _ _).1
  | forceRatio a => cases k <;> first | exact Or.inl fun _ _ => rfl | exact (hp _ _).2.1 a
  | swing a b => cases k <;> first | exact Or.inl fun _ _ => rfl | exact (hp _ _).2.2.1 a b
  | complementarity => cases k <;> first | exact Or.inl fun _ _ => rfl | exact (hp _ _).2.2.2


/-- The sum of the terms. -/
theorem terms_hess (l : List (Term ℝ T)) (h : ∀ y ∈ l, isActive y.range t → SecondReady (n := n) R Q t (readState r sv) y.body) :
    (∀ v w, objective R Q (readState (n := n) r v) (readControl (n := n) r w) v w t l = none) ∨
    ∃ H, objectiveHessians R Q r (readState (n := n) r sv) (readControl (n := n) r cv) t l = some H ∧
      HessiansRight n nj sv cv (fun v w => objective R Q (readState (n := n) r v) (readControl (n := n) r w) v w t l) H := by
  induction l with
  | nil =>
    exact Or.inr ⟨_, rfl, ⟨constant_second 0 _ fun _ => rfl, constant_second 0 _ fun _ => rfl, ⟨fun _ _ => 0, fun _ _ _ _ => partial_const _ _ _, fun _ _ _ _ => partial_const _ _ _⟩⟩,
      ⟨fun _ _ h => absurd rfl h, fun _ _ h => absurd rfl h, fun _ _ h => absurd rfl h⟩, fun _ _ h => h.elim, fun _ _ h => h.elim, fun _ _ h => h.elim⟩
  | cons y l ih =>
    have ih := ih fun z hz => h z (List.mem_cons_of_mem _ hz)
    by_cases ha : isActive y.range t
    · have hy := all_hess R Q t hL hr sv cv hsv hcv hm hx hcfg hE y.cost y.body (h y List.mem_cons_self ha)
      simp only [objectiveHessians, objective, if_pos ha]
      rcases hy with h2 | ⟨H, hH, ⟨d1, d2, d3⟩, ⟨s1, s2, s3⟩, i1, i2, i3⟩
      · exact Or.inl fun v w => by simp [h2]
      · rcases ih with h4 | ⟨H', hH', ⟨d1', d2', d3'⟩, ⟨s1', s2', s3'⟩, i1', i2', i3'⟩
        · exact Or.inl fun v w => by simp [h4]
        · have key : ∀ {a b c d : ℝ}, a * b + c ≠ 0 → b ≠ 0 ∨ c ≠ 0 := by
            intro a b c d h0
            by_contra hc
            push Not at hc
            exact h0 (by rw [hc.1, hc.2]; ring)
          refine Or.inr ⟨_, by simp only [hH, hH']; rfl, ⟨?_, ?_, ?_⟩, ⟨fun i j h0 => (key (d := 0) h0).imp (s1 i j) (s1' i j), fun i j h0 => (key (d := 0) h0).imp (s2 i j) (s2' i j),
            fun i j h0 => (key (d := 0) h0).imp (s3 i j) (s3' i j)⟩, fun i j h0 => Or.elim h0 (i1 i j) (i1' i j), fun i j h0 => Or.elim h0 (i2 i j) (i2' i j),
            fun i j h0 => Or.elim h0 (i3 i j) (i3' i j)⟩
          · exact second_add (second_mul y.weight d1 (S := fun v => (evalBody R Q (readState (n := n) r v) (readControl (n := n) r cv) v cv t y.cost y.body).map (y.weight * ·))
              fun v a e => by dsimp only at e; simp [e]) d1' fun v a b e e' => by
                dsimp only at e e'
                obtain ⟨c, hc, rfl⟩ := Option.map_eq_some_iff.1 e
                simp [hc, e']
          · exact second_add (second_mul y.weight d2 (S := fun v => (evalBody R Q (readState (n := n) r sv) (readControl (n := n) r v) sv v t y.cost y.body).map (y.weight * ·))
              fun v a e => by dsimp only at e; simp [e]) d2' fun v a b e e' => by
                dsimp only at e e'
                obtain ⟨c, hc, rfl⟩ := Option.map_eq_some_iff.1 e
                simp [hc, e']
          · exact mixed_add (mixed_mul y.weight d3 (S := fun v w => (evalBody R Q (readState (n := n) r v) (readControl (n := n) r w) v w t y.cost y.body).map (y.weight * ·))
              fun v w a e => by simp [e]) d3' fun v w a b e e' => by
                obtain ⟨c, hc, rfl⟩ := Option.map_eq_some_iff.1 e
                simp [hc, e']
    · simp only [objectiveHessians, objective, if_neg ha]
      exact ih

end

variable {st : ProblemSettings ℝ T}

theorem second_ready (hl : st.leftPointsPosition.length = n) (hr : st.rightPointsPosition.length = n) {s : State ℝ} {q : V4 ℝ} (hs : StateSize nj n s)
    (hD : Spec.Differentiable R Q t st s q) (hP : st.phantomForcesCostActive = false) (hA : st.frameAngularVelocityCostActive = false) (hT : st.staticTorquesCostActive = false)
    (hQ : st.frameCostActive = true → ∀ Rd, ((st.desiredRotationTrajectory.map Q.rotation).getD fun _ => some 1) t = some Rd →
      Quaternion.rotationFromQuaternion (R.asQuaternion Rd) = Rd) {y : Term ℝ T} (h : y ∈ costTerms st (rangesAt nj n)) :
    SecondReady (n := n) R Q t (readState (rangesAt nj n) (stateVector s q)) y.body := by
  have hI := ready R Q t hl hr hs hD h
  rw [costTerms, List.mem_flatten] at h
  obtain ⟨l, hl', hy⟩ := h
  simp only [costBlocks, List.mem_cons, List.not_mem_nil, or_false] at hl'
  rcases hl' with rfl | rfl | rfl | rfl | rfl | rfl | rfl | rfl | rfl | rfl | rfl | rfl | rfl | rfl | rfl | rfl | rfl | rfl | rfl | rfl | rfl | rfl | rfl | rfl
  all_goals first
    | (rw [hP] at hy; exact absurd hy List.not_mem_nil)
    | (rw [hA] at hy; exact absurd hy List.not_mem_nil)
    | (rw [hT] at hy; exact absurd hy List.not_mem_nil)
    | (obtain rfl := mem_one hy; exact hI)
    | (obtain ⟨f, i, hi, rfl⟩ := mem_pts hl hr hy; exact hI)
    | skip
  by_cases hb : st.frameCostActive
  · rw [if_pos hb] at hy
    obtain rfl := List.mem_singleton.1 hy
    refine ⟨hI, fun Rd hRd => ?_⟩
    rw [setOr_eq] at hRd
    exact hQ hb Rd hRd
  · simp [hb] at hy

/-- **C94** (partial). When the variables and the costs are set without errors, and there is a value of the objective at a time, there are the three matrices of second derivatives that the
optimiser sees at that time: each of their entries is the second derivative of the value with respect to those entries of the vectors of the optimiser, the entries that are not zero are
declared, and the declared entries are inside the matrices. Missing: the cost of the phantom forces (its second derivatives are wrong, C23), the cost of the angular velocity of the frame
(C70) and the cost of the static torques (it has no second derivatives: see C94_static_torques). -/
theorem C94_hessians_partial (hm : m.Regular) {cfg : Levi.Ex.Cfg ℝ} (hcfg : Levi.Spec.Sound cfg) (hE : R.norm.Made cfg)
    {accepts : List (Term ℝ T) → Term ℝ T → Bool} {ls lc ls' lc' : Labeller ℝ} {r : Ranges} (hd : st.dofs = nj)
    (hv : setVariablesStructure ls lc nj n = some (ls', lc', r)) (hl : st.leftPointsPosition.length = n) (hr : st.rightPointsPosition.length = n) (hn : 0 < n)
    {terms : List (Term ℝ T)} (h : setCosts accepts st ls' lc' = some terms)
    (s : State ℝ) (q : V4 ℝ) (c : Control ℝ) (hs : StateSize nj n s) (hc : ControlSize nj n c) (hD : Spec.Differentiable R Q t st s q)
    (hP : st.phantomForcesCostActive = false) (hA : st.frameAngularVelocityCostActive = false) (hT : st.staticTorquesCostActive = false)
    (hQ : st.frameCostActive = true → ∀ Rd, ((st.desiredRotationTrajectory.map Q.rotation).getD fun _ => some 1) t = some Rd →
      Quaternion.rotationFromQuaternion (R.asQuaternion Rd) = Rd)
    (he : (objectiveAt R Q r n terms t s q c).isSome) :
    ∃ H, hessiansOn R Q r n terms t (stateVector s q) (controlVector c) = some H ∧
      (Spec.SecondDerivatives (fun v => objectiveOn R Q r n terms t v (controlVector c)) (stateVector s q) H.state ∧
        Spec.SecondDerivatives (fun w => objectiveOn R Q r n terms t (stateVector s q) w) (controlVector c) H.control ∧
        Spec.MixedDerivatives (fun v w => objectiveOn R Q r n terms t v w) (stateVector s q) (controlVector c) H.mixed) ∧
      ((∀ i j, H.state i j ≠ 0 → H.stateDeclared i j) ∧ (∀ i j, H.control i j ≠ 0 → H.controlDeclared i j) ∧ ∀ i j, H.mixed i j ≠ 0 → H.mixedDeclared i j) ∧
      (∀ i j, H.stateDeclared i j → i < 12 * n + 16 + nj ∧ j < 12 * n + 16 + nj) ∧ (∀ i j, H.controlDeclared i j → i < 12 * n + 7 + nj ∧ j < 12 * n + 7 + nj) ∧
        ∀ i j, H.mixedDeclared i j → i < 12 * n + 16 + nj ∧ j < 12 * n + 7 + nj := by
  have hL := labels hv
  obtain rfl := ranges_eq hv
  have hterms : terms = costTerms st (rangesAt nj n) := by
    subst hd
    exact ((costs_list hv hl hr hn terms).1 h).2.2
  subst hterms
  have key := terms_hess R Q t hL rfl (stateVector s q) (controlVector c) (state_len q hs) (control_len hc) hm
    (by rw [read_quat q hs]; exact hD.base) hcfg hE (costTerms st (rangesAt nj n)) fun y hy _ => second_ready R Q t hl hr hs hD hP hA hT hQ hy
  rcases key with h1 | ⟨H, h1, h2⟩
  · have : objectiveAt R Q (rangesAt nj n) n (costTerms st (rangesAt nj n)) t s q c = none := h1 _ _
    rw [this] at he
    simp at he
  · exact ⟨H, h1, h2⟩

theorem hessians_none {x : SVec n} {u : CVec n} {r : Ranges} {l : List (Term ℝ T)} {y : Term ℝ T} (hy : y ∈ l) (ha : isActive y.range t) (h : hessBody R Q r x u t y.cost y.body = none) :
    objectiveHessians R Q r x u t l = none := by
  induction l with
  | nil => exact absurd hy List.not_mem_nil
  | cons z l ih =>
    rcases List.mem_cons.1 hy with rfl | hy
    · simp [objectiveHessians, ha, h]
    · unfold objectiveHessians
      split_ifs
      · rw [ih hy]
        cases hessBody R Q r x u t z.cost z.body <;> rfl
      · exact ih hy

/-- **C94** (what is missing). With the cost of the static torques there are no second derivatives of the objective, at any time and for any vectors of the optimiser, also when there is a
value. -/
theorem C94_static_torques {accepts : List (Term ℝ T) → Term ℝ T → Bool} {ls lc ls' lc' : Labeller ℝ} {r : Ranges} (hd : st.dofs = nj)
    (hv : setVariablesStructure ls lc nj n = some (ls', lc', r)) (hl : st.leftPointsPosition.length = n) (hr : st.rightPointsPosition.length = n) (hn : 0 < n)
    {terms : List (Term ℝ T)} (h : setCosts accepts st ls' lc' = some terms) (hT : st.staticTorquesCostActive = true) (v w : List ℝ) :
    hessiansOn R Q r n terms t v w = none := by
  obtain rfl := ranges_eq hv
  have hterms : terms = costTerms st (rangesAt nj n) := by
    subst hd
    exact ((costs_list hv hl hr hn terms).1 h).2.2
  subst hterms
  refine hessians_none R Q t (y := ⟨.staticTorques, st.staticTorquesCostOverallWeight, none,
    .staticTorques st.leftFrameName st.rightFrameName st.leftPointsPosition st.rightPointsPosition st.staticTorquesCostWeights⟩) ?_ (by trivial) rfl
  rw [costTerms, List.mem_flatten]
  refine ⟨[_], ?_, List.mem_singleton_self _⟩
  simp only [costBlocks, List.mem_cons, hT, if_true, true_or, or_true]

section Examples
open Sample
variable (rot : RotExprs) (norm : NormExprs) (order : List StateTask) (order' : List MixedTask) (leftover : Leftover 1) (stored : V3 ℝ) (held : Held 1)

/-- Nine kinds of costs. -/
def Sample.smooth : ProblemSettings ℝ Unit :=
  { Sample.busy with
    staticTorquesCostActive := false
    phantomForcesCostActive := false
    frameAngularVelocityCostActive := false }

theorem Sample.smooth_differentiable (z w φ : ℝ) :
    Spec.Differentiable (Sample.costObjects rot norm order order' leftover stored held true) Sample.readings 0 Sample.smooth (Sample.state z w φ) upright := by
  have h := Sample.busy_differentiable rot norm order order' leftover stored held z w φ
  exact ⟨h.base, nofun, h.orientation, nofun⟩

theorem objective_some {R : CostObjects m F} {Q : Readings T} {x : SVec n} {u : CVec n} {v w : List ℝ} {l : List (Term ℝ T)} (h : ∀ y ∈ l, (evalBody R Q x u v w t y.cost y.body).isSome) :
    (objective R Q x u v w t l).isSome := by
  induction l with
  | nil => rfl
  | cons y l ih =>
    obtain ⟨a, ha⟩ := Option.isSome_iff_exists.1 (h y List.mem_cons_self)
    obtain ⟨b, hb⟩ := Option.isSome_iff_exists.1 (ih fun z hz => h z (List.mem_cons_of_mem _ hz))
    unfold objective
    split_ifs
    · simp [ha, hb]
    · simp [hb]

theorem Sample.smooth_value (r : Ranges) (v w : List ℝ) :
    (objectiveOn (Sample.costObjects rot norm order order' leftover stored held true) Sample.readings r 1 (costTerms Sample.smooth (rangesAt 1 1)) 0 v w).isSome := by
  refine objective_some 0 fun y hy => ?_
  have hl : Sample.smooth.leftPointsPosition.length = 1 := rfl
  have hr : Sample.smooth.rightPointsPosition.length = 1 := rfl
  rw [costTerms, List.mem_flatten] at hy
  obtain ⟨l, hl', hy⟩ := hy
  simp only [costBlocks, List.mem_cons, List.not_mem_nil, or_false] at hl'
  rcases hl' with rfl | rfl | rfl | rfl | rfl | rfl | rfl | rfl | rfl | rfl | rfl | rfl | rfl | rfl | rfl | rfl | rfl | rfl | rfl | rfl | rfl | rfl | rfl | rfl
  all_goals first
    | exact absurd hy List.not_mem_nil
    | (obtain rfl := mem_one hy; rfl)
    | (obtain ⟨f, i, hi, rfl⟩ := mem_pts hl hr hy; simp [evalBody, hi]; done)
    | skip

/-- The hypotheses of C94 hold with nine kinds of costs, and there are second derivatives. -/
example (labels : Labeller ℝ) {cfg : Levi.Ex.Cfg ℝ} (hcfg : Levi.Spec.Sound cfg) : ∃ norm, ∃ terms ls' lc' r, setVariablesStructure labels labels 1 1 = some (ls', lc', r) ∧
    setCosts (SolverM.Spec.ocpCosts fun _ => true) Sample.smooth ls' lc' = some terms ∧ ∀ z w φ ψ,
      ∃ H, hessiansOn (Sample.costObjects rot norm order order' leftover stored held true) Sample.readings r 1 terms 0
          (stateVector (Sample.state z w φ) upright) (controlVector (Sample.control w ψ)) = some H ∧
        Spec.SecondDerivatives (fun v => objectiveOn (Sample.costObjects rot norm order order' leftover stored held true) Sample.readings r 1 terms 0 v
          (controlVector (Sample.control w ψ))) (stateVector (Sample.state z w φ) upright) H.state := by
  obtain ⟨norm, hE⟩ := C64_expressions_exist hcfg
  obtain ⟨a, b, e, -⟩ := structure_ok labels labels 1 1
  obtain ⟨terms, ht⟩ := Option.isSome_iff_exists.1 ((C53_costs_set_iff (st := Sample.smooth) (fun _ => true) e rfl rfl one_pos).2
    ⟨by constructor <;> simp [Sample.smooth, Sample.busy, Sample.settings], by constructor <;> simp⟩)
  have e' : setVariablesStructure labels labels Sample.smooth.dofs 1 = _ := e
  have hl : Sample.smooth.leftPointsPosition.length = 1 := rfl
  have hr : Sample.smooth.rightPointsPosition.length = 1 := rfl
  have hterms : terms = costTerms Sample.smooth (rangesAt 1 1) := ((costs_list e' hl hr one_pos terms).1 ht).2.2
  refine ⟨norm, terms, a, b, _, e, ht, fun z w φ ψ => ?_⟩
  have hq : Sample.smooth.frameCostActive = true → ∀ Rd, ((Sample.smooth.desiredRotationTrajectory.map Sample.readings.rotation).getD fun _ => some 1) 0 = some Rd →
      Quaternion.rotationFromQuaternion ((Sample.costObjects rot norm order order' leftover stored held true).asQuaternion Rd) = Rd := by
    intro _ Rd h
    have : Rd = 1 := (Option.some.inj h).symm
    subst this
    exact (Quaternion.trace_quaternion one_rotation.1 one_rotation.2 (by simp; norm_num)).2.1
  obtain ⟨H, h1, h2, -⟩ := C94_hessians_partial (Sample.costObjects rot norm order order' leftover stored held true) Sample.readings 0 biped_regular hcfg hE rfl e rfl rfl one_pos ht _ _ _
    (state_size z w φ) (control_size w ψ) (Sample.smooth_differentiable rot norm order order' leftover stored held z w φ) rfl rfl rfl hq
    (by rw [hterms]; exact Sample.smooth_value rot norm order order' leftover stored held _ _ _)
  exact ⟨H, h1, h2.1⟩

/-- With the cost of the centre of mass only (weights 1, 2, 3): the second derivative with respect to the height of the centre of mass (the entry 20) is 3, and the derivatives across
entries are zero. -/
example (labels : Labeller ℝ) : ∃ terms ls' lc' r, setVariablesStructure labels labels 1 1 = some (ls', lc', r) ∧
    setCosts (SolverM.Spec.ocpCosts fun _ => true) Sample.comOnly ls' lc' = some terms ∧ ∀ v w,
      ∃ H, hessiansOn (Sample.costObjects rot norm order order' leftover stored held true) Sample.readings r 1 terms (1 / 2) v w = some H ∧
        H.state 20 20 = 3 ∧ H.state 20 19 = 0 ∧ H.stateDeclared 20 19 ∧ ¬ H.stateDeclared 20 17 := by
  obtain ⟨a, b, e, -⟩ := structure_ok labels labels 1 1
  obtain ⟨terms, ht⟩ := Option.isSome_iff_exists.1 ((C53_costs_set_iff (st := Sample.comOnly) (fun _ => true) e rfl rfl one_pos).2
    ⟨by constructor <;> simp [Sample.comOnly, Sample.settings], by constructor <;> simp⟩)
  have hterms := Sample.com_terms' e ht
  subst hterms
  refine ⟨_, a, b, _, e, ht, fun v w => ?_⟩
  have ha : isActive (some ⟨0, 1⟩ : Option (Reference.TimeRange ℝ)) (1 / 2) := by constructor <;> norm_num
  refine ⟨_, by simp only [hessiansOn, objectiveHessians, if_pos ha, hessBody]; rfl, ?_, ?_, ?_, ?_⟩
  · simp [stateNormHessians, segmentHessian, normWeights]
  · simp [stateNormHessians, segmentHessian, normWeights]
  · exact Or.inl (by simp [stateNormHessians, segmentDeclared])
  · rintro (h | h)
    · simp [stateNormHessians, segmentDeclared] at h
    · exact h

end Examples

end
end Verif.Plan
