import Verif.Lemmas.ObjectiveGradient
import Verif.Spec.ObjectiveGradient
import Verif.Props.Objective
import Verif.Props.StaticTorquesCost
import Verif.Props.FrameVelocityCost
import Verif.Props.Costs
/- C91: the gradient handed to the optimiser is the gradient of the objective. -/
set_option linter.unusedSectionVars false
set_option linter.unusedSimpArgs false
namespace Verif.Plan
open NLP NLP.Kin SolverM StateM Rigid Matrix
open NLP.Spec (GradAt ExactGradients)
open NLP.Dynamics (quatOf)
open Labeller (Labeller Range)
open SolverM.Spec (stateVector controlVector StateSize ControlSize)
noncomputable section
variable {n nj : ℕ} {L F T : Type} [DecidableEq L] [DecidableEq F] {m : Model L (Fin nj)} (R : CostObjects m F) (Q : Readings T) (t : ℝ)

/-- What the gradient of a cost needs. -/
def BodyReady (x : SVec n) : Body ℝ T → Prop
  | .stateNorm g _ _ => g.offset + g.size ≤ 12 * n + 16 + nj
  | .linearMomentumNorm g _ _ => g.offset + g.size ≤ 12 * n + 16 + nj ∧ g.size = 3
  | .controlNorm g _ _ => g.offset + g.size ≤ 12 * n + 7 + nj
  | .frameOrientation frame ref _ => ∀ Rd, setOr Q.rotation 1 ref t = some Rd →
    Rd ∈ Quaternion.Rotations ∧ Quaternion.Steady R.asQuaternion (Rdᵀ * (⟨R.server, R.frame frame, R.asQuaternion⟩ : Orientation m F).frameRotation x)
  | .staticTorques a b l r _ =>
    let object : StaticTorques m F n :=
      { server := R.server
        gravity := ![0, 0, -R.gravity]
        frame := fun s => R.frame (match s with | .left => a | .right => b)
        point := fun s p => toVec ((match s with | .left => l | .right => r).getD p ⟨0, 0, 0⟩)
        asQuaternion := R.asQuaternion }
    object.Apart ∧ object.Coherent x
  | .frameAngularVelocity frame _ _ => R.server.KeepsAxes (R.frame frame)
  | _ => True

/-- The body is not the cost of the angular velocity. -/
def NoVelocity : Body ℝ T → Prop
  | .frameAngularVelocity _ _ _ => False
  | _ => True

variable {r : Ranges} (hL : Labels r n nj) (calls : List (StaticTorques.Call n nj)) (sv cv : List ℝ) (hsv : sv.length = 12 * n + 16 + nj) (hcv : cv.length = 12 * n + 7 + nj)

/-- The gradients of one cost are right. -/
def Right (F : List ℝ → List ℝ → Option ℝ) (g : Gradients) (ctrl : Prop) : Prop :=
  (∀ i < 12 * n + 16 + nj, Spec.PartialDerivative (fun v => F v cv) sv i (g.state i)) ∧ (ctrl → ∀ i < 12 * n + 7 + nj, Spec.PartialDerivative (fun v => F sv v) cv i (g.control i))

section
include hL hsv hcv

theorem right_of_grad (val : SVec n → CVec n → ℝ) (gs : SVec n) (gc : CVec n) (F : List ℝ → List ℝ → Option ℝ) (ctrl : Prop)
    (hF : ∀ v w, F v w = some (val (readState r v) (readControl r w)))
    (h1 : GradAt (fun y => val y (readControl r cv)) gs (readState r sv)) (h2 : ctrl → GradAt (fun w => val (readState r sv) w) gc (readControl r cv)) :
    Right (n := n) (nj := nj) sv cv F ⟨stateVectorOf r gs, controlVectorOf r gc⟩ ctrl :=
  ⟨fun i hi => ⟨_, fun a => hF _ _, deriv_state hL sv hsv (fun y => val y (readControl r cv)) gs h1 i hi⟩,
    fun hc i hi => ⟨_, fun a => hF _ _, deriv_control hL cv hcv (fun w => val (readState r sv) w) gc (h2 hc) i hi⟩⟩

theorem right_of_exact (c : NLP.Cost (Idx (SBlk n)) (Idx (CBlk n))) (h : ExactGradients c) (F : List ℝ → List ℝ → Option ℝ) (ctrl : Prop)
    (hF : ∀ v w, F v w = some (c.value (readState r v) (readControl r w))) :
    Right (n := n) (nj := nj) sv cv F (costGradients r c (readState r sv) (readControl r cv)) ctrl :=
  right_of_grad hL sv cv hsv hcv c.value _ _ F ctrl hF (h _ _).1 fun _ => (h _ _).2

end

theorem right_state_segment (cp : Bool) (w ref : List ℝ) (rg : Range) (F : List ℝ → List ℝ → Option ℝ) (ctrl : Prop) (hsv : sv.length = 12 * n + 16 + nj)
    (hrg : rg.offset + rg.size ≤ 12 * n + 16 + nj)
    (hr : ref.length = rg.size) (hF : ∀ v u, F v u = some (normValue cp w (segmentOf rg v) ref)) :
    Right (n := n) (nj := nj) sv cv F ⟨segmentGradient rg (normGradient w (segmentOf rg sv) ref), fun _ => 0⟩ ctrl :=
  ⟨fun i _ => ⟨_, fun a => hF _ _, segment_deriv cp w rg sv ref hr (by omega) i⟩, fun _ i _ => ⟨_, fun a => hF _ _, hasDerivAt_const _ _⟩⟩

theorem right_control_segment (cp : Bool) (w ref : List ℝ) (rg : Range) (F : List ℝ → List ℝ → Option ℝ) (ctrl : Prop) (hcv : cv.length = 12 * n + 7 + nj)
    (hrg : rg.offset + rg.size ≤ 12 * n + 7 + nj)
    (hr : ref.length = rg.size) (hF : ∀ v u, F v u = some (normValue cp w (segmentOf rg u) ref)) :
    Right (n := n) (nj := nj) sv cv F ⟨fun _ => 0, segmentGradient rg (normGradient w (segmentOf rg cv) ref)⟩ ctrl :=
  ⟨fun i _ => ⟨_, fun a => hF _ _, hasDerivAt_const _ _⟩, fun _ i _ => ⟨_, fun a => hF _ _, segment_deriv cp w rg cv ref hr (by omega) i⟩⟩

theorem reference_len {size : ℕ} {ref : Option T} {v : List ℝ} (h : normReference Q size t ref = some v) : v.length = size := by
  unfold normReference at h
  cases ref with
  | none => rw [← Option.some.inj h]; simp
  | some o =>
    cases hv : Q.vector o t with
    | none => simp [hv] at h
    | some l =>
      simp only [hv, Option.bind_eq_bind, Option.bind_some] at h
      split at h
      · rw [← Option.some.inj h]; assumption
      · simp at h

theorem momentum_len {M : ℝ} {size : ℕ} {ref : Option T} {v : List ℝ} (h3 : size = 3) (h : momentumReference Q M size t ref = some v) : v.length = size := by
  unfold momentumReference at h
  cases ref with
  | none => rw [← Option.some.inj h]; simp
  | some o =>
    dsimp only at h
    split at h
    · rw [← Option.some.inj h, h3]
      unfold linearMomentumReference
      split_ifs with h1 h2
      · rfl
      · rfl
      · simpa using h2
    · simp at h

/-- The gradients of a cost, and when there are some. -/
def BodyRight (k : SolverM.Cost) (b : Body ℝ T) : Prop :=
  (gradBody R Q r calls (readState (n := n) r sv) (readControl (n := n) r cv) sv cv t k b = none ∧
    ∀ v w, evalBody R Q (readState (n := n) r v) (readControl (n := n) r w) v w t k b = none) ∨
  ∃ g, gradBody R Q r calls (readState (n := n) r sv) (readControl (n := n) r cv) sv cv t k b = some g ∧
    Right (n := n) (nj := nj) sv cv (fun v w => evalBody R Q (readState (n := n) r v) (readControl (n := n) r w) v w t k b) g (NoVelocity b)

section
include hL hsv hcv

theorem norms_right (k : SolverM.Cost) (rg : Range) (w : Option (List ℝ)) (ref : Option T) :
    (rg.offset + rg.size ≤ 12 * n + 16 + nj → BodyRight (n := n) R Q t (r := r) calls sv cv k (.stateNorm rg w ref)) ∧
    (rg.offset + rg.size ≤ 12 * n + 7 + nj → BodyRight (n := n) R Q t (r := r) calls sv cv k (.controlNorm rg w ref)) ∧
    (rg.offset + rg.size ≤ 12 * n + 16 + nj ∧ rg.size = 3 → BodyRight (n := n) R Q t (r := r) calls sv cv k (.linearMomentumNorm rg w ref)) := by
  refine ⟨fun h => ?_, fun h => ?_, fun h => ?_⟩
  · cases e : normReference Q rg.size t ref with
    | none => left; cases k <;> simp [gradBody, evalBody, e]
    | some v =>
      refine Or.inr ⟨⟨segmentGradient rg (normGradient (normWeights rg.size w) (segmentOf rg sv) v), fun _ => 0⟩, by cases k <;> simp only [gradBody, e, Option.map_some], ?_⟩
      exact right_state_segment sv cv R.constantPart _ v rg _ _ hsv h (reference_len Q t e) fun v u => by cases k <;> simp [evalBody, e]
  · cases e : normReference Q rg.size t ref with
    | none => left; cases k <;> simp [gradBody, evalBody, e]
    | some v =>
      refine Or.inr ⟨⟨fun _ => 0, segmentGradient rg (normGradient (normWeights rg.size w) (segmentOf rg cv) v)⟩, by cases k <;> simp only [gradBody, e, Option.map_some], ?_⟩
      exact right_control_segment sv cv R.constantPart _ v rg _ _ hcv h (reference_len Q t e) fun v u => by cases k <;> simp [evalBody, e]
  · cases e : momentumReference Q (Dynamics.totalMass (m.links.map fun k => (m.inertia k).mass)) rg.size t ref with
    | none => left; cases k <;> simp [gradBody, evalBody, e]
    | some v =>
      refine Or.inr ⟨⟨segmentGradient rg (normGradient (normWeights rg.size w) (segmentOf rg sv) v), fun _ => 0⟩, by cases k <;> simp only [gradBody, e, Option.map_some], ?_⟩
      exact right_state_segment sv cv R.constantPart _ v rg _ _ hsv h.1 (momentum_len Q t h.2 e) fun v u => by cases k <;> simp [evalBody, e]

/-- The cost object returned its gradients. -/
theorem body_exact {k : SolverM.Cost} {b : Body ℝ T} (c : NLP.Cost (Idx (SBlk n)) (Idx (CBlk n))) (h : ExactGradients c)
    (hg : gradBody R Q r calls (readState (n := n) r sv) (readControl (n := n) r cv) sv cv t k b = some (costGradients r c (readState r sv) (readControl r cv)))
    (he : ∀ v w, evalBody R Q (readState (n := n) r v) (readControl (n := n) r w) v w t k b = some (c.value (readState r v) (readControl r w))) :
    BodyRight (n := n) R Q t (r := r) calls sv cv k b :=
  Or.inr ⟨_, hg, right_of_exact hL sv cv hsv hcv c h _ _ he⟩

theorem points_right (f : Foot) (i : ℕ) : BodyRight (n := n) R Q t (r := r) calls sv cv (.forceMean f i) .forceMean ∧
    (∀ ratio, BodyRight (n := n) R Q t (r := r) calls sv cv (.forceRatio f i) (.forceRatio ratio)) ∧
    (∀ height weights, BodyRight (n := n) R Q t (r := r) calls sv cv (.swing f i) (.swing height weights)) ∧
    (∀ scaling, BodyRight (n := n) R Q t (r := r) calls sv cv (.phantomForces f i) (.phantomForces scaling)) ∧
    BodyRight (n := n) R Q t (r := r) calls sv cv (.complementarity f i) .complementarity := by
  by_cases h : i < n
  · exact ⟨body_exact R Q t hL calls sv cv hsv hcv _ (forceMean_grad (side f) ⟨i, h⟩) (by simp [gradBody, h]) (by simp [evalBody, h]),
      fun a => body_exact R Q t hL calls sv cv hsv hcv _ (forceRatio_grad (side f) ⟨i, h⟩ a) (by simp [gradBody, h]) (by simp [evalBody, h]),
      fun a b => body_exact R Q t hL calls sv cv hsv hcv _ (swing_grad (side f) ⟨i, h⟩ a b) (by simp [gradBody, h]) (by simp [evalBody, h]),
      fun a => body_exact R Q t hL calls sv cv hsv hcv _ (phantomForces_grad (side f) ⟨i, h⟩ (activation a)) (by simp [gradBody, h]) (by simp [evalBody, h]),
      body_exact R Q t hL calls sv cv hsv hcv _ (complementarityCost_grad (side f) ⟨i, h⟩) (by simp [gradBody, h]) (by simp [evalBody, h])⟩
  · exact ⟨Or.inl (by simp [gradBody, evalBody, h]), fun _ => Or.inl (by simp [gradBody, evalBody, h]), fun _ _ => Or.inl (by simp [gradBody, evalBody, h]),
      fun _ => Or.inl (by simp [gradBody, evalBody, h]), Or.inl (by simp [gradBody, evalBody, h])⟩

theorem mean_right (reference weight : Option T) : BodyRight (n := n) R Q t (r := r) calls sv cv .meanPointPosition (.meanPointPosition reference weight) := by
  cases e1 : setOr Q.position ⟨0, 0, 0⟩ reference t with
  | none => exact Or.inl (by simp [gradBody, evalBody, e1])
  | some d =>
    cases e2 : setOr Q.vector [1, 1, 1] weight t with
    | none => exact Or.inl (by simp [gradBody, evalBody, e1, e2])
    | some w =>
      match w, e2 with
      | [], e2 | [_], e2 | [_, _], e2 | _ :: _ :: _ :: _ :: _, e2 => exact Or.inl (by simp [gradBody, evalBody, e1, e2])
      | [a, b, c], e2 =>
        exact body_exact R Q t hL calls sv cv hsv hcv _ (meanPoint_grad d ⟨a, b, c⟩) (by simp [gradBody, e1, e2]) (by simp [evalBody, e1, e2])

theorem yaw_right (f : Foot) (points : List (V3 ℝ)) (reference : Option T) : BodyRight (n := n) R Q t (r := r) calls sv cv (.footYaw f) (.footYaw points reference) := by
  cases h1 : (corners points).bottomRight with
  | none => exact Or.inl (by simp [gradBody, evalBody, h1])
  | some br =>
    cases h2 : (corners points).topRight with
    | none => exact Or.inl (by simp [gradBody, evalBody, h1, h2])
    | some tr =>
      cases h3 : (corners points).topLeft with
      | none => exact Or.inl (by simp [gradBody, evalBody, h1, h2, h3])
      | some tl =>
        by_cases h : br < n ∧ tr < n ∧ tl < n
        · cases e : setOr Q.number 0 reference t with
          | none => exact Or.inl (by simp [gradBody, evalBody, h1, h2, h3, h, e])
          | some yaw =>
            exact body_exact R Q t hL calls sv cv hsv hcv _ (C39_derivatives points (side f) ⟨br, h.1⟩ ⟨tr, h.2.1⟩ ⟨tl, h.2.2⟩ _ yaw h1 h2 h3).2.2.2.1
              (by simp only [gradBody, h1, h2, h3, dif_pos h, e]; rfl) (fun v w => by simp only [evalBody, h1, h2, h3, dif_pos h, e]; rfl)
        · exact Or.inl (by simp only [gradBody, evalBody, h1, h2, h3, dif_neg h]; simp)

theorem postural_right (weights gains : List ℝ) (reference : Option T) :
    BodyRight (n := n) R Q t (r := r) calls sv cv .jointsVelocityForPostural (.jointsVelocityForPostural weights gains reference) := by
  cases reference with
  | none => exact Or.inl (by simp [gradBody, evalBody])
  | some o =>
    cases e : Q.vector o t with
    | none => exact Or.inl (by simp [gradBody, evalBody, e])
    | some d =>
      by_cases h : d.length = nj
      · exact body_exact R Q t hL calls sv cv hsv hcv _ (jointsPostural_grad nj (fun k => weights.getD k 0) (fun k => gains.getD k 0) (fun k => d.getD k 0))
          (by simp [gradBody, e, h]) (by simp [evalBody, e, h])
      · exact Or.inl (by simp [gradBody, evalBody, e, h])

theorem feet_right : BodyRight (n := n) R Q t (r := r) calls sv cv .feetDistance .feetDistance :=
  body_exact R Q t hL calls sv cv hsv hcv _ feetDistance_grad (by simp [gradBody]) (by simp [evalBody])

variable (hm : m.Regular) (hx : quatOf (readState (n := n) r sv) ≠ 0)
include hm hx

theorem orientation_right (frame : String) (ref w : Option T) (h : BodyReady (n := n) R Q t (readState r sv) (.frameOrientation frame ref w)) :
    BodyRight (n := n) R Q t (r := r) calls sv cv .frameOrientation (.frameOrientation frame ref w) := by
  cases e1 : setOr Q.rotation 1 ref t with
  | none => exact Or.inl (by simp [gradBody, evalBody, e1])
  | some Rd =>
    cases e2 : setOr Q.number 1 w t with
    | none => exact Or.inl (by simp [gradBody, evalBody, e1, e2])
    | some c =>
      obtain ⟨h1, h2⟩ := h Rd e1
      have key := C69_gradients (⟨R.server, R.frame frame, R.asQuaternion⟩ : Orientation m F) R.norm R.leftover hm c Rd h1 _ hx (readControl r cv) h2
      refine Or.inr ⟨costGradients r ((⟨R.server, R.frame frame, R.asQuaternion⟩ : Orientation m F).cost R.norm R.leftover c Rd) (readState r sv) (readControl r cv),
        by simp only [gradBody, e1, e2]; rfl, ?_⟩
      exact right_of_grad hL sv cv hsv hcv _ _ _ _ _ (fun v w => by simp only [evalBody, e1, e2]; rfl) key.1 fun _ => key.2

theorem velocity_right {cfg : Levi.Ex.Cfg ℝ} (hs : Levi.Spec.Sound cfg) (hR : R.rot.Made cfg) (hE : R.norm.Made cfg) (frame : String) (gain : ℝ) (ref : Option T)
    (h : R.server.KeepsAxes (R.frame frame)) :
    BodyRight (n := n) R Q t (r := r) calls sv cv .frameAngularVelocity (.frameAngularVelocity frame gain ref) := by
  cases e1 : setOr Q.rotation 1 ref t with
  | none => exact Or.inl (by simp [gradBody, evalBody, e1])
  | some Rd =>
    have key := (C70_state_derivatives_partial (⟨R.server, R.frame frame, gain⟩ : AngularVelocity m F) hs hR hE hm h R.held.velocities Rd _ hx (readControl r cv)).1
    refine Or.inr ⟨costGradients r ((⟨R.server, R.frame frame, gain⟩ : AngularVelocity m F).cost R.rot R.norm R.held.velocities Rd) (readState r sv) (readControl r cv),
        by simp only [gradBody, e1]; rfl, ?_⟩
    exact right_of_grad hL sv cv hsv hcv _ _ _ _ _ (fun v w => by simp only [evalBody, e1]; rfl) key fun h => h.elim

theorem torques_right (a b : String) (l r' : List (V3 ℝ)) (w : List ℝ) (h : BodyReady (n := n) R Q t (readState r sv) (.staticTorques a b l r' w)) :
    BodyRight (n := n) R Q t (r := r) calls sv cv .staticTorques (.staticTorques a b l r' w) := by
  obtain ⟨h1, h2⟩ := h
  have key := C68_gradient _ hm h1 (fun j => w.getD j 0) calls (readState r sv) hx h2
  exact Or.inr ⟨_, rfl, right_of_grad hL sv cv hsv hcv (fun y _ => _) _ _ _ _ (fun v w => rfl) key.1 fun _ => key.2 _⟩

theorem body_right {cfg : Levi.Ex.Cfg ℝ} (hs : Levi.Spec.Sound cfg) (hR : R.rot.Made cfg) (hE : R.norm.Made cfg) (k : SolverM.Cost) (b : Body ℝ T)
    (h : BodyReady (n := n) R Q t (readState r sv) b) : BodyRight (n := n) R Q t (r := r) calls sv cv k b := by
  have hp := points_right R Q t hL calls sv cv hsv hcv
  cases b with
  | stateNorm rg w ref => exact (norms_right R Q t hL calls sv cv hsv hcv k rg w ref).1 h
  | controlNorm rg w ref => exact (norms_right R Q t hL calls sv cv hsv hcv k rg w ref).2.1 h
  | linearMomentumNorm rg w ref => exact (norms_right R Q t hL calls sv cv hsv hcv k rg w ref).2.2 h
  | frameOrientation frame ref w =>
    cases k <;> first | exact Or.inl ⟨rfl, fun _ _ => rfl⟩ | exact orientation_right R Q t hL calls sv cv hsv hcv hm hx frame ref w h
  | frameAngularVelocity frame gain ref =>
    cases k <;> first | exact Or.inl ⟨rfl, fun _ _ => rfl⟩ | exact velocity_right R Q t hL calls sv cv hsv hcv hm hx hs hR hE frame gain ref h
  | staticTorques a b l r' w =>
    cases k <;> first | exact Or.inl ⟨rfl, fun _ _ => rfl⟩ | exact torques_right R Q t hL calls sv cv hsv hcv hm hx a b l r' w h
  | feetDistance => cases k <;> first | exact Or.inl ⟨rfl, fun _ _ => rfl⟩ | exact feet_right R Q t hL calls sv cv hsv hcv
  | meanPointPosition ref w => cases k <;> first | exact Or.inl ⟨rfl, fun _ _ => rfl⟩ | exact mean_right R Q t hL calls sv cv hsv hcv ref w
  | jointsVelocityForPostural w g ref => cases k <;> first | exact Or.inl ⟨rfl, fun _ _ => rfl⟩ | exact postural_right R Q t hL calls sv cv hsv hcv w g ref
  | footYaw p ref => cases k <;> first | exact Or.inl ⟨rfl, fun _ _ => rfl⟩ | exact yaw_right R Q t hL calls sv cv hsv hcv _ p ref
  | forceMean => cases k <;> first | exact Or.inl ⟨rfl, fun _ _ => rfl⟩ | exact (hp _ _).1
  | forceRatio a => cases k <;> first | exact Or.inl ⟨rfl, fun _ _ => rfl⟩ | exact (hp _ _).2.1 a
  | swing a b => cases k <;> first | exact Or.inl ⟨rfl, fun _ _ => rfl⟩ | exact (hp _ _).2.2.1 a b
  | phantomForces a => cases k <;> first | exact Or.inl ⟨rfl, fun _ _ => rfl⟩ | exact (hp _ _).2.2.2.1 a
  | complementarity => cases k <;> first | exact Or.inl ⟨rfl, fun _ _ => rfl⟩ | exact (hp _ _).2.2.2.2

/-- The sum of the terms. -/
theorem terms_right {cfg : Levi.Ex.Cfg ℝ} (hs : Levi.Spec.Sound cfg) (hR : R.rot.Made cfg) (hE : R.norm.Made cfg) (l : List (Term ℝ T))
    (h : ∀ y ∈ l, BodyReady (n := n) R Q t (readState r sv) y.body) :
    (objectiveGradients R Q r calls (readState (n := n) r sv) (readControl (n := n) r cv) sv cv t l = none ∧
      ∀ v w, objective R Q (readState (n := n) r v) (readControl (n := n) r w) v w t l = none) ∨
    ∃ g, objectiveGradients R Q r calls (readState (n := n) r sv) (readControl (n := n) r cv) sv cv t l = some g ∧
      Right (n := n) (nj := nj) sv cv (fun v w => objective R Q (readState (n := n) r v) (readControl (n := n) r w) v w t l) g (∀ y ∈ l, NoVelocity y.body) := by
  induction l with
  | nil =>
    exact Or.inr ⟨_, rfl, fun i _ => ⟨fun _ => 0, fun a => rfl, hasDerivAt_const _ _⟩, fun _ i _ => ⟨fun _ => 0, fun a => rfl, hasDerivAt_const _ _⟩⟩
  | cons y l ih =>
    have ih := ih fun z hz => h z (List.mem_cons_of_mem _ hz)
    have hy := body_right R Q t hL calls sv cv hsv hcv hm hx hs hR hE y.cost y.body (h y List.mem_cons_self)
    by_cases ha : isActive y.range t
    · simp only [objectiveGradients, objective, if_pos ha]
      rcases hy with ⟨h1, h2⟩ | ⟨g, hg, h1, h2⟩
      · exact Or.inl ⟨by simp [h1], fun v w => by simp [h2]⟩
      · rcases ih with ⟨h3, h4⟩ | ⟨g', hg', h3, h4⟩
        · exact Or.inl ⟨by simp [h3], fun v w => by simp [h4]⟩
        · refine Or.inr ⟨_, by simp only [hg, hg']; rfl, fun i hi => ?_, fun hc i hi => ?_⟩
          · obtain ⟨f, e, d⟩ := h1 i hi
            obtain ⟨f', e', d'⟩ := h3 i hi
            dsimp only at e e'
            exact ⟨fun a => y.weight * f a + f' a, fun a => by simp [e, e'], (d.const_mul _).add d'⟩
          · obtain ⟨f, e, d⟩ := h2 (hc y List.mem_cons_self) i hi
            obtain ⟨f', e', d'⟩ := h4 (fun z hz => hc z (List.mem_cons_of_mem _ hz)) i hi
            dsimp only at e e'
            exact ⟨fun a => y.weight * f a + f' a, fun a => by simp [e, e'], (d.const_mul _).add d'⟩
    · simp only [objectiveGradients, objective, if_neg ha]
      rcases ih with h1 | ⟨g, hg, h1, h2⟩
      · exact Or.inl h1
      · exact Or.inr ⟨g, hg, h1, fun hc => h2 fun z hz => hc z (List.mem_cons_of_mem _ hz)⟩

end

variable {st : ProblemSettings ℝ T}

theorem frame_read {s : State ℝ} {q : V4 ℝ} (hs : StateSize nj n s) (frame : String) :
    R.server.kin.world (baseTransform (readState (n := n) (rangesAt nj n) (stateVector s q))) (jointsOf (readState (n := n) (rangesAt nj n) (stateVector s q)))
      (R.server.frames.link (R.frame frame)) * R.server.frames.offset (R.frame frame) = Spec.framePose R.toObjects s q frame := by
  rw [read_pose q hs, read_joints q hs]; rfl

theorem ready (hl : st.leftPointsPosition.length = n) (hr : st.rightPointsPosition.length = n) {s : State ℝ} {q : V4 ℝ} (hs : StateSize nj n s)
    (hD : Spec.Differentiable R Q t st s q) {y : Term ℝ T} (h : y ∈ costTerms st (rangesAt nj n)) :
    BodyReady (n := n) R Q t (readState (rangesAt nj n) (stateVector s q)) y.body := by
  have hI := inside hl hr h
  rw [costTerms, List.mem_flatten] at h
  obtain ⟨l, hl', hy⟩ := h
  simp only [costBlocks, List.mem_cons, List.not_mem_nil, or_false] at hl'
  rcases hl' with rfl | rfl | rfl | rfl | rfl | rfl | rfl | rfl | rfl | rfl | rfl | rfl | rfl | rfl | rfl | rfl | rfl | rfl | rfl | rfl | rfl | rfl | rfl | rfl
  all_goals first
    | (obtain rfl := mem_one hy; exact hI)
    | (obtain rfl := mem_one hy; exact ⟨hI, rfl⟩)
    | (obtain ⟨f, i, hi, rfl⟩ := mem_pts hl hr hy; exact hI)
    | skip
  · by_cases hb : st.frameCostActive
    · rw [if_pos hb] at hy
      obtain rfl := List.mem_singleton.1 hy
      intro Rd hRd
      rw [setOr_eq] at hRd
      have := hD.orientation hb Rd hRd
      rw [← frame_read R hs] at this
      exact this
    · simp [hb] at hy
  · by_cases hb : st.staticTorquesCostActive
    · rw [if_pos hb] at hy
      obtain rfl := List.mem_singleton.1 hy
      obtain ⟨h1, h2⟩ := hD.torques hb
      refine ⟨h1, fun side => ?_⟩
      cases side
      · have := h2 st.leftFrameName (by simp)
        rw [← frame_read R hs] at this
        exact this
      · have := h2 st.rightFrameName (by simp)
        rw [← frame_read R hs] at this
        exact this
    · simp [hb] at hy
  · by_cases hb : st.frameAngularVelocityCostActive
    · rw [if_pos hb] at hy
      obtain rfl := List.mem_singleton.1 hy
      exact hD.velocity hb
    · simp [hb] at hy

theorem noVelocity (hl : st.leftPointsPosition.length = n) (hr : st.rightPointsPosition.length = n) (hN : st.frameAngularVelocityCostActive = false) {y : Term ℝ T}
    (h : y ∈ costTerms st (rangesAt nj n)) : NoVelocity y.body := by
  rw [costTerms, List.mem_flatten] at h
  obtain ⟨l, hl', hy⟩ := h
  simp only [costBlocks, List.mem_cons, List.not_mem_nil, or_false] at hl'
  rcases hl' with rfl | rfl | rfl | rfl | rfl | rfl | rfl | rfl | rfl | rfl | rfl | rfl | rfl | rfl | rfl | rfl | rfl | rfl | rfl | rfl | rfl | rfl | rfl | rfl
  all_goals first
    | (obtain rfl := mem_one hy; trivial)
    | (obtain ⟨f, i, hi, rfl⟩ := mem_pts hl hr hy; trivial)
    | (simp [hN] at hy)

/-- **C91** (partial). When the variables and the costs are set without errors, the gradients that the optimiser sees at a time exist exactly when the value does, and then,
whatever was evaluated before, each of their entries is the derivative of the value with respect to that entry of the vector of the optimiser: of the state always, of the
control if the cost of the angular velocity of the frame is not active. Missing: the derivative of that cost with respect to the control, which is wrong (C70). -/
theorem C91_gradient_partial (hm : m.Regular) {cfg : Levi.Ex.Cfg ℝ} (hcfg : Levi.Spec.Sound cfg) (hR : R.rot.Made cfg) (hE : R.norm.Made cfg)
    {accepts : List (Term ℝ T) → Term ℝ T → Bool} {ls lc ls' lc' : Labeller ℝ} {r : Ranges} (hd : st.dofs = nj)
    (hv : setVariablesStructure ls lc nj n = some (ls', lc', r)) (hl : st.leftPointsPosition.length = n) (hr : st.rightPointsPosition.length = n) (hn : 0 < n)
    {terms : List (Term ℝ T)} (h : setCosts accepts st ls' lc' = some terms) (calls : List (StaticTorques.Call n nj))
    (s : State ℝ) (q : V4 ℝ) (c : Control ℝ) (hs : StateSize nj n s) (hc : ControlSize nj n c) (hD : Spec.Differentiable R Q t st s q) :
    ((gradientsOn R Q r n calls terms t (stateVector s q) (controlVector c)).isSome ↔ (objectiveAt R Q r n terms t s q c).isSome) ∧
    ∀ g, gradientsOn R Q r n calls terms t (stateVector s q) (controlVector c) = some g →
      (∀ i < 12 * n + 16 + nj, Spec.PartialDerivative (fun v => objectiveOn R Q r n terms t v (controlVector c)) (stateVector s q) i (g.state i)) ∧
      (st.frameAngularVelocityCostActive = false →
        ∀ i < 12 * n + 7 + nj, Spec.PartialDerivative (fun w => objectiveOn R Q r n terms t (stateVector s q) w) (controlVector c) i (g.control i)) := by
  have hL := labels hv
  obtain rfl := ranges_eq hv
  have hterms : terms = costTerms st (rangesAt nj n) := by
    subst hd
    exact ((costs_list hv hl hr hn terms).1 h).2.2
  subst hterms
  have key := terms_right R Q t hL calls (stateVector s q) (controlVector c) (state_len q hs) (control_len hc) hm
    (by rw [read_quat q hs]; exact hD.base) hcfg hR hE (costTerms st (rangesAt nj n)) fun y hy => ready R Q t hl hr hs hD hy
  rcases key with ⟨h1, h2⟩ | ⟨g, h1, h2, h3⟩
  · refine ⟨?_, fun g hg => ?_⟩
    · have : objectiveAt R Q (rangesAt nj n) n (costTerms st (rangesAt nj n)) t s q c = none := h2 _ _
      rw [gradientsOn, h1, this]
      simp
    · rw [gradientsOn, h1] at hg; simp at hg
  · refine ⟨?_, fun g' hg => ?_⟩
    · obtain ⟨f, e, -⟩ := h2 0 (by omega)
      have e := e ((stateVector s q).getD 0 0)
      have es : (stateVector s q).set 0 ((stateVector s q).getD 0 0) = stateVector s q := by
        cases stateVector s q <;> simp
      rw [es] at e
      have : objectiveAt R Q (rangesAt nj n) n (costTerms st (rangesAt nj n)) t s q c = _ := e
      rw [gradientsOn, h1, this]
      simp
    · rw [gradientsOn, h1] at hg
      cases hg
      exact ⟨h2, fun hN => h3 fun y hy => noVelocity hl hr hN hy⟩

section Examples
open Sample
variable (rot : RotExprs) (norm : NormExprs) (order : List StateTask) (order' : List MixedTask) (leftover : Leftover 1) (stored : V3 ℝ) (held : Held 1)

theorem Sample.frame_one (z w φ : ℝ) (f : String) :
    (Spec.framePose (Sample.costObjects rot norm order order' leftover stored held true).toObjects (Sample.state z w φ) upright f).R = 1 := by
  refine (congrArg SE3.R (Sample.frame_eq rot norm order order' leftover stored z w φ f)).trans ?_
  by_cases h : f = "r_sole" <;> simp [h, translation]

theorem Sample.busy_differentiable (z w φ : ℝ) :
    Spec.Differentiable (Sample.costObjects rot norm order order' leftover stored held true) Sample.readings 0 Sample.busy (Sample.state z w φ) upright := by
  have h3 : (-1 : ℝ) < (1 : Matrix (Fin 3) (Fin 3) ℝ).trace := by simp; norm_num
  refine ⟨(Sample.busy_evaluable rot norm order order' leftover stored held z w φ).velocity rfl, fun h =>
    ⟨(Sample.busy_evaluable rot norm order order' leftover stored held z w φ).torques h, fun f _ => ?_⟩, fun _ Rd h => ?_, fun _ => ?_⟩
  · dsimp only
    rw [Sample.frame_one rot norm order order' leftover stored held]
    have h := Quaternion.trace_quaternion one_rotation.1 one_rotation.2 h3
    exact ⟨h.1, h.2.1, Quaternion.trace_transpose⟩
  · have : Rd = 1 := (Option.some.inj h).symm
    rw [Sample.frame_one rot norm order order' leftover stored held, this, transpose_one, Matrix.one_mul]
    exact ⟨one_rotation, Quaternion.steady_trace h3⟩
  · exact Server.keepsAxes_ofLink server 0

/-- The hypotheses of C91 hold with twelve kinds of costs, and there are gradients. -/
example (labels : Labeller ℝ) {cfg : Levi.Ex.Cfg ℝ} (hcfg : Levi.Spec.Sound cfg) : ∃ rot norm, ∃ terms ls' lc' r, setVariablesStructure labels labels 1 1 = some (ls', lc', r) ∧
    setCosts (SolverM.Spec.ocpCosts fun _ => true) Sample.busy ls' lc' = some terms ∧ ∀ calls z w φ ψ,
      ∀ g, gradientsOn (Sample.costObjects rot norm order order' leftover stored held true) Sample.readings r 1 calls terms 0
          (stateVector (Sample.state z w φ) upright) (controlVector (Sample.control w ψ)) = some g →
        ∀ i < 29, Spec.PartialDerivative (fun v => objectiveOn (Sample.costObjects rot norm order order' leftover stored held true) Sample.readings r 1 terms 0 v
          (controlVector (Sample.control w ψ))) (stateVector (Sample.state z w φ) upright) i (g.state i) := by
  obtain ⟨rot, hR⟩ := C65_expressions_exist hcfg
  obtain ⟨norm, hE⟩ := C64_expressions_exist hcfg
  obtain ⟨a, b, e, -⟩ := structure_ok labels labels 1 1
  obtain ⟨terms, ht⟩ := Option.isSome_iff_exists.1 ((C53_costs_set_iff (st := Sample.busy) (fun _ => true) e rfl rfl one_pos).2
    ⟨by constructor <;> simp [Sample.busy, Sample.settings], by constructor <;> simp⟩)
  refine ⟨rot, norm, terms, a, b, _, e, ht, fun calls z w φ ψ g hg => ?_⟩
  exact ((C91_gradient_partial (Sample.costObjects rot norm order order' leftover stored held true) Sample.readings 0 biped_regular hcfg hR hE rfl e rfl rfl one_pos ht calls _ _ _
    (state_size z w φ) (control_size w ψ) (Sample.busy_differentiable rot norm order order' leftover stored held z w φ)).2 g hg).1

theorem Sample.com_terms : costTerms Sample.comOnly (rangesAt 1 1) = [⟨.comPosition, 1, some ⟨0, 1⟩, .stateNorm ⟨18, 3⟩ (some [1, 2, 3]) (some ())⟩] := rfl

theorem Sample.com_terms' {accepts : List (Term ℝ Unit) → Term ℝ Unit → Bool} {ls lc ls' lc' : Labeller ℝ} {r : Ranges} (e : setVariablesStructure ls lc 1 1 = some (ls', lc', r))
    {terms : List (Term ℝ Unit)} (ht : setCosts accepts Sample.comOnly ls' lc' = some terms) :
    terms = [⟨.comPosition, 1, some ⟨0, 1⟩, .stateNorm ⟨18, 3⟩ (some [1, 2, 3]) (some ())⟩] := by
  rw [← Sample.com_terms]
  have e' : setVariablesStructure ls lc Sample.comOnly.dofs 1 = some (ls', lc', r) := e
  have hl : Sample.comOnly.leftPointsPosition.length = 1 := rfl
  have hr : Sample.comOnly.rightPointsPosition.length = 1 := rfl
  have hd : Sample.comOnly.dofs = 1 := rfl
  have := ((costs_list e' hl hr one_pos terms).1 ht).2.2
  rw [hd] at this
  exact this

theorem Sample.com_segment (z w φ : ℝ) : segmentOf ⟨18, 3⟩ (stateVector (Sample.state z w φ) upright) = [0, 0, z] := rfl

theorem Sample.com_gradient (r : Ranges) (calls : List (StaticTorques.Call 1 1)) (z w φ ψ : ℝ) :
    ∃ g, gradientsOn (Sample.costObjects rot norm order order' leftover stored held true) Sample.readings r 1 calls
      [⟨.comPosition, 1, some ⟨0, 1⟩, .stateNorm ⟨18, 3⟩ (some [1, 2, 3]) (some ())⟩] (1 / 2)
      (stateVector (Sample.state z w φ) upright) (controlVector (Sample.control w ψ)) = some g ∧ g.state 20 = 3 * (z - 1) ∧ g.control 5 = 0 := by
  have ha : isActive (some ⟨0, 1⟩ : Option (Reference.TimeRange ℝ)) (1 / 2) := by constructor <;> norm_num
  have hn : normReference Sample.readings 3 (1 / 2) (some ()) = some [0, 0, 1] := by simp [normReference, Sample.readings]
  have hg : ∀ x u sv cv, gradBody (Sample.costObjects rot norm order order' leftover stored held true) Sample.readings r calls x u sv cv (1 / 2) .comPosition
      (.stateNorm ⟨18, 3⟩ (some [1, 2, 3]) (some ())) = some ⟨segmentGradient ⟨18, 3⟩ (normGradient [1, 2, 3] (segmentOf ⟨18, 3⟩ sv) [0, 0, 1]), fun _ => 0⟩ := by
    intro x u sv cv
    simp only [gradBody, hn, Option.map_some, normWeights]
  refine ⟨⟨fun i => 1 * segmentGradient ⟨18, 3⟩ (normGradient [1, 2, 3] [0, 0, z] [0, 0, 1]) i + 0, fun _ => 1 * 0 + 0⟩, ?_, ?_, ?_⟩
  · simp only [gradientsOn, objectiveGradients, if_pos ha, hg, Sample.com_segment]; rfl
  · simp [segmentGradient, normGradient]
  · simp

/-- With the cost of the centre of mass only (weights 1, 2, 3, target at one metre): there are gradients, and the derivative with respect to the height of the centre of mass (the
entry 20) is `3 (z - 1)`. -/
example (labels : Labeller ℝ) : ∃ terms ls' lc' r, setVariablesStructure labels labels 1 1 = some (ls', lc', r) ∧
    setCosts (SolverM.Spec.ocpCosts fun _ => true) Sample.comOnly ls' lc' = some terms ∧ ∀ calls z w φ ψ,
      ∃ g, gradientsOn (Sample.costObjects rot norm order order' leftover stored held true) Sample.readings r 1 calls terms (1 / 2)
          (stateVector (Sample.state z w φ) upright) (controlVector (Sample.control w ψ)) = some g ∧ g.state 20 = 3 * (z - 1) ∧ g.control 5 = 0 := by
  obtain ⟨a, b, e, -⟩ := structure_ok labels labels 1 1
  obtain ⟨terms, ht⟩ := Option.isSome_iff_exists.1 ((C53_costs_set_iff (st := Sample.comOnly) (fun _ => true) e rfl rfl one_pos).2
    ⟨by constructor <;> simp [Sample.comOnly, Sample.settings], by constructor <;> simp⟩)
  have hterms := Sample.com_terms' e ht
  subst hterms
  exact ⟨_, a, b, _, e, ht, fun calls z w φ ψ => Sample.com_gradient rot norm order order' leftover stored held _ calls z w φ ψ⟩

end Examples

end
end Verif.Plan
