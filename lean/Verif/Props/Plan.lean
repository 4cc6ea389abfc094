import Verif.Lemmas.Plan4
import Verif.Lemmas.PlanSample
/- C83: what the constraints of the problem mean together.  C84, C85: what a trajectory that satisfies the problem does. -/
set_option linter.unusedSectionVars false
namespace Verif.Plan
open NLP NLP.Kin SolverM StateM Rigid Matrix Filter Topology Set
open Verif.Quaternion.Spec
open SolverM.Spec (stateVector controlVector StateSize ControlSize footPoints footFrame IsPoint)
open Labeller (Labeller)
noncomputable section
variable {n nj : ℕ} {L F T : Type} [DecidableEq L] [DecidableEq F] {m : Model L (Fin nj)} (R : Objects m F)

/-- **C83.** When the variables and the constraints are set without errors, whatever the optimal control problem accepts, the vectors made from a state and a
control satisfy all the constraints of the problem if and only if the state and the control agree with the robot and with the settings: centre of mass
and angular momentum are the ones of the robot, the points are the ones of the feet, the forces are in the friction cones, the quaternion has unit norm,
the feet are far enough from each other and about as high, and the chosen mechanisms keep loaded points still and unload raised points. -/
theorem C83_feasible_iff_consistent {st : ProblemSettings ℝ T} {accepts : List (SolverM.Con ℝ) → SolverM.Con ℝ → Bool} {l : List (SolverM.Con ℝ)}
    (h : setConstraints accepts st = some l) (hd : 0 ≤ st.minimumFeetDistance)
    (hl : st.leftPointsPosition.length = n) (hr : st.rightPointsPosition.length = n)
    {ls lc ls' lc' : Labeller ℝ} {r : Ranges} (hv : setVariablesStructure ls lc nj n = some (ls', lc', r)) (hM : Spec.mass m ≠ 0)
    {s : State ℝ} {c : Control ℝ} (q : V4 ℝ) (hs : StateSize nj n s) (hc : ControlSize nj n c) :
    (∀ k ∈ l, satisfied R (readState (n := n) r (stateVector s q)) (readControl r (controlVector c)) k) ↔ Spec.Consistent R st s q c := by
  obtain rfl := ranges_eq hv
  have ready := ((setConstraints_iff l).1 h).1
  have mem := (C54_constraints hd h).2
  have hfoot : ∀ f, (footPoints st f).length = n := fun f => by cases f; exacts [hl, hr]
  have hpts : ∀ f, (Spec.points s f).length = n := fun f => by cases f; exacts [hs.left, hs.right]
  have hins : ∀ f, (Spec.inputs c f).length = n := fun f => by cases f; exacts [hc.left, hc.right]
  have isPoint : ∀ f (i : ℕ) (p : PointState ℝ), (Spec.points s f)[i]? = some p → ∃ hi : i < n, IsPoint st f i := fun f i p hp => by
    have := (List.getElem?_eq_some_iff.1 hp).1
    rw [hpts] at this
    exact ⟨this, by unfold SolverM.Spec.IsPoint; rw [hfoot]; exact this⟩
  have point : ∀ f (i : ℕ), IsPoint st f i → ∃ hi : i < n, ∃ p v, (Spec.points s f)[((⟨i, hi⟩ : Fin n) : ℕ)]? = some p ∧
      (Spec.inputs c f)[((⟨i, hi⟩ : Fin n) : ℕ)]? = some v := fun f i hi => by
    unfold SolverM.Spec.IsPoint at hi
    rw [hfoot] at hi
    exact ⟨hi, _, _, List.getElem?_eq_getElem (by rw [hpts]; exact hi), List.getElem?_eq_getElem (by rw [hins]; exact hi)⟩
  constructor
  · intro H
    have H : ∀ k, SolverM.Spec.Wanted st k → _ := fun k hk => H k ((mem k).2 hk)
    refine ⟨(momentum_iff R q hs hc hM _).1 (H _ ⟨rfl, rfl⟩), (com_iff R q hs hc hM _).1 (H _ ⟨rfl, rfl⟩), ?_,
      (quaternion_iff R q hs hc _).1 (H _ ⟨rfl, rfl⟩), (height_iff R q hs hc _).1 (H _ rfl), ?_, ?_, ?_, ?_⟩
    · rintro i hi
      obtain ⟨_, e⟩ := (distance_iff R q hs hc _ _ _ _).1 (H (.feetLateralDistance st.indexOfLateralDirection st.referenceFrameNameForFeetDistance
        st.otherFrameNameForFeetDistance st.minimumFeetDistance) ⟨rfl, rfl, rfl, rfl⟩)
      have : i = ⟨st.indexOfLateralDirection, ready.lateral⟩ := Fin.ext hi
      rw [this]; exact e
    · intro f p hp
      obtain ⟨i, hp⟩ := List.mem_iff_getElem?.1 hp
      obtain ⟨hi, w⟩ := isPoint f i p hp
      exact (friction_iff R q hs hc f ⟨i, hi⟩ p hp _ ready.friction).1 (H _ ⟨w, rfl⟩)
    · intro f i p b hp hb
      obtain ⟨hi, w⟩ := isPoint f i p hp
      exact (contact_iff R q hs hc f ⟨i, hi⟩ p hp _ _ _).1 (H _ ⟨hb, rfl, rfl, rfl⟩)
    · intro f i p v hp hv
      obtain ⟨hi, w⟩ := isPoint f i p hp
      unfold Spec.NoSlip
      cases e : st.planarComplementarity with
      | hyperbolicTangentInequality => exact (planar_iff R q hs hc f ⟨i, hi⟩ p hp v hv _ _ _).1 (H _ ⟨w, e, rfl, rfl, rfl⟩)
      | classical => exact (planarClassical_iff R q hs hc f ⟨i, hi⟩ p hp v hv _).1 (H _ ⟨w, e, rfl⟩)
      | hyperbolicTangentInDynamics => trivial
    · intro f i p v hp hv
      obtain ⟨hi, w⟩ := isPoint f i p hp
      unfold Spec.NoForceAbove
      cases e : st.complementarity with
      | dynamical => exact (dynamical_iff R q hs hc f ⟨i, hi⟩ p hp v hv _ _).1 (H _ ⟨w, e, rfl, rfl⟩)
      | hyperbolicSecantInequality => exact (forceControl_iff R q hs hc f ⟨i, hi⟩ p hp v hv _ _ _).1 (H _ ⟨w, e, rfl, rfl, rfl⟩)
      | classical => exact (classical_iff R q hs hc f ⟨i, hi⟩ p hp v hv _).1 (H _ ⟨w, e, rfl⟩)
      | hyperbolicSecantInDynamics => trivial
  · intro H k hk
    have hk := (mem k).1 hk
    cases k with
    | centroidalMomentum lo up => obtain ⟨rfl, rfl⟩ := hk; exact (momentum_iff R q hs hc hM _).2 H.momentum
    | comPosition lo up => obtain ⟨rfl, rfl⟩ := hk; exact (com_iff R q hs hc hM _).2 H.com
    | feetLateralDistance d a b lo =>
      obtain ⟨rfl, rfl, rfl, rfl⟩ := hk
      exact (distance_iff R q hs hc _ _ _ _).2 ⟨ready.lateral, H.distance ⟨_, ready.lateral⟩ rfl⟩
    | quaternionNorm lo up => obtain ⟨rfl, rfl⟩ := hk; exact (quaternion_iff R q hs hc _).2 H.quaternion
    | feetRelativeHeight a => obtain rfl := hk; exact (height_iff R q hs hc _).2 H.height
    | planarVelocityControl f i a x y =>
      obtain ⟨w, e, rfl, rfl, rfl⟩ := hk
      obtain ⟨hi, p, v, hp, hv⟩ := point f i w
      have := H.slip f i p v hp hv
      unfold Spec.NoSlip at this
      rw [e] at this
      exact (planar_iff R q hs hc f ⟨i, hi⟩ p hp v hv _ _ _).2 this
    | classicalPlanarComplementarity f i a =>
      obtain ⟨w, e, rfl⟩ := hk
      obtain ⟨hi, p, v, hp, hv⟩ := point f i w
      have := H.slip f i p v hp hv
      unfold Spec.NoSlip at this
      rw [e] at this
      exact (planarClassical_iff R q hs hc f ⟨i, hi⟩ p hp v hv _).2 this
    | dynamicalComplementarity f i a b =>
      obtain ⟨w, e, rfl, rfl⟩ := hk
      obtain ⟨hi, p, v, hp, hv⟩ := point f i w
      have := H.normal f i p v hp hv
      unfold Spec.NoForceAbove at this
      rw [e] at this
      exact (dynamical_iff R q hs hc f ⟨i, hi⟩ p hp v hv _ _).2 this
    | forceControl f i a b d =>
      obtain ⟨w, e, rfl, rfl, rfl⟩ := hk
      obtain ⟨hi, p, v, hp, hv⟩ := point f i w
      have := H.normal f i p v hp hv
      unfold Spec.NoForceAbove at this
      rw [e] at this
      exact (forceControl_iff R q hs hc f ⟨i, hi⟩ p hp v hv _ _ _).2 this
    | classicalComplementarity f i a =>
      obtain ⟨w, e, rfl⟩ := hk
      obtain ⟨hi, p, v, hp, hv⟩ := point f i w
      have := H.normal f i p v hp hv
      unfold Spec.NoForceAbove at this
      rw [e] at this
      exact (classical_iff R q hs hc f ⟨i, hi⟩ p hp v hv _).2 this
    | friction f i a =>
      obtain ⟨w, rfl⟩ := hk
      obtain ⟨hi, p, v, hp, hv⟩ := point f i w
      exact (friction_iff R q hs hc f ⟨i, hi⟩ p hp _ ready.friction).2 (H.friction f p (List.mem_of_getElem? hp))
    | contactPosition f i frame b lo up =>
      obtain ⟨hb, rfl, rfl, rfl⟩ := hk
      obtain ⟨hi, p, v, hp, hv⟩ := point f i (List.getElem?_eq_some_iff.1 hb).1
      exact (contact_iff R q hs hc f ⟨i, hi⟩ p hp _ _ _).2 (H.contact f i p b hp hb)

/-! ### Trajectories -/

section Trajectory
variable {st : ProblemSettings ℝ T} {accepts : List (SolverM.Con ℝ) → SolverM.Con ℝ → Bool} {l : List (SolverM.Con ℝ)}
  (h : setConstraints accepts st = some l) (hd : 0 ≤ st.minimumFeetDistance)
  (hl : st.leftPointsPosition.length = n) (hr : st.rightPointsPosition.length = n)
  {ls lc ls' lc' : Labeller ℝ} {r : Ranges} (hv : setVariablesStructure ls lc nj n = some (ls', lc', r)) (hM : Spec.mass m ≠ 0)
  {s : ℝ → State ℝ} {q : ℝ → V4 ℝ} {c : ℝ → Control ℝ} {horizon : ℝ}
  (hs : ∀ t ∈ Ioo 0 horizon, StateSize nj n (s t)) (hc : ∀ t ∈ Ioo 0 horizon, ControlSize nj n (c t))
  (hf : ∀ t ∈ Ioo 0 horizon, Follows (n := n) nj (dynamicsParams nj (m.links.map fun k => (m.inertia k).mass) (dynamicsSetup st)) r s q c t)
  (hk : ∀ t ∈ Ioo 0 horizon, ∀ k ∈ l, satisfied R (readState (n := n) r (stateVector (s t) (q t))) (readControl r (controlVector (c t))) k)
  {t : ℝ} (ht : t ∈ Ioo 0 horizon)
include h hd hl hr hv hM hs hc hk

theorem consistent : ∀ t ∈ Ioo 0 horizon, Spec.Consistent R st (s t) (q t) (c t) := fun t ht =>
  (C83_feasible_iff_consistent R h hd hl hr hv hM (q t) (hs t ht) (hc t ht)).1 (hk t ht)

include hf ht

/-- **C84.** Along every trajectory that follows the dynamics given to the optimiser and satisfies the constraints of the problem, whatever the tolerances: the
centre of mass and the angular momentum of the robot are, within half the tolerances, those of a motion that obeys the equations of Newton and Euler
with the contact forces of the plan. -/
theorem C84_newton_euler :
    Spec.Close (st.comPositionConstraintTolerance / 2) (Spec.centre R (s t) (q t)) (toVec (s t).com) ∧
    Spec.Close (st.centroidalMomentumConstraintTolerance / 2) (Spec.angularMomentum R (s t) (q t) (c t)) (toVec (s t).angularMomentum) ∧
    HasDerivAt (fun τ => toVec (s τ).com) ((Spec.mass m)⁻¹ • toVec (s t).linearMomentum) t ∧
    HasDerivAt (fun τ => toVec (s τ).linearMomentum) (Spec.weight m + Spec.contactForce (s t)) t ∧
    HasDerivAt (fun τ => toVec (s τ).angularMomentum) (Spec.contactMoment (s t) (toVec (s t).com)) t := by
  have C := consistent R h hd hl hr hv hM hs hc hk t ht
  obtain rfl := ranges_eq hv
  have hev : ∀ᶠ τ in 𝓝 t, StateSize nj n (s τ) := eventually_of_mem (isOpen_Ioo.mem_nhds ht) hs
  have hmass : (dynamicsParams nj (m.links.map fun k => (m.inertia k).mass) (dynamicsSetup st)).mass = Spec.mass m := Dynamics.C15_total_mass _
  refine ⟨C.com, C.momentum, ?_, ?_, rate_angular hev (hc t ht) (hf t ht)⟩
  · have := rate_com hev (hc t ht) (hf t ht) (by rw [hmass]; exact hM)
    rwa [hmass] at this
  · have := rate_linear hev (hc t ht) (hf t ht)
    rwa [hmass] at this

variable (hm : m.Regular) (h1 : st.comPositionConstraintTolerance = 0) (h2 : st.quaternionModulusConstraintTolerance = 0)

omit hs hc hf ht h hd hl hr hv hM hk in
theorem close_zero {δ : ℝ} (hδ : δ = 0) {a b : Vec} (h : Spec.Close (δ / 2) a b) : a = b := by
  subst hδ
  funext i
  have := h i
  rw [zero_div] at this
  exact sub_eq_zero.1 (abs_nonpos_iff.1 this)

omit hf ht in
include h2 in
theorem unit_of : ∀ t ∈ Ioo 0 horizon, UnitQ (Spec.quat (q t)) := fun t ht => by
  have C := (consistent R h hd hl hr hv hM hs hc hk t ht).quaternion
  rw [h2, zero_div] at C
  exact (unit_iff _).2 (sub_eq_zero.1 (abs_nonpos_iff.1 C))

include hm h2

/-- **C84.** If the quaternion is exactly unit, each link of the robot moves with the velocity that the kinematics give for the velocities of the control. -/
theorem C84_links_move (k : L) :
    HasTangent (fun τ => R.server.kin.world (Spec.pose (s τ) (q τ)) (Spec.joints (s τ)) k)
      (R.server.kin.vel (Spec.twist (q t) (c t)) (Spec.joints (s t)) (Spec.jointVelocities (c t)) k) t := by
  have hu := unit_of R h hd hl hr hv hM hs hc hk h2
  obtain rfl := ranges_eq hv
  exact tangent_link R (eventually_of_mem (isOpen_Ioo.mem_nhds ht) hs) (hc t ht) rfl (hf t ht) (eventually_of_mem (isOpen_Ioo.mem_nhds ht) hu) hm k

include h1

/-- **C84.** If centre of mass and quaternion are constrained exactly, the linear momentum of the state is the linear momentum of the links of the robot: the
problem does not have a constraint that says so. -/
theorem C84_linear_momentum : Spec.linearMomentum R (s t) (q t) (c t) = toVec (s t).linearMomentum := by
  have C := consistent R h hd hl hr hv hM hs hc hk
  have hu := unit_of R h hd hl hr hv hM hs hc hk h2
  have N := (C84_newton_euler R h hd hl hr hv hM hs hc hf hk ht).2.2.1
  obtain rfl := ranges_eq hv
  have e := rate_centre R (eventually_of_mem (isOpen_Ioo.mem_nhds ht) hs) (hc t ht) rfl (hf t ht) (eventually_of_mem (isOpen_Ioo.mem_nhds ht) hu) hm
  have e2 := e.congr_of_eventuallyEq (f₁ := fun τ => toVec (s τ).com) (by
    filter_upwards [isOpen_Ioo.mem_nhds ht] with τ hτ
    exact (close_zero h1 (C τ hτ).com).symm)
  have := e2.unique N
  exact smul_right_injective _ (inv_ne_zero hM) this

/-- **C84.** With exact constraints the robot itself obeys the equations of Newton and Euler, its feet being pushed at their points by the forces of the plan. -/
theorem C84_robot_obeys_newton_euler (h3 : st.centroidalMomentumConstraintTolerance = 0) (h4 : st.pointPositionConstraintTolerance = 0) :
    HasDerivAt (fun τ => Spec.centre R (s τ) (q τ)) ((Spec.mass m)⁻¹ • Spec.linearMomentum R (s t) (q t) (c t)) t ∧
    HasDerivAt (fun τ => Spec.linearMomentum R (s τ) (q τ) (c τ)) (Spec.weight m + Spec.contactForce (s t)) t ∧
    HasDerivAt (fun τ => Spec.angularMomentum R (s τ) (q τ) (c τ)) (Spec.footMoment R st (s t) (q t) .left + Spec.footMoment R st (s t) (q t) .right) t := by
  have C := consistent R h hd hl hr hv hM hs hc hk
  have N := C84_newton_euler R h hd hl hr hv hM hs hc hf hk ht
  have hlin : ∀ τ ∈ Ioo 0 horizon, Spec.linearMomentum R (s τ) (q τ) (c τ) = toVec (s τ).linearMomentum := fun τ hτ =>
    C84_linear_momentum R h hd hl hr hv hM hs hc hf hk hτ hm h1 h2
  have near := isOpen_Ioo.mem_nhds ht
  refine ⟨?_, ?_, ?_⟩
  · rw [hlin t ht]
    refine N.2.2.1.congr_of_eventuallyEq ?_
    filter_upwards [near] with τ hτ
    exact close_zero h1 (C τ hτ).com
  · refine N.2.2.2.1.congr_of_eventuallyEq ?_
    filter_upwards [near] with τ hτ
    exact hlin τ hτ
  · have e := N.2.2.2.2.congr_of_eventuallyEq (f₁ := fun τ => Spec.angularMomentum R (s τ) (q τ) (c τ)) (by
      filter_upwards [near] with τ hτ
      exact close_zero h3 (C τ hτ).momentum)
    refine e.congr_deriv ?_
    have foot : ∀ f, Spec.footMoment R st (s t) (q t) f =
        ((Spec.points (s t) f).map fun p => (toVec p.position - toVec (s t).com) ⨯₃ toVec p.force).sum := by
      intro f
      unfold Spec.footMoment
      rw [close_zero h1 (C t ht).com]
      have hlen : (footPoints st f).length = (Spec.points (s t) f).length := by
        cases f
        exacts [hl.trans (hs t ht).left.symm, hr.trans (hs t ht).right.symm]
      congr 1
      refine List.ext_getElem (by simp [hlen]) fun i a b => ?_
      simp only [List.length_map] at b
      rw [List.getElem_zipWith, List.getElem_map,
        close_zero h4 ((C t ht).contact f i _ _ (List.getElem?_eq_getElem b) (List.getElem?_eq_getElem (by omega)))]
    rw [foot .left, foot .right, ← List.sum_append, ← List.map_append]
    rfl

omit hm h1 h2

/-- **C85.** A point of a foot that is loaded and on the ground does not move, for each choice of the mechanisms (with the classical one, if its tolerance is
null), if the points never go below the ground (C30) and their positions are constrained exactly. -/
theorem C85_loaded_points_do_not_move (h4 : st.pointPositionConstraintTolerance = 0)
    (h5 : st.planarComplementarity = .classical → st.classicalPlanarComplementarityTolerance = 0)
    (hz : ∀ τ ∈ Ioo 0 horizon, ∀ foot, ∀ p ∈ Spec.points (s τ) foot, 0 ≤ p.position.z)
    {foot : Foot} {i : ℕ} {p : PointState ℝ} {b : V3 ℝ} (hp : (Spec.points (s t) foot)[i]? = some p) (hb : (footPoints st foot)[i]? = some b)
    (ground : p.position.z = 0) (loaded : 0 < p.force.z) :
    HasDerivAt (fun τ => (Spec.framePose R (s τ) (q τ) (footFrame st foot)).point (toVec b)) 0 t := by
  have C := consistent R h hd hl hr hv hM hs hc hk
  obtain rfl := ranges_eq hv
  have hpts : ∀ τ ∈ Ioo 0 horizon, (Spec.points (s τ) foot).length = n := fun τ hτ => by cases foot; exacts [(hs τ hτ).left, (hs τ hτ).right]
  have hin : (Spec.inputs (c t) foot).length = n := by cases foot; exacts [(hc t ht).left, (hc t ht).right]
  have hi : i < n := by rw [← hpts t ht]; exact (List.getElem?_eq_some_iff.1 hp).1
  have near := isOpen_Ioo.mem_nhds ht
  obtain ⟨v, hv'⟩ : ∃ v, (Spec.inputs (c t) foot)[i]? = some v := ⟨_, List.getElem?_eq_getElem (by omega)⟩
  have e := rate_position (eventually_of_mem near hs) (hc t ht) (hf t ht) foot ⟨i, hi⟩ p hp v hv'
  set P := dynamicsParams nj (m.links.map fun k => (m.inertia k).mass) (dynamicsSetup st) with hP
  -- the position of the state and the point of the foot are the same
  have same : (fun τ => (Spec.framePose R (s τ) (q τ) (footFrame st foot)).point (toVec b)) =ᶠ[𝓝 t]
      fun τ (k : Fin 3) => readState (n := n) (rangesAt nj n) (stateVector (s τ) (q τ)) (.pos (side foot) ⟨i, hi⟩, (k : ℕ)) := by
    filter_upwards [near] with τ hτ
    have hp' : (Spec.points (s τ) foot)[i]? = some ((Spec.points (s τ) foot)[i]'(by rw [hpts τ hτ]; exact hi)) := List.getElem?_eq_getElem _
    funext k
    rw [read_position (q τ) (hs τ hτ) (hc τ hτ) foot ⟨i, hi⟩ _ hp' k]
    exact congrFun (close_zero h4 ((C τ hτ).contact foot i _ b hp' hb)) k
  refine (e.congr_of_eventuallyEq same).congr_deriv ?_
  -- the normal velocity is null: the height is at its minimum
  have hz' : v.velocityControl.z = 0 := by
    have e3 := (hasDerivAt_pi.1 e) 2
    have hmin : IsLocalMin (fun τ => readState (n := n) (rangesAt nj n) (stateVector (s τ) (q τ)) (.pos (side foot) ⟨i, hi⟩, ((2 : Fin 3) : ℕ))) t := by
      filter_upwards [near] with τ hτ
      have hp' : (Spec.points (s τ) foot)[i]? = some ((Spec.points (s τ) foot)[i]'(by rw [hpts τ hτ]; exact hi)) := List.getElem?_eq_getElem _
      rw [read_position (q τ) (hs τ hτ) (hc τ hτ) foot ⟨i, hi⟩ _ hp' 2, read_position (q t) (hs t ht) (hc t ht) foot ⟨i, hi⟩ _ hp 2]
      show p.position.z ≤ _
      rw [ground]
      exact hz τ hτ foot _ (List.mem_of_getElem? hp')
    exact hmin.hasDerivAt_eq_zero e3
  have planar : P.δxy.eval p.position.z * v.velocityControl.x = 0 ∧ P.δxy.eval p.position.z * v.velocityControl.y = 0 := by
    have sl := (C t ht).slip foot i p v hp hv'
    unfold Spec.NoSlip at sl
    cases e : st.planarComplementarity with
    | hyperbolicTangentInequality =>
      rw [e] at sl
      simp only [ground, mul_zero, Real.tanh_zero, zero_mul, abs_nonpos_iff] at sl
      rw [sl.1, sl.2, mul_zero]; exact ⟨rfl, rfl⟩
    | classical =>
      rw [e] at sl
      simp only [h5 e, abs_nonpos_iff, mul_eq_zero, loaded.ne', false_or] at sl
      rw [sl.1, sl.2, mul_zero]; exact ⟨rfl, rfl⟩
    | hyperbolicTangentInDynamics =>
      have : P.δxy.eval p.position.z = 0 := by
        rw [ground, hP]
        simp [Dynamics.Params.δxy, Smooth.Fn.eval, dynamicsParams, dynamicsSetup, e, dynamicsActivation, activation, Smooth.Params.setScaling]
      rw [this, zero_mul, zero_mul]; exact ⟨rfl, rfl⟩
  rw [planar.1, planar.2, hz']
  funext k; fin_cases k <;> rfl

/-- **C85.** With the classical complementarity and null tolerance, a loaded point is on the ground. -/
theorem C85_loaded_points_are_on_the_ground (h6 : st.complementarity = .classical) (h7 : st.classicalComplementarityTolerance = 0)
    {foot : Foot} {i : ℕ} {p : PointState ℝ} (hp : (Spec.points (s t) foot)[i]? = some p) (hz : 0 ≤ p.position.z) (loaded : 0 < p.force.z) :
    p.position.z = 0 := by
  have C := consistent R h hd hl hr hv hM hs hc hk t ht
  have hin : (Spec.inputs (c t) foot).length = n := by cases foot; exacts [(hc t ht).left, (hc t ht).right]
  have hpt : (Spec.points (s t) foot).length = n := by cases foot; exacts [(hs t ht).left, (hs t ht).right]
  have hi : i < n := by rw [← hpt]; exact (List.getElem?_eq_some_iff.1 hp).1
  have := C.normal foot i p _ hp (List.getElem?_eq_getElem (by omega))
  unfold Spec.NoForceAbove at this
  rw [h6] at this
  simp only [h7] at this
  exact le_antisymm (nonpos_of_mul_nonpos_left this loaded) hz

end Trajectory

/-! ### A robot that stands, and that jumps -/

section Examples
open Sample
variable (rot : RotExprs) (norm : NormExprs) (order : List StateTask) (order' : List MixedTask) (leftover : Leftover 1) (stored : V3 ℝ)
local notation "Rob" => objects rot norm order order' leftover stored

variable (k : Settings.ComplementarityType) (pk : Settings.PlanarComplementarityType)

theorem sample_ready : SolverM.Spec.ConstraintsReady (settings k pk) := by constructor <;> simp [settings]

/-- The vertical motions of the robot with two legs satisfy the hypotheses of C83, C84 and C85. -/
theorem sample_meets (hk' : k ≠ .hyperbolicSecantInDynamics) (hpk : pk ≠ .hyperbolicTangentInDynamics) {z w φ ψ : ℝ → ℝ} (h1 : ∀ t, HasDerivAt z (w t) t) (h2 : ∀ t, HasDerivAt w (φ t - 981 / 100) t) (h3 : ∀ t, HasDerivAt φ (ψ t) t)
    (h4 : ∀ t ∈ Ioo (0 : ℝ) 1, 0 ≤ φ t) (hz : ∀ t ∈ Ioo (0 : ℝ) 1, 1 ≤ z t) (h5 : ∀ t ∈ Ioo (0 : ℝ) 1, Unloads k (z t) (w t) (φ t) (ψ t)) (labels : Labeller ℝ) :
    ∃ l ls' lc' r, setConstraints SolverM.Spec.ocpConstraints (settings k pk) = some l ∧ setVariablesStructure labels labels 1 1 = some (ls', lc', r) ∧
      (∀ t, Follows (n := 1) 1 (dynamicsParams 1 (biped.links.map fun k => (biped.inertia k).mass) (dynamicsSetup (settings k pk))) r
        (fun τ => state (z τ) (w τ) (φ τ)) (fun _ => upright) (fun τ => control (w τ) (ψ τ)) t) ∧
      ∀ t ∈ Ioo (0 : ℝ) 1, ∀ k ∈ l, satisfied Rob (readState (n := 1) r (stateVector (state (z t) (w t) (φ t)) upright)) (readControl r (controlVector (control (w t) (ψ t)))) k := by
  obtain ⟨l, hl⟩ := Option.isSome_iff_exists.1 ((C54_constraints_set_iff (st := settings k pk)).2 (sample_ready k pk))
  obtain ⟨a, b, e, -⟩ := structure_ok labels labels 1 1
  refine ⟨l, a, b, _, hl, e, fun t => follows_sample k pk hk' hpk (h1 t) (h2 t) (h3 t), fun t ht => ?_⟩
  exact (C83_feasible_iff_consistent Rob hl (by norm_num [settings]) rfl rfl e mass_ne upright (state_size _ _ _) (control_size _ _)).2
    (consistent_sample rot norm order order' leftover stored k pk _ _ _ _ (h4 t ht) (hz t ht) (h5 t ht))

/-- The robot at rest on both feet, and the same robot one metre higher with the same forces: only the first is accepted. -/
example (labels : Labeller ℝ) : ∃ l ls' lc' r, setConstraints SolverM.Spec.ocpConstraints (settings .classical .classical) = some l ∧ setVariablesStructure labels labels 1 1 = some (ls', lc', r) ∧
    (∀ k ∈ l, satisfied Rob (readState (n := 1) r (stateVector (state 1 0 (981 / 100)) upright)) (readControl r (controlVector (control 0 0))) k) ∧
    ¬ ∀ k ∈ l, satisfied Rob (readState (n := 1) r (stateVector (state 2 0 (981 / 100)) upright)) (readControl r (controlVector (control 0 0))) k := by
  obtain ⟨l, hl⟩ := Option.isSome_iff_exists.1 ((C54_constraints_set_iff (st := settings .classical .classical)).2 (sample_ready _ _))
  obtain ⟨a, b, e, -⟩ := structure_ok labels labels 1 1
  have key := fun z => C83_feasible_iff_consistent Rob hl (by norm_num [settings]) rfl rfl e mass_ne upright (state_size z 0 (981 / 100)) (control_size 0 0)
  refine ⟨l, a, b, _, hl, e, (key 1).2 (consistent_sample rot norm order order' leftover stored _ _ _ _ _ _ (by norm_num) (by norm_num) (by norm_num [Unloads])), fun H => ?_⟩
  have := ((key 2).1 H).normal .left 0 _ _ rfl rfl
  simp [Spec.NoForceAbove, settings] at this
  norm_num at this

/-- The jump: the centre of mass of the robot falls with the acceleration of gravity. -/
example (t : ℝ) (ht : t ∈ Ioo (0 : ℝ) 1) :
    HasDerivAt (fun τ => Spec.linearMomentum Rob (state (2 + 10 * τ - 981 / 200 * τ ^ 2) (10 - 981 / 100 * τ) 0) upright (control (10 - 981 / 100 * τ) 0))
      (Spec.weight biped + 0) t := by
  obtain ⟨l, ls', lc', r, hl, hv, hf, hk⟩ := sample_meets rot norm order order' leftover stored .classical .classical (by simp) (by simp)
    (z := fun τ => 2 + 10 * τ - 981 / 200 * τ ^ 2) (w := fun τ => 10 - 981 / 100 * τ) (φ := fun _ => 0) (ψ := fun _ => 0)
    (fun t => by
      have := (((hasDerivAt_id t).const_mul 10).const_add 2).sub ((hasDerivAt_pow 2 t).const_mul (981 / 200))
      refine this.congr_deriv ?_
      simp; ring)
    (fun t => by
      have := ((hasDerivAt_id t).const_mul (981 / 100)).const_sub 10
      refine this.congr_deriv ?_
      simp)
    (fun t => hasDerivAt_const _ _) (fun _ _ => le_refl _) (fun t ht => by nlinarith [ht.1, ht.2]) (fun _ _ => by simp [Unloads]) ⟨[], [], []⟩
  have := (C84_robot_obeys_newton_euler Rob hl (by norm_num [settings]) rfl rfl hv mass_ne (fun t _ => state_size _ _ _) (fun t _ => control_size _ _)
    (fun t _ => hf t) hk ht biped_regular rfl rfl rfl rfl).2.1
  refine this.congr_deriv ?_
  congr 1
  simp [Spec.contactForce, state, toVec]

/-- Standing: the points of the feet are loaded, on the ground, and do not move. -/
example (t : ℝ) (ht : t ∈ Ioo (0 : ℝ) 1) (foot : Foot) :
    HasDerivAt (fun _ => (Spec.framePose Rob (state 1 0 (981 / 100)) upright (footFrame (settings .classical .classical) foot)).point ![0, 1 / 10, -1]) 0 t := by
  obtain ⟨l, ls', lc', r, hl, hv, hf, hk⟩ := sample_meets rot norm order order' leftover stored .classical .classical (by simp) (by simp)
    (z := fun τ => 1) (w := fun τ => 0) (φ := fun _ => 981 / 100) (ψ := fun _ => 0)
    (fun t => hasDerivAt_const _ _) (fun t => (hasDerivAt_const _ _).congr_deriv (by norm_num)) (fun t => hasDerivAt_const _ _) (fun _ _ => by norm_num)
    (fun _ _ => le_refl _) (fun _ _ => by simp [Unloads]) ⟨[], [], []⟩
  have := fun (p : PointState ℝ) (hp : (Spec.points (state 1 0 (981 / 100)) foot)[0]? = some p) (b : V3 ℝ) (hb : (footPoints (settings .classical .classical) foot)[0]? = some b)
      (hz : p.position.z = 0) (hload : 0 < p.force.z) =>
    C85_loaded_points_do_not_move Rob hl (by norm_num [settings]) rfl rfl hv mass_ne (fun t _ => state_size _ _ _) (fun t _ => control_size _ _)
      (fun t _ => hf t) hk ht rfl (fun _ => rfl) (fun τ _ f p hp => by cases f <;> simp [Spec.points, state] at hp <;> subst hp <;> simp) hp hb hz hload
  cases foot
  · exact this _ rfl _ rfl (by norm_num) (by norm_num)
  · exact this _ rfl _ rfl (by norm_num) (by norm_num)

end Examples

end
end Verif.Plan
