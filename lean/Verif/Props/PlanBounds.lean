import Verif.Props.Plan
import Verif.Props.Bounds
/- C86: what the contact points do along a solution of the problem: bounds, dynamics and constraints together. -/
set_option linter.unusedSectionVars false
namespace Verif.Plan
open NLP NLP.Kin SolverM StateM Rigid Matrix Filter Topology Set
open SolverM.Spec (stateVector controlVector StateSize ControlSize footPoints footFrame StateAllowed PointsLimited PointsFrozen)
noncomputable section

instance : Nonempty (PointState ℝ) := ⟨⟨⟨0, 0, 0⟩, ⟨0, 0, 0⟩⟩⟩
instance : Nonempty (PointControl ℝ) := ⟨⟨⟨0, 0, 0⟩, ⟨0, 0, 0⟩⟩⟩

/-- A quantity that decreases at least as fast as the linear equation says stays below its solution. -/
theorem decays {g g' : ℝ → ℝ} {A lam a b : ℝ} (hl : 0 < lam) (hab : a ≤ b) (hd : ∀ t ∈ Icc a b, HasDerivAt g (g' t) t)
    (hle : ∀ t ∈ Icc a b, g' t ≤ A - lam * g t) : g b ≤ A / lam + (g a - A / lam) * Real.exp (-lam * (b - a)) := by
  set w : ℝ → ℝ := fun t => (g t - A / lam) * Real.exp (lam * t) with hw
  have hwd : ∀ t ∈ Icc a b, HasDerivAt w (g' t * Real.exp (lam * t) + (g t - A / lam) * (Real.exp (lam * t) * lam)) t := by
    intro t ht
    have he : HasDerivAt (fun t => Real.exp (lam * t)) (Real.exp (lam * t) * lam) t := by
      have := ((hasDerivAt_id t).const_mul lam).exp
      simpa using this
    exact ((hd t ht).sub_const (A / lam)).mul he
  have hanti : AntitoneOn w (Icc a b) := by
    apply antitoneOn_of_deriv_nonpos (convex_Icc a b)
    · exact fun t ht => (hwd t ht).continuousAt.continuousWithinAt
    · intro t ht
      rw [interior_Icc] at ht
      exact (hwd t ⟨ht.1.le, ht.2.le⟩).differentiableAt.differentiableWithinAt
    · intro t ht
      rw [interior_Icc] at ht
      have hT : t ∈ Icc a b := ⟨ht.1.le, ht.2.le⟩
      rw [(hwd t hT).deriv]
      have e : g' t * Real.exp (lam * t) + (g t - A / lam) * (Real.exp (lam * t) * lam) = (g' t - (A - lam * g t)) * Real.exp (lam * t) := by
        field_simp
        ring
      rw [e]
      exact mul_nonpos_of_nonpos_of_nonneg (by linarith [hle t hT]) (Real.exp_pos _).le
  have h := hanti ⟨le_refl _, hab⟩ ⟨hab, le_refl _⟩ hab
  simp only [hw] at h
  have e : Real.exp (-lam * (b - a)) = Real.exp (lam * a) * (Real.exp (lam * b))⁻¹ := by
    rw [← Real.exp_neg, ← Real.exp_add]; congr 1; ring
  rw [e]
  have hpos := Real.exp_pos (lam * b)
  have : g b - A / lam ≤ (g a - A / lam) * Real.exp (lam * a) * (Real.exp (lam * b))⁻¹ := by
    rw [le_mul_inv_iff₀ hpos]; exact h
  linarith

variable {n nj : ℕ} {L F T ρ : Type} [DecidableEq L] [DecidableEq F] {m : Model L (Fin nj)} {R : Objects m F}
  {i : Settings.SettingsStruct ℝ ρ} {ex : BoundExtras ℝ} {st : ProblemSettings ℝ T} {minusInf plusInf : ℝ}
  {P : Problem nj n i ex st minusInf plusInf} {horizon : ℝ} {s : ℝ → State ℝ} {q : ℝ → V4 ℝ} {c : ℝ → Control ℝ}
  (S : Solution P R horizon s q c)
include S

/-- The bounds of the state, along a solution. -/
theorem Solution.state_allowed {t : ℝ} (ht : t ∈ Ioo 0 horizon) : StateAllowed i.maximumAngularMomentum i.jointsLimits (s t) := by
  obtain ⟨ls, lc, ls', lc', hr⟩ := P.hasRanges
  obtain ⟨a, b, ha, hb, h⟩ := S.stateBounds t ht
  have hsize := S.stateSize t ht
  rw [← P.joints, ← P.points] at hsize
  have hfin : ∀ x ∈ stateVector (s t) (q t), minusInf ≤ x ∧ x ≤ plusInf := fun x hx => S.finite t ht x (List.mem_append_left _ hx)
  by_cases hn : NoTarget i ex t
  · obtain ⟨lo, up, h1, h2, H⟩ := C30_state_without_target hr P.acceptable minusInf plusInf ex P.hasBounds t hn
    rw [h1] at ha; rw [h2] at hb
    simp only [Option.some.injEq, Prod.mk.injEq, and_true] at ha hb
    subst ha hb
    exact ((H _ _ hsize hfin).1 h).1
  · unfold NoTarget at hn
    push Not at hn
    obtain ⟨h1, h2, h3, h4, h5⟩ := hn
    have h1 : i.constrainTargetCoMPosition = true := by simpa using h1
    obtain ⟨reference, href⟩ := Option.ne_none_iff_exists'.1 h2
    obtain ⟨tolerance, htol⟩ := Option.ne_none_iff_exists'.1 h3
    have hv2 : (reference t).2 = true := by
      by_contra hf
      have := (C30_state_invalid_reference hr P.acceptable minusInf plusInf ex P.hasBounds t h1 href htol h4 h5 (by simpa using hf)).1
      rw [this] at ha
      simp at ha
    have hv3 : ∃ x y z, (reference t).1 = [x, y, z] := by
      have hb' := P.hasBounds
      rw [ranges_eq hr, setBounds_ok _ _ _ _ i ex P.acceptable.joints.1 P.acceptable.joints.2.1] at hb'
      have hrange : ex.constrainTargetCoMPositionRange.isInRange t = true := by simp [Reference.TimeRange.isInRange, h4, h5]
      rw [← Option.some.inj hb'] at ha
      simp only [VariableBound.get, if_pos h1, href, htol, if_pos hrange, hv2] at ha
      rw [if_neg (by simp)] at ha
      match e : (reference t).1 with
      | [x, y, z] => exact ⟨x, y, z, rfl⟩
      | [] | [_] | [_, _] | _ :: _ :: _ :: _ :: _ => rw [e] at ha; simp at ha
    obtain ⟨x, y, z, hv3⟩ := hv3
    obtain ⟨lo, up, e1, e2, H, -⟩ := C30_state_with_target hr P.acceptable minusInf plusInf ex P.hasBounds t h1 href htol h4 h5 ⟨x, y, z⟩
      (Prod.ext hv3 hv2) (if (tolerance t).2 then (tolerance t).1 else 0) (by cases (tolerance t).2 <;> simp)
    rw [e1] at ha; rw [e2] at hb
    simp only [Option.some.injEq, Prod.mk.injEq, and_true] at ha hb
    subst ha hb
    exact ((H _ _ hsize hfin).1 h).1

/-- The bounds of the control, along a solution. -/
theorem Solution.control_allowed {t : ℝ} (ht : t ∈ Ioo 0 horizon) :
    (t < i.horizon * i.activeControlPercentage → PointsLimited ex.forceMaximumDerivative (velocityLimits i) (c t)) ∧
    (i.horizon * i.activeControlPercentage ≤ t → PointsFrozen (c t)) := by
  obtain ⟨ls, lc, ls', lc', hr⟩ := P.hasRanges
  obtain ⟨a, b, ha, hb, h⟩ := S.controlBounds t ht
  have hsize := S.controlSize t ht
  rw [← P.joints, ← P.points] at hsize
  have hfin : ∀ x ∈ controlVector (c t), minusInf ≤ x ∧ x ≤ plusInf := fun x hx => S.finite t ht x (List.mem_append_right _ hx)
  obtain ⟨lo, up, h1, h2, H⟩ := C30_control hr P.acceptable minusInf plusInf ex P.hasBounds t
  rw [h1] at ha; rw [h2] at hb
  simp only [Option.some.injEq, Prod.mk.injEq, and_true] at ha hb
  subst ha hb
  exact ((H _ hsize hfin).1 h).2

/-- The point and its control. -/
theorem Solution.point {t : ℝ} (ht : t ∈ Ioo 0 horizon) (foot : Foot) {k : ℕ} (hk : k < n) :
    ∃ p v, (Spec.points (s t) foot)[k]? = some p ∧ (Spec.inputs (c t) foot)[k]? = some v ∧
      p ∈ (s t).left ++ (s t).right ∧ v ∈ (c t).left ++ (c t).right := by
  have hp : (Spec.points (s t) foot).length = n := by cases foot; exacts [(S.stateSize t ht).left, (S.stateSize t ht).right]
  have hc : (Spec.inputs (c t) foot).length = n := by cases foot; exacts [(S.controlSize t ht).left, (S.controlSize t ht).right]
  refine ⟨_, _, List.getElem?_eq_getElem (by omega), List.getElem?_eq_getElem (by omega), ?_, ?_⟩
  · cases foot
    exacts [List.mem_append_left _ (List.getElem_mem _), List.mem_append_right _ (List.getElem_mem _)]
  · cases foot
    exacts [List.mem_append_left _ (List.getElem_mem _), List.mem_append_right _ (List.getElem_mem _)]

omit S in
theorem position_of {s : State ℝ} {foot : Foot} {k : ℕ} {p : PointState ℝ} (h : (Spec.points s foot)[k]? = some p) : Spec.position s foot k = toVec p.position := by
  unfold Spec.position; rw [h]; rfl
omit S in
theorem force_of {s : State ℝ} {foot : Foot} {k : ℕ} {p : PointState ℝ} (h : (Spec.points s foot)[k]? = some p) : Spec.force s foot k = toVec p.force := by
  unfold Spec.force; rw [h]; rfl

set_option quotPrecheck false in
local notation "DP" => dynamicsParams nj (m.links.map fun k => (m.inertia k).mass) (dynamicsSetup st)

theorem Solution.ranges : P.ranges = rangesAt nj n := by
  obtain ⟨ls, lc, ls', lc', hr⟩ := P.hasRanges
  rw [ranges_eq hr, P.joints, P.points]

theorem Solution.near {t : ℝ} (ht : t ∈ Ioo 0 horizon) : ∀ᶠ τ in 𝓝 t, StateSize nj n (s τ) := eventually_of_mem (isOpen_Ioo.mem_nhds ht) S.stateSize

theorem Solution.position_rate {t : ℝ} (ht : t ∈ Ioo 0 horizon) {foot : Foot} {k : ℕ} (hk : k < n) {p : PointState ℝ} {v : PointControl ℝ}
    (hp : (Spec.points (s t) foot)[k]? = some p) (hv : (Spec.inputs (c t) foot)[k]? = some v) :
    HasDerivAt (fun τ => Spec.position (s τ) foot k)
      ![(DP).δxy.eval p.position.z * v.velocityControl.x, (DP).δxy.eval p.position.z * v.velocityControl.y, v.velocityControl.z] t := by
  have hf := S.dynamics t ht
  rw [S.ranges] at hf
  refine (rate_position (S.near ht) (S.controlSize t ht) hf foot ⟨k, hk⟩ p hp v hv).congr_of_eventuallyEq ?_
  filter_upwards [isOpen_Ioo.mem_nhds ht] with τ hτ
  obtain ⟨p', v', hp', hv', -⟩ := S.point hτ foot hk
  funext j
  rw [read_position (q τ) (S.stateSize τ hτ) (S.controlSize τ hτ) foot ⟨k, hk⟩ p' hp' j, position_of hp']

theorem Solution.force_rate {t : ℝ} (ht : t ∈ Ioo 0 horizon) {foot : Foot} {k : ℕ} (hk : k < n) {p : PointState ℝ} {v : PointControl ℝ}
    (hp : (Spec.points (s t) foot)[k]? = some p) (hv : (Spec.inputs (c t) foot)[k]? = some v) :
    HasDerivAt (fun τ => Spec.force (s τ) foot k 2)
      ((DP).δz.eval p.position.z * v.forceControl.z + st.normalForceDissipationRatio * ((DP).δz.eval p.position.z - 1) * p.force.z) t := by
  have hf := S.dynamics t ht
  rw [S.ranges] at hf
  have h := hf 0 (.force (side foot) ⟨k, hk⟩, 2) (mem_entries _ _ _ (by show 2 < 3; omega))
  rw [Dynamics.dyn_force, if_neg (by omega), if_pos rfl] at h
  have e : (fun τ => Spec.force (s τ) foot k 2) =ᶠ[𝓝 t] fun τ => readState (n := n) (rangesAt nj n) (stateVector (s τ) (q τ)) (.force (side foot) ⟨k, hk⟩, 2) := by
    filter_upwards [isOpen_Ioo.mem_nhds ht] with τ hτ
    obtain ⟨p', v', hp', hv', -⟩ := S.point hτ foot hk
    rw [(read_force (q τ) (S.stateSize τ hτ) (S.controlSize τ hτ) foot ⟨k, hk⟩ p' hp').2.2, force_of hp']; rfl
  refine (h.congr_of_eventuallyEq e).congr_deriv ?_
  have p2 : readState (n := n) (rangesAt nj n) (stateVector (s t) (q t)) (.pos (side foot) ⟨k, hk⟩, 2) = p.position.z :=
    read_position (q t) (S.stateSize t ht) (S.controlSize t ht) foot ⟨k, hk⟩ p hp 2
  rw [p2, (read_force (q t) (S.stateSize t ht) (S.controlSize t ht) foot ⟨k, hk⟩ p hp).2.2,
    (read_inputs (S.stateSize t ht) (S.controlSize t ht) foot ⟨k, hk⟩ v hv).2.2.2]
  rfl

variable (hM : Spec.mass m ≠ 0)
include hM

theorem Solution.consistent : ∀ t ∈ Ioo 0 horizon, Spec.Consistent R st (s t) (q t) (c t) := fun t ht => by
  obtain ⟨ls, lc, ls', lc', hr⟩ := P.hasRanges
  obtain ⟨accepts, h⟩ := P.hasConstraints
  rw [P.joints, P.points] at hr
  have hl : st.leftPointsPosition.length = n := P.same.leftPoints.trans P.points
  have hr' : st.rightPointsPosition.length = n := P.same.rightPoints.trans (P.acceptable.model.2.1.symm.trans P.points)
  have hd : 0 ≤ st.minimumFeetDistance := by rw [P.same.feetDistance]; exact P.acceptable.tolerances.2.2.1
  exact (C83_feasible_iff_consistent R h hd hl hr' hr hM (q t) (S.stateSize t ht) (S.controlSize t ht)).1 (S.constraints t ht)

/-- **C86.** Every contact force pushes and is in the friction cone. -/
theorem C86_friction_cone {t : ℝ} (ht : t ∈ Ioo 0 horizon) (foot : Foot) {k : ℕ} (hk : k < n) :
    0 ≤ Spec.force (s t) foot k 2 ∧
    Real.sqrt (Spec.force (s t) foot k 0 ^ 2 + Spec.force (s t) foot k 1 ^ 2) ≤ st.frictionCoefficient * Spec.force (s t) foot k 2 := by
  obtain ⟨p, v, hp, hv, hm, -⟩ := S.point ht foot hk
  have h0 := (S.state_allowed ht).normalForce p hm
  have h1 := (S.consistent hM t ht).friction foot p (List.mem_of_getElem? hp)
  rw [abs_of_nonneg h0] at h1
  rw [force_of hp]
  exact ⟨h0, h1⟩

/-- **C86.** No point of the feet of the robot is below the ground, within half the tolerance of the position of the points. -/
theorem C86_feet_above_the_ground {t : ℝ} (ht : t ∈ Ioo 0 horizon) (foot : Foot) {k : ℕ} (hk : k < n) :
    -(st.pointPositionConstraintTolerance / 2) ≤ Spec.footPoint R st (s t) (q t) foot k 2 := by
  obtain ⟨p, v, hp, hv, hm, -⟩ := S.point ht foot hk
  have h0 := (S.state_allowed ht).height p hm
  have hlen : (footPoints st foot).length = n := by
    cases foot
    exacts [P.same.leftPoints.trans P.points, P.same.rightPoints.trans (P.acceptable.model.2.1.symm.trans P.points)]
  have hb : (footPoints st foot)[k]? = some _ := List.getElem?_eq_getElem (by omega)
  have h1 := ((S.consistent hM t ht).contact foot k p _ hp hb) 2
  unfold Spec.footPoint
  rw [hb]
  have h2 := (abs_le.1 h1).1
  have : toVec p.position 2 = p.position.z := rfl
  rw [this] at h2
  show _ ≤ ((Spec.framePose R (s t) (q t) (footFrame st foot)).point _) 2
  linarith

/-- **C86.** With the dynamical complementarity, along every solution the product of the height and of the normal force of a point is below the exponential that goes, with the dissipation as rate,
from its value at any instant to the ratio between upper bound and dissipation. -/
theorem C86_product_decays (hcompl : st.complementarity = .dynamical) (hK : 0 < st.complementarityDissipation)
    {a b : ℝ} (ha : a ∈ Ioo 0 horizon) (hb : b ∈ Ioo 0 horizon) (hab : a ≤ b) (foot : Foot) {k : ℕ} (hk : k < n) :
    Spec.position (s b) foot k 2 * Spec.force (s b) foot k 2 ≤ st.dynamicComplementarityUpperBound / st.complementarityDissipation +
      (Spec.position (s a) foot k 2 * Spec.force (s a) foot k 2 - st.dynamicComplementarityUpperBound / st.complementarityDissipation) *
        Real.exp (-st.complementarityDissipation * (b - a)) := by
  have sub : ∀ t ∈ Icc a b, t ∈ Ioo 0 horizon := fun t ht => ⟨ha.1.trans_le ht.1, ht.2.trans_lt hb.2⟩
  choose! p v hp hv hm hm' using fun t (ht : t ∈ Ioo 0 horizon) => S.point ht foot hk
  have hδ : ∀ z, (DP).δz.eval z = 1 := by
    intro z
    simp [Dynamics.Params.δz, Smooth.Fn.eval, dynamicsParams, dynamicsSetup, hcompl, dynamicsActivation, Smooth.Params.disable]
  refine decays hK hab (g := fun t => Spec.position (s t) foot k 2 * Spec.force (s t) foot k 2) (g' := fun t => (v t).velocityControl.z * (p t).force.z + (p t).position.z * (v t).forceControl.z) (fun t ht => ?_) (fun t ht => ?_)
  · have h1 := (hasDerivAt_pi.1 (S.position_rate (sub t ht) hk (hp t (sub t ht)) (hv t (sub t ht)))) 2
    have h2 := S.force_rate (sub t ht) hk (hp t (sub t ht)) (hv t (sub t ht))
    refine (h1.mul h2).congr_deriv ?_
    rw [hδ, position_of (hp t (sub t ht)), force_of (hp t (sub t ht))]
    simp [toVec]
  · have h := (S.consistent hM t (sub t ht)).normal foot k _ _ (hp t (sub t ht)) (hv t (sub t ht))
    unfold Spec.NoForceAbove at h
    rw [hcompl] at h
    rw [position_of (hp t (sub t ht)), force_of (hp t (sub t ht))]
    simp only [toVec, Matrix.cons_val] at h ⊢
    linarith

/-- **C86.** With the hyperbolic secant, in the constraints or in the dynamics: while a point stays at least at height `h`, its normal force is below the exponential that goes to a level that
vanishes as `h` grows.  `δ` is the hyperbolic secant of the scaled height. -/
theorem C86_force_fades (hcompl : st.complementarity = .hyperbolicSecantInequality ∨ st.complementarity = .hyperbolicSecantInDynamics)
    (hM0 : 0 ≤ st.forceMaximumDerivative.z) (hr : 0 < st.normalForceDissipationRatio) (hs : st.normalForceHyperbolicSecantScaling ≠ 0)
    {a b h : ℝ} (ha : a ∈ Ioo 0 horizon) (hb : b ∈ Ioo 0 horizon) (hab : a ≤ b) (foot : Foot) {k : ℕ} (hk : k < n) (hh : 0 < h)
    (high : ∀ t ∈ Icc a b, h ≤ Spec.position (s t) foot k 2) {δ lam : ℝ} (hδ : δ = 1 / Real.cosh (st.normalForceHyperbolicSecantScaling * h))
    (hlam : lam = (1 - δ) * st.normalForceDissipationRatio) :
    Spec.force (s b) foot k 2 ≤ δ * st.forceMaximumDerivative.z / lam +
      (Spec.force (s a) foot k 2 - δ * st.forceMaximumDerivative.z / lam) * Real.exp (-lam * (b - a)) := by
  have sub : ∀ t ∈ Icc a b, t ∈ Ioo 0 horizon := fun t ht => ⟨ha.1.trans_le ht.1, ht.2.trans_lt hb.2⟩
  choose! p v hp hv hm hm' using fun t (ht : t ∈ Ioo 0 horizon) => S.point ht foot hk
  have hδ1 : δ < 1 := by
    rw [hδ, div_lt_one (Real.cosh_pos _)]
    exact Real.one_lt_cosh.2 (mul_ne_zero hs hh.ne')
  have hl0 : 0 < lam := by rw [hlam]; exact mul_pos (by linarith) hr
  refine decays hl0 hab (g := fun t => Spec.force (s t) foot k 2) (fun t ht => S.force_rate (sub t ht) hk (hp t (sub t ht)) (hv t (sub t ht))) (fun t ht => ?_)
  have hp' := hp t (sub t ht)
  have hz : h ≤ (p t).position.z := by have := high t ht; rwa [position_of hp'] at this
  have hf0 := (S.state_allowed (sub t ht)).normalForce _ (hm t (sub t ht))
  set δz := 1 / Real.cosh (st.normalForceHyperbolicSecantScaling * (p t).position.z) with hδz
  have hle : δz ≤ δ := by
    rw [hδ, hδz]
    refine one_div_le_one_div_of_le (Real.cosh_pos _) (Real.cosh_le_cosh.2 ?_)
    rw [abs_mul, abs_mul]
    refine mul_le_mul_of_nonneg_left ?_ (abs_nonneg _)
    rw [abs_of_pos hh, abs_of_pos (hh.trans_le hz)]
    exact hz
  have hδz0 : 0 ≤ δz := by rw [hδz]; exact (div_pos one_pos (Real.cosh_pos _)).le
  have key : (DP).δz.eval (p t).position.z * (v t).forceControl.z + st.normalForceDissipationRatio * ((DP).δz.eval (p t).position.z - 1) * (p t).force.z ≤
      δz * st.forceMaximumDerivative.z - (1 - δz) * (st.normalForceDissipationRatio * (p t).force.z) := by
    rcases hcompl with e | e
    · have hn := (S.consistent hM t (sub t ht)).normal foot k _ _ hp' (hv t (sub t ht))
      unfold Spec.NoForceAbove at hn
      rw [e] at hn
      have : (DP).δz.eval (p t).position.z = 1 := by
        simp [Dynamics.Params.δz, Smooth.Fn.eval, dynamicsParams, dynamicsSetup, e, dynamicsActivation, Smooth.Params.disable]
      rw [this]
      simp only at hn
      linarith
    · have : (DP).δz.eval (p t).position.z = δz := by
        rw [hδz]
        simp [Dynamics.Params.δz, Smooth.Fn.eval, dynamicsParams, dynamicsSetup, e, dynamicsActivation, activation, Smooth.Params.setScaling]
      rw [this]
      have hu : (v t).forceControl.z ≤ st.forceMaximumDerivative.z := by
        rcases lt_or_ge t (i.horizon * i.activeControlPercentage) with ht' | ht'
        · have := ((S.control_allowed (sub t ht)).1 ht' _ (hm' t (sub t ht))).1.2.2
          rw [← P.same.force] at this
          exact (abs_le.1 this).2
        · have := ((S.control_allowed (sub t ht)).2 ht' _ (hm' t (sub t ht))).1
          rw [this]; exact hM0
      nlinarith [mul_le_mul_of_nonneg_left hu hδz0]
  rw [force_of hp']
  have e2 : toVec (p t).force 2 = (p t).force.z := rfl
  rw [e2, hlam]
  refine key.trans ?_
  have h3 : δz * st.forceMaximumDerivative.z ≤ δ * st.forceMaximumDerivative.z := mul_le_mul_of_nonneg_right hle hM0
  have h4 : 0 ≤ (δ - δz) * (st.normalForceDissipationRatio * (p t).force.z) := mul_nonneg (by linarith) (mul_nonneg hr.le hf0)
  nlinarith

/-- **C86.** With the hyperbolic tangent, in the constraints or in the dynamics: the planar velocity of a point is below the maximum velocity scaled by the hyperbolic tangent of its height. -/
theorem C86_planar_velocity (hplanar : st.planarComplementarity ≠ .classical) (hscale : 0 ≤ st.planarVelocityHyperbolicTangentScaling) {t : ℝ} (ht : t ∈ Ioo 0 horizon) (foot : Foot) {k : ℕ} (hk : k < n) :
    ∃ velocity : Vec, HasDerivAt (fun τ => Spec.position (s τ) foot k) velocity t ∧
      |velocity 0| ≤ Real.tanh (st.planarVelocityHyperbolicTangentScaling * Spec.position (s t) foot k 2) * st.velocityMaximumDerivative.x ∧
      |velocity 1| ≤ Real.tanh (st.planarVelocityHyperbolicTangentScaling * Spec.position (s t) foot k 2) * st.velocityMaximumDerivative.y := by
  obtain ⟨p, v, hp, hv, hm, hm'⟩ := S.point ht foot hk
  refine ⟨_, S.position_rate ht hk hp hv, ?_⟩
  rw [position_of hp]
  show |(DP).δxy.eval p.position.z * v.velocityControl.x| ≤ Real.tanh (st.planarVelocityHyperbolicTangentScaling * p.position.z) * st.velocityMaximumDerivative.x ∧
    |(DP).δxy.eval p.position.z * v.velocityControl.y| ≤ Real.tanh (st.planarVelocityHyperbolicTangentScaling * p.position.z) * st.velocityMaximumDerivative.y
  cases e : st.planarComplementarity with
  | classical => exact absurd e hplanar
  | hyperbolicTangentInequality =>
    have h := (S.consistent hM t ht).slip foot k _ _ hp hv
    unfold Spec.NoSlip at h
    rw [e] at h
    have : (DP).δxy.eval p.position.z = 1 := by
      simp [Dynamics.Params.δxy, Smooth.Fn.eval, dynamicsParams, dynamicsSetup, e, dynamicsActivation, Smooth.Params.disable]
    rw [this, one_mul, one_mul]
    exact h
  | hyperbolicTangentInDynamics =>
    have hδ : (DP).δxy.eval p.position.z = Real.tanh (st.planarVelocityHyperbolicTangentScaling * p.position.z) := by
      simp [Dynamics.Params.δxy, Smooth.Fn.eval, dynamicsParams, dynamicsSetup, e, dynamicsActivation, activation, Smooth.Params.setScaling]
    rw [hδ, abs_mul, abs_mul]
    have h0 : 0 ≤ Real.tanh (st.planarVelocityHyperbolicTangentScaling * p.position.z) := by
      rw [Real.tanh_eq_sinh_div_cosh]
      exact div_nonneg (Real.sinh_nonneg_iff.2 (mul_nonneg hscale ((S.state_allowed ht).height p hm))) (Real.cosh_pos _).le
    rw [abs_of_nonneg h0]
    have hu : |v.velocityControl.x| ≤ st.velocityMaximumDerivative.x ∧ |v.velocityControl.y| ≤ st.velocityMaximumDerivative.y := by
      rw [P.same.velocity]
      rcases lt_or_ge t (i.horizon * i.activeControlPercentage) with ht' | ht'
      · have := ((S.control_allowed ht).1 ht' _ hm').2
        exact ⟨this.1, this.2.1⟩
      · have := ((S.control_allowed ht).2 ht' _ hm').2
        rw [this]
        have hv := P.acceptable.tolerances.2.2.2.2.2.2.2.2.2.2
        simp only [abs_zero]
        exact ⟨hv.1, hv.2.1⟩
    exact ⟨mul_le_mul_of_nonneg_left hu.1 h0, mul_le_mul_of_nonneg_left hu.2 h0⟩

/-- **C86.** In the last part of the horizon, from `horizon * activeControlPercentage` on, the contact points do not move. -/
theorem C86_points_stop {a b : ℝ} (ha : a ∈ Ioo 0 horizon) (hb : b ∈ Ioo 0 horizon) (hab : a ≤ b) (last : i.horizon * i.activeControlPercentage ≤ a)
    (foot : Foot) {k : ℕ} (hk : k < n) : Spec.position (s b) foot k = Spec.position (s a) foot k := by
  have sub : ∀ t ∈ Icc a b, t ∈ Ioo 0 horizon := fun t ht => ⟨ha.1.trans_le ht.1, ht.2.trans_lt hb.2⟩
  have hd : ∀ t ∈ Icc a b, HasDerivAt (fun τ => Spec.position (s τ) foot k) 0 t := by
    intro t ht
    obtain ⟨p, v, hp, hv, hm, hm'⟩ := S.point (sub t ht) foot hk
    refine (S.position_rate (sub t ht) hk hp hv).congr_deriv ?_
    have := ((S.control_allowed (sub t ht)).2 (last.trans ht.1) _ hm').2
    rw [this]
    funext j; fin_cases j <;> simp
  exact constant_of_has_deriv_right_zero (fun t ht => (hd t ht).continuousAt.continuousWithinAt)
    (fun t ht => (hd t ⟨ht.1, ht.2.le⟩).hasDerivWithinAt) b ⟨hab, le_refl _⟩

/-- **C85**, for solutions of the whole problem: with exact positions of the points, a point of a foot of the robot that is loaded and on the ground does not move, for
each choice of the mechanisms (the classical planar one with null tolerance). -/
theorem C85_no_slip (h4 : st.pointPositionConstraintTolerance = 0)
    (h5 : st.planarComplementarity = .classical → st.classicalPlanarComplementarityTolerance = 0)
    {t : ℝ} (ht : t ∈ Ioo 0 horizon) (foot : Foot) {k : ℕ} (hk : k < n)
    (ground : Spec.position (s t) foot k 2 = 0) (loaded : 0 < Spec.force (s t) foot k 2) :
    HasDerivAt (fun τ => Spec.footPoint R st (s τ) (q τ) foot k) 0 t := by
  obtain ⟨ls, lc, ls', lc', hr⟩ := P.hasRanges
  obtain ⟨accepts, h⟩ := P.hasConstraints
  rw [P.joints, P.points] at hr
  have hl : st.leftPointsPosition.length = n := P.same.leftPoints.trans P.points
  have hr' : st.rightPointsPosition.length = n := P.same.rightPoints.trans (P.acceptable.model.2.1.symm.trans P.points)
  have hd : 0 ≤ st.minimumFeetDistance := by rw [P.same.feetDistance]; exact P.acceptable.tolerances.2.2.1
  obtain ⟨p, v, hp, hv, hm, -⟩ := S.point ht foot hk
  have hlen : (footPoints st foot).length = n := by cases foot; exacts [hl, hr']
  have hb : (footPoints st foot)[k]? = some _ := List.getElem?_eq_getElem (by omega)
  rw [position_of hp] at ground
  rw [force_of hp] at loaded
  have := C85_loaded_points_do_not_move R h hd hl hr' hr hM S.stateSize S.controlSize S.dynamics S.constraints ht h4 h5
    (fun τ hτ f p hp => (S.state_allowed hτ).height p (by cases f; exacts [List.mem_append_left _ hp, List.mem_append_right _ hp])) hp hb ground loaded
  refine this.congr_of_eventuallyEq (Eventually.of_forall fun τ => ?_)
  unfold Spec.footPoint
  rw [hb]; rfl

omit S hM

/-! ### Examples -/

section Examples
open Sample
variable (rot : RotExprs) (norm : NormExprs) (order : List StateTask) (order' : List MixedTask) (leftover : Leftover 1) (stored : V3 ℝ)
local notation "Rob" => objects rot norm order order' leftover stored

/-- The validated settings of the robot with two legs: `θ` is the active control percentage. -/
def struct (k : Settings.ComplementarityType) (pk : Settings.PlanarComplementarityType) (θ : ℝ) : Settings.SettingsStruct ℝ Unit :=
  { Settings.defaults { nrOfDOFs := 1, isLinkNameUsed := fun _ => true, isFrameNameUsed := fun _ => true } [(-1, 1)] () with
    activeControlPercentage := θ
    nLeftPoints := 1
    nRightPoints := 1
    complementarity := k
    planarComplementarity := pk
    classicalComplementarityTolerance := 0
    classicalPlanarComplementarityTolerance := 0
    complementarityDissipation := 1
    dynamicComplementarityUpperBound := 10
    planarVelocityHyperbolicTangentScaling := 1
    velocityMaximumDerivative := (20, 20, 20)
    comPositionConstraintTolerance := 0
    centroidalMomentumConstraintTolerance := 0
    quaternionModulusConstraintTolerance := 0
    pointPositionConstraintTolerance := 0
    jointsVelocityLimits := [(-1, 1)]
    constrainTargetCoMPosition := false
    forceRatioCostActive := false }
def extras : BoundExtras ℝ := ⟨⟨1, 1, 1⟩, ⟨0, 1⟩, none, none⟩

theorem struct_acceptable (k : Settings.ComplementarityType) (pk : Settings.PlanarComplementarityType) {θ : ℝ} (h0 : 0 ≤ θ) (h1 : θ ≤ 1) :
    Settings.Spec.Acceptable (struct k pk θ) := by
  constructor
  · simp [Settings.Spec.TimingsOk, struct, Settings.defaults, h0, h1]; norm_num
  · simp [Settings.Spec.ModelOk, struct, Settings.defaults]
  · simp [Settings.Spec.TolerancesOk, struct, Settings.defaults]; norm_num
  · simp [Settings.Spec.JointsOk, struct, Settings.defaults]
  · simp [Settings.Spec.CostsOk, struct, Settings.defaults]; norm_num
  · simp [Settings.Spec.ComplementarityOk, struct, Settings.defaults]

theorem sample_state_finite {z w φ : ℝ} (h4 : 0 ≤ φ ∧ φ ≤ 100) (h5 : 1 ≤ z ∧ z ≤ 100) (h6 : |w| ≤ 20) :
    ∀ x ∈ stateVector (state z w φ) upright, -100 ≤ x ∧ x ≤ 100 := by
  intro x hx
  have a6 := abs_le.1 h6
  simp [stateVector, SolverM.Spec.pointState, state, upright] at hx
  casesm* _ ∨ _ <;> (constructor <;> linarith)

theorem sample_control_finite {w ψ : ℝ} (h6 : |w| ≤ 20) (h7 : |ψ| ≤ 1) : ∀ x ∈ controlVector (Sample.control w ψ), -100 ≤ x ∧ x ≤ 100 := by
  intro x hx
  have a6 := abs_le.1 h6
  have a7 := abs_le.1 h7
  simp [controlVector, SolverM.Spec.pointControl, Sample.control] at hx
  casesm* _ ∨ _ <;> (constructor <;> linarith)

theorem sample_state_bounds {k : Settings.ComplementarityType} {pk : Settings.PlanarComplementarityType} {θ : ℝ} (acc : Settings.Spec.Acceptable (struct k pk θ))
    {ls lc ls' lc' : Labeller.Labeller ℝ} {r : Ranges} (hv : setVariablesStructure ls lc 1 1 = some (ls', lc', r)) {b : Bounds ℝ}
    (hb : setBounds (-100) 100 r (struct k pk θ) extras = some b) (t : ℝ)
    {z w φ : ℝ} (h4 : 0 ≤ φ ∧ φ ≤ 100) (h5 : 1 ≤ z ∧ z ≤ 100) (h6 : |w| ≤ 20) : between b.stateLower b.stateUpper t (stateVector (state z w φ) upright) := by
  obtain ⟨lo, up, e1, e2, H⟩ := C30_state_without_target hv acc (-100) 100 extras hb t (Or.inl rfl)
  refine ⟨lo, up, e1, e2, (H _ _ (state_size _ _ _) (sample_state_finite h4 h5 h6)).2 ⟨⟨?_, ?_, ?_, ?_⟩, ?_⟩⟩
  · intro p hp
    simp [state] at hp
    rcases hp with rfl | rfl <;> (dsimp only; linarith [h5.1])
  · intro p hp
    simp [state] at hp
    rcases hp with rfl | rfl <;> exact h4.1
  · simp [SolverM.Spec.InBox, struct, Settings.defaults, state]
  · simp [struct, Settings.defaults, state]
  · simp [struct, Settings.defaults, state]; linarith [h5.1]

theorem sample_control_bounds {k : Settings.ComplementarityType} {pk : Settings.PlanarComplementarityType} {θ : ℝ} (acc : Settings.Spec.Acceptable (struct k pk θ))
    {ls lc ls' lc' : Labeller.Labeller ℝ} {r : Ranges} (hv : setVariablesStructure ls lc 1 1 = some (ls', lc', r)) {b : Bounds ℝ}
    (hb : setBounds (-100) 100 r (struct k pk θ) extras = some b) (t : ℝ)
    {w ψ : ℝ} (h6 : |w| ≤ 20) (h7 : |ψ| ≤ 1) (h8 : θ ≤ t → w = 0 ∧ ψ = 0) : between b.controlLower b.controlUpper t (controlVector (Sample.control w ψ)) := by
  obtain ⟨lo, up, e1, e2, H⟩ := C30_control hv acc (-100) 100 extras hb t
  refine ⟨lo, up, e1, e2, (H (Sample.control w ψ) (control_size _ _) (sample_control_finite h6 h7)).2 ⟨?_, ?_, ?_⟩⟩
  · simp [SolverM.Spec.JointVelocitiesAllowed, struct, Settings.defaults, Sample.control]
  · intro _ p hp
    simp [Sample.control] at hp
    subst hp
    simp [SolverM.Spec.InBox, extras, velocityLimits, struct]
    exact ⟨h7, h6⟩
  · intro hle p hp
    have := h8 (by simpa [struct, Settings.defaults] using hle)
    simp [Sample.control] at hp
    subst hp
    rw [this.1, this.2]
    exact ⟨rfl, rfl⟩

/-- The vertical motions of the robot with two legs are solutions. -/
theorem sample_solution {k : Settings.ComplementarityType} {pk : Settings.PlanarComplementarityType} (hk : k ≠ .hyperbolicSecantInDynamics)
    (hpk : pk ≠ .hyperbolicTangentInDynamics) {θ : ℝ} (hθ : 0 ≤ θ) (hθ' : θ ≤ 1) {z w φ ψ : ℝ → ℝ}
    (h1 : ∀ t, HasDerivAt z (w t) t) (h2 : ∀ t, HasDerivAt w (φ t - 981 / 100) t) (h3 : ∀ t, HasDerivAt φ (ψ t) t)
    (h4 : ∀ t ∈ Ioo (0 : ℝ) 1, 0 ≤ φ t ∧ φ t ≤ 100) (h5 : ∀ t ∈ Ioo (0 : ℝ) 1, 1 ≤ z t ∧ z t ≤ 100) (h6 : ∀ t ∈ Ioo (0 : ℝ) 1, |w t| ≤ 20)
    (h7 : ∀ t ∈ Ioo (0 : ℝ) 1, |ψ t| ≤ 1) (h8 : ∀ t ∈ Ioo (0 : ℝ) 1, θ ≤ t → w t = 0 ∧ ψ t = 0)
    (h9 : ∀ t ∈ Ioo (0 : ℝ) 1, Unloads k (z t) (w t) (φ t) (ψ t)) :
    ∃ P : Problem 1 1 (struct k pk θ) extras (settings k pk) (-100) 100,
      Solution P Rob 1 (fun τ => state (z τ) (w τ) (φ τ)) (fun _ => upright) (fun τ => control (w τ) (ψ τ)) := by
  have acc := struct_acceptable k pk hθ hθ'
  obtain ⟨l, ls', lc', r, hl, hv, hf, hc⟩ := sample_meets rot norm order order' leftover stored k pk hk hpk h1 h2 h3 (fun t ht => (h4 t ht).1)
    (fun t ht => (h5 t ht).1) h9 ⟨[], [], []⟩
  have hv' : setVariablesStructure _ _ (struct k pk θ).robotModel.nrOfDOFs (struct k pk θ).nLeftPoints = some (ls', lc', r) := hv
  obtain ⟨b, hb⟩ := C30_bounds_made hv' acc (-100) 100 extras
  refine ⟨⟨r, l, b, acc, ⟨rfl, rfl, ?_, rfl, rfl⟩, rfl, rfl, ⟨_, _, _, _, hv'⟩, ⟨_, hl⟩, hb⟩, fun t _ => state_size _ _ _, fun t _ => control_size _ _, ?_, fun t _ => hf t, hc, ?_, ?_⟩
  · simp [settings, struct, Settings.defaults]
  · intro t ht x hx
    rcases List.mem_append.1 hx with hx | hx
    exacts [sample_state_finite (h4 t ht) (h5 t ht) (h6 t ht) x hx, sample_control_finite (h6 t ht) (h7 t ht) x hx]
  · exact fun t ht => sample_state_bounds acc hv hb t (h4 t ht) (h5 t ht) (h6 t ht)
  · exact fun t ht => sample_control_bounds acc hv hb t (h6 t ht) (h7 t ht) (h8 t ht)

/-- A jump in which the force at the feet fades while they rise. -/
theorem sample_fading {k : Settings.ComplementarityType} (hk : k = .dynamical ∨ k = .hyperbolicSecantInequality) :
    ∃ P : Problem 1 1 (struct k .hyperbolicTangentInequality 1) extras (settings k .hyperbolicTangentInequality) (-100) 100,
      Solution P Rob 1 (fun τ => state (2 + 10 * τ - 981 / 200 * τ ^ 2 + Real.exp (-τ)) (10 - 981 / 100 * τ - Real.exp (-τ)) (Real.exp (-τ)))
        (fun _ => upright) (fun τ => Sample.control (10 - 981 / 100 * τ - Real.exp (-τ)) (-Real.exp (-τ))) := by
  have he : ∀ t : ℝ, HasDerivAt (fun τ => Real.exp (-τ)) (-Real.exp (-t)) t := fun t => (hasDerivAt_neg t).exp.congr_deriv (by ring)
  have hb : ∀ t ∈ Ioo (0 : ℝ) 1, 0 < Real.exp (-t) ∧ Real.exp (-t) ≤ 1 := fun t ht => ⟨Real.exp_pos _, Real.exp_le_one_iff.2 (by linarith [ht.1])⟩
  refine sample_solution rot norm order order' leftover stored (ψ := fun τ => -Real.exp (-τ)) (by rcases hk with rfl | rfl <;> simp) (by simp) zero_le_one le_rfl
    (fun t => ?_) (fun t => ?_) he (fun t ht => ?_) (fun t ht => ?_) (fun t ht => ?_) (fun t ht => ?_) (fun t ht h => absurd h (not_le.2 ht.2)) (fun t ht => ?_)
  · have := ((((hasDerivAt_id t).const_mul 10).const_add 2).sub ((hasDerivAt_pow 2 t).const_mul (981 / 200))).add (he t)
    refine this.congr_deriv ?_
    simp; ring
  · have := (((hasDerivAt_id t).const_mul (981 / 100)).const_sub 10).sub (he t)
    refine this.congr_deriv ?_
    simp; ring
  · have := hb t ht
    constructor <;> linarith
  · have := hb t ht
    constructor <;> nlinarith [ht.1, ht.2]
  · have := hb t ht
    rw [abs_le]
    constructor <;> nlinarith [ht.1, ht.2]
  · have := hb t ht
    rw [abs_neg, abs_of_pos this.1]
    exact this.2
  · have := hb t ht
    rcases hk with rfl | rfl
    · simp only [Unloads]
      nlinarith [mul_pos this.1 ht.1]
    · simp only [Unloads]
      have h1 : 0 < 1 / Real.cosh (2 + 10 * t - 981 / 200 * t ^ 2 + Real.exp (-t) - 1) := div_pos one_pos (Real.cosh_pos _)
      nlinarith

/-- The robot that stands, with controls that are frozen in the second half of the horizon. -/
theorem sample_standing : ∃ P : Problem 1 1 (struct .classical .classical (1 / 2)) extras (settings .classical .classical) (-100) 100,
    Solution P Rob 1 (fun _ => state 1 0 (981 / 100)) (fun _ => upright) (fun _ => Sample.control 0 0) :=
  sample_solution rot norm order order' leftover stored (z := fun _ => 1) (w := fun _ => 0) (φ := fun _ => 981 / 100) (ψ := fun _ => 0) (by simp) (by simp)
    (by norm_num) (by norm_num) (fun t => hasDerivAt_const _ _) (fun t => (hasDerivAt_const _ _).congr_deriv (by norm_num)) (fun t => hasDerivAt_const _ _)
    (fun _ _ => by norm_num) (fun _ _ => by norm_num) (fun _ _ => by norm_num) (fun _ _ => by norm_num) (fun _ _ _ => ⟨rfl, rfl⟩) (fun _ _ => by simp [Unloads])

include rot norm order order' leftover stored in
/-- C86 for the jump: the product decays, the force fades, the planar velocity is limited. -/
example : (Real.exp (-(3 / 4)) : ℝ) ≤
    1 / Real.cosh 1 / (1 - 1 / Real.cosh 1) + (Real.exp (-(1 / 4)) - 1 / Real.cosh 1 / (1 - 1 / Real.cosh 1)) * Real.exp (-(1 - 1 / Real.cosh 1) * (3 / 4 - 1 / 4)) := by
  obtain ⟨P, S⟩ := sample_fading rot norm order order' leftover stored (Or.inr rfl)
  have := C86_force_fades S mass_ne (Or.inl rfl) (by norm_num [settings]) (by norm_num [settings]) (by norm_num [settings]) (a := 1 / 4) (b := 3 / 4) (h := 1)
    (by norm_num) (by norm_num) (by norm_num) .left (k := 0) (by norm_num) one_pos (fun t ht => by
      show (1 : ℝ) ≤ 2 + 10 * t - 981 / 200 * t ^ 2 + Real.exp (-t) - 1
      nlinarith [ht.1, ht.2, Real.exp_pos (-t)]) rfl rfl
  simpa [settings, Spec.force, Spec.points, state, toVec] using this

example (t : ℝ) (ht : t ∈ Ioo (0 : ℝ) 1) (foot : Foot) :
    HasDerivAt (fun _ => Spec.footPoint Rob (settings .classical .classical) (state 1 0 (981 / 100)) upright foot 0) 0 t := by
  obtain ⟨P, S⟩ := sample_standing rot norm order order' leftover stored
  refine C85_no_slip S mass_ne rfl (fun _ => rfl) ht foot (by norm_num) ?_ ?_ <;>
    cases foot <;> simp [Spec.position, Spec.force, Spec.points, state, toVec]

end Examples

end
end Verif.Plan
