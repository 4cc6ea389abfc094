import Verif.Lemmas.Bounds2
import Verif.Props.Packing
import Verif.Props.Settings
/- Bounds of the optimisation variables (C30). -/
set_option linter.unusedSectionVars false
set_option linter.unusedSimpArgs false
namespace Verif.SolverM
open StateM Spec
open Labeller (Labeller Range overwrite)
open Settings (SettingsStruct)
variable {K R : Type} [Field K] [LinearOrder K] [IsStrictOrderedRing K]

theorem pair_iff {α : Type} {l : List (K × K)} {x : List K} (_ : α) :
    (List.Forall₂ (· ≤ ·) (l.map (·.1)) x ∧ List.Forall₂ (· ≤ ·) x (l.map (·.2))) ↔ List.Forall₂ (fun l x => l.1 ≤ x ∧ x ≤ l.2) l x := by
  induction l generalizing x with
  | nil => cases x <;> simp
  | cons a l ih =>
    cases x with
    | nil => simp
    | cons y x => simp only [List.map_cons, List.forall₂_cons, ← ih]; tauto

theorem lowState_size (n : Nat) (m h a : K) (js : List K) : StateSize js.length n (lowState n m h a js) :=
  ⟨List.length_replicate, List.length_replicate, rfl⟩
theorem highState_size (n : Nat) (m a : K) (js : List K) : StateSize js.length n (highState n m a js) :=
  ⟨List.length_replicate, List.length_replicate, rfl⟩
theorem boundControl_size (n : Nat) (m : K) (p : PointControl K) (js : List K) : ControlSize js.length n (boundControl n m p js) :=
  ⟨List.length_replicate, List.length_replicate, rfl⟩

theorem inBox_iff (m v : V3 K) : InBox m v ↔ (-m.x ≤ v.x ∧ v.x ≤ m.x) ∧ (-m.y ≤ v.y ∧ v.y ≤ m.y) ∧ (-m.z ≤ v.z ∧ v.z ≤ m.z) := by
  simp only [InBox, abs_le]

theorem mem_points {s : State K} {q : V4 K} {p : PointState K} (hp : p ∈ s.left ++ s.right) {x : K} (hx : x ∈ pointState p) : x ∈ stateVector s q := by
  simp only [stateVector, List.mem_append, List.mem_flatMap]
  rcases List.mem_append.1 hp with h | h
  · exact Or.inl (Or.inl (Or.inl (Or.inl (Or.inl (Or.inl ⟨p, h, hx⟩)))))
  · exact Or.inl (Or.inl (Or.inl (Or.inl (Or.inl (Or.inr ⟨p, h, hx⟩)))))

theorem mem_pointsC {s : Control K} {p : PointControl K} (hp : p ∈ s.left ++ s.right) {x : K} (hx : x ∈ pointControl p) : x ∈ controlVector s := by
  simp only [controlVector, List.mem_append, List.mem_flatMap]
  rcases List.mem_append.1 hp with h | h
  · exact Or.inl (Or.inl (Or.inl (Or.inl ⟨p, h, hx⟩)))
  · exact Or.inl (Or.inl (Or.inl (Or.inr ⟨p, h, hx⟩)))

/-- States between bounds that differ from the standard ones in the centre of mass only. -/
theorem between_state (n : Nat) (m p a : K) (lims : List (K × K)) (lo up : V3 K) (h' : K) (s : State K) (q : V4 K)
    (hs : StateSize lims.length n s) (hinf : ∀ x ∈ stateVector s q, m ≤ x ∧ x ≤ p) :
    Between (stateVector { lowState n m h' a (lims.map (·.1)) with com := lo } ⟨m, m, m, m⟩)
      (stateVector { highState n p a (lims.map (·.2)) with com := up } ⟨p, p, p, p⟩) (stateVector s q) ↔
    StateAllowed a lims s ∧ (lo.x ≤ s.com.x ∧ s.com.x ≤ up.x) ∧ (lo.y ≤ s.com.y ∧ s.com.y ≤ up.y) ∧ (lo.z ≤ s.com.z ∧ s.com.z ≤ up.z) := by
  have z1 : StateSize lims.length n { lowState n m h' a (lims.map (·.1)) with com := lo } :=
    ⟨List.length_replicate, List.length_replicate, by simp [lowState]⟩
  have z2 : StateSize lims.length n { highState n p a (lims.map (·.2)) with com := up } :=
    ⟨List.length_replicate, List.length_replicate, by simp [highState]⟩
  unfold Between
  rw [forall2_stateVector z1 hs, forall2_stateVector hs z2]
  dsimp only [lowState, highState]
  rw [forall2_replicate_left hs.left, forall2_replicate_left hs.right, forall2_replicate_right hs.left, forall2_replicate_right hs.right]
  have hp : ∀ y ∈ s.left ++ s.right, ∀ x ∈ pointState y, m ≤ x ∧ x ≤ p := fun y hy x hx => hinf x (mem_points hy hx)
  have hr : ∀ x ∈ [s.linearMomentum.x, s.linearMomentum.y, s.linearMomentum.z, s.angularMomentum.x, s.angularMomentum.y, s.angularMomentum.z,
      s.com.x, s.com.y, s.com.z, s.base.pos.x, s.base.pos.y, s.base.pos.z, q.w, q.x, q.y, q.z], m ≤ x ∧ x ≤ p := by
    intro x hx
    apply hinf
    simp only [List.mem_cons, List.not_mem_nil, or_false] at hx
    simp only [stateVector, List.mem_append, List.mem_cons, List.not_mem_nil, or_false]
    tauto
  simp only [List.mem_cons, List.not_mem_nil, or_false, forall_eq_or_imp, forall_eq, pointState, List.mem_append] at hp hr
  simp only [pointState, lowPoint, List.forall₂_cons, List.forall₂_nil_left_iff, and_true]
  have hj := pair_iff (l := lims) (x := s.joints) ()
  constructor
  · rintro ⟨⟨l1, r1, c1, j1⟩, l2, r2, c2, j2⟩
    refine ⟨⟨?_, ?_, ?_, hj.1 ⟨j1, j2⟩⟩, ?_⟩
    · intro y hy
      rcases List.mem_append.1 hy with h | h
      · exact (l1 y h).2.2.2.2.2
      · exact (r1 y h).2.2.2.2.2
    · intro y hy
      rcases List.mem_append.1 hy with h | h
      · exact (l1 y h).2.2.1
      · exact (r1 y h).2.2.1
    · rw [inBox_iff]; tauto
    · tauto
  · rintro ⟨⟨h1, h2, h3, h4⟩, h5⟩
    rw [inBox_iff] at h3
    simp only [List.mem_append] at h1 h2
    have hj := hj.2 h4
    refine ⟨⟨fun y hy => ?_, fun y hy => ?_, ?_, hj.1⟩, fun y hy => ?_, fun y hy => ?_, ?_, hj.2⟩
    · have := hp y (Or.inl hy); have := h1 y (Or.inl hy); have := h2 y (Or.inl hy); tauto
    · have := hp y (Or.inr hy); have := h1 y (Or.inr hy); have := h2 y (Or.inr hy); tauto
    · tauto
    · have := hp y (Or.inl hy); tauto
    · have := hp y (Or.inr hy); tauto
    · tauto

/-- Controls between bounds with the same bounds for all points. -/
theorem between_control (n : Nat) (m p : K) (lims : List (K × K)) (lo up : PointControl K) (c : Control K)
    (hc : ControlSize lims.length n c) (hinf : ∀ x ∈ controlVector c, m ≤ x ∧ x ≤ p) :
    Between (controlVector (boundControl n m lo (lims.map (·.1)))) (controlVector (boundControl n p up (lims.map (·.2)))) (controlVector c) ↔
    (∀ x ∈ c.left ++ c.right, Between (pointControl lo) (pointControl up) (pointControl x)) ∧ JointVelocitiesAllowed lims c := by
  have z1 : ControlSize lims.length n (boundControl n m lo (lims.map (·.1))) :=
    ⟨List.length_replicate, List.length_replicate, by simp [boundControl]⟩
  have z2 : ControlSize lims.length n (boundControl n p up (lims.map (·.2))) :=
    ⟨List.length_replicate, List.length_replicate, by simp [boundControl]⟩
  unfold Between JointVelocitiesAllowed
  rw [forall2_controlVector z1 hc, forall2_controlVector hc z2]
  dsimp only [boundControl]
  rw [forall2_replicate_left hc.left, forall2_replicate_left hc.right, forall2_replicate_right hc.left, forall2_replicate_right hc.right,
    ← pair_iff ()]
  have hr : ∀ x ∈ [c.baseLinearVelocity.x, c.baseLinearVelocity.y, c.baseLinearVelocity.z,
        c.baseQuaternionDerivative.w, c.baseQuaternionDerivative.x, c.baseQuaternionDerivative.y, c.baseQuaternionDerivative.z], m ≤ x ∧ x ≤ p := by
    intro x hx
    apply hinf
    simp only [List.mem_cons, List.not_mem_nil, or_false] at hx
    simp only [controlVector, List.mem_append, List.mem_cons, List.not_mem_nil, or_false]
    tauto
  simp only [List.mem_cons, List.not_mem_nil, or_false, forall_eq_or_imp, forall_eq] at hr
  simp only [List.forall₂_cons, List.forall₂_nil_left_iff, and_true, List.mem_append]
  constructor
  · rintro ⟨⟨l1, r1, c1, j1⟩, l2, r2, c2, j2⟩
    exact ⟨fun y hy => hy.elim (fun h => ⟨l1 y h, l2 y h⟩) fun h => ⟨r1 y h, r2 y h⟩, j1, j2⟩
  · rintro ⟨h1, h2, h3⟩
    exact ⟨⟨fun y hy => (h1 y (Or.inl hy)).1, fun y hy => (h1 y (Or.inr hy)).1, by tauto, h2⟩,
      fun y hy => (h1 y (Or.inl hy)).2, fun y hy => (h1 y (Or.inr hy)).2, by tauto, h3⟩

/-- The target of the centre of mass is not active at time `t`. -/
def NoTarget (st : SettingsStruct K R) (ex : BoundExtras K) (t : K) : Prop :=
  st.constrainTargetCoMPosition = false ∨ ex.desiredCoMTrajectory = none ∨ ex.targetCoMPositionTolerance = none ∨
  t < ex.constrainTargetCoMPositionRange.initTime ∨ ex.constrainTargetCoMPositionRange.endTime < t

/-- The objects made by `setBounds`. -/
theorem setBounds_ok (m p : K) (d n : Nat) (st : SettingsStruct K R) (ex : BoundExtras K)
    (hl : st.jointsLimits.length = d) (hv : st.jointsVelocityLimits.length = d) :
    setBounds m p (rangesAt d n) st ex = some
      (let sl := stateVector (lowState n m st.minimumCoMHeight st.maximumAngularMomentum (st.jointsLimits.map (·.1))) ⟨m, m, m, m⟩
       let su := stateVector (highState n p st.maximumAngularMomentum (st.jointsLimits.map (·.2))) ⟨p, p, p, p⟩
       let T := fun sign => if st.constrainTargetCoMPosition then some (⟨ex.constrainTargetCoMPositionRange, ⟨12 * n + 6, 3⟩, sign,
          ex.desiredCoMTrajectory, ex.targetCoMPositionTolerance⟩ : CoMTarget K) else none
       { stateLower := ⟨sl, sl, st.horizon * st.activeControlPercentage, T (-1)⟩
         stateUpper := ⟨su, su, st.horizon * st.activeControlPercentage, T 1⟩
         controlLower := ⟨controlVector (boundControl n m
            ⟨⟨-ex.forceMaximumDerivative.x, -ex.forceMaximumDerivative.y, -ex.forceMaximumDerivative.z⟩,
             ⟨-(velocityLimits st).x, -(velocityLimits st).y, -(velocityLimits st).z⟩⟩ (st.jointsVelocityLimits.map (·.1))),
          controlVector (boundControl n m ⟨⟨0, 0, 0⟩, ⟨0, 0, 0⟩⟩ (st.jointsVelocityLimits.map (·.1))),
          st.horizon * st.activeControlPercentage, none⟩
         controlUpper := ⟨controlVector (boundControl n p ⟨ex.forceMaximumDerivative, velocityLimits st⟩ (st.jointsVelocityLimits.map (·.2))),
          controlVector (boundControl n p ⟨⟨0, 0, 0⟩, ⟨0, 0, 0⟩⟩ (st.jointsVelocityLimits.map (·.2))),
          st.horizon * st.activeControlPercentage, none⟩ }) := by
  unfold setBounds
  rw [firstBounds_ok m p d n st ex hl hv]
  simp only [Option.bind_eq_bind, Option.bind_some]
  rw [secondBounds_ok]
  simp only [Option.bind_some]
  rfl

theorem get_base (b : VariableBound K) (t : K) (hb : b.first = b.second) (h : b.target = none ∨ ∃ c, b.target = some c ∧
    (c.reference = none ∨ c.tolerance = none ∨ t < c.range.initTime ∨ c.range.endTime < t)) : b.get t = some (b.first, true) := by
  unfold VariableBound.get
  dsimp only
  rw [hb, ite_self]
  rcases h with h | ⟨c, h, h'⟩
  · rw [h]
  · rw [h]
    dsimp only
    rcases h' with h' | h' | h' | h'
    · rw [h']
    · rw [h']; cases c.reference <;> rfl
    · cases c.reference <;> cases c.tolerance <;> try rfl
      dsimp only
      rw [if_neg (by simp [Reference.TimeRange.isInRange, h'])]
    · cases c.reference <;> cases c.tolerance <;> try rfl
      dsimp only
      rw [if_neg (by simp [Reference.TimeRange.isInRange, h'])]

section
variable {ls lc ls' lc' : Labeller K} {r : Ranges} {st : SettingsStruct K R}
  (hr : setVariablesStructure ls lc st.robotModel.nrOfDOFs st.nLeftPoints = some (ls', lc', r)) (hst : Settings.Spec.Acceptable st)
include hr hst

/-- **C30.** With settings accepted by `Settings` the bounds are made, with no access out of bounds. -/
theorem C30_bounds_made (minusInf plusInf : K) (ex : BoundExtras K) : ∃ b, setBounds minusInf plusInf r st ex = some b := by
  obtain rfl := ranges_eq hr
  exact ⟨_, setBounds_ok minusInf plusInf _ _ st ex hst.joints.1 hst.joints.2.1⟩

/-- **C30**, states, when the target of the centre of mass is not active: at every time the bounds are valid, and a state (whose elements do
not exceed what the optimiser calls infinity) is between them exactly when points are above the ground, normal forces are not
negative, angular momentum, joints and height of the centre of mass respect their limits. -/
theorem C30_state_without_target (minusInf plusInf : K) (ex : BoundExtras K) {b : Bounds K} (hb : setBounds minusInf plusInf r st ex = some b)
    (t : K) (ht : NoTarget st ex t) : ∃ lower upper, b.stateLower.get t = some (lower, true) ∧ b.stateUpper.get t = some (upper, true) ∧
      ∀ (s : State K) (q : V4 K), StateSize st.robotModel.nrOfDOFs st.nLeftPoints s → (∀ x ∈ stateVector s q, minusInf ≤ x ∧ x ≤ plusInf) →
        (Between lower upper (stateVector s q) ↔ StateAllowed st.maximumAngularMomentum st.jointsLimits s ∧ st.minimumCoMHeight ≤ s.com.z) := by
  obtain rfl := ranges_eq hr
  rw [setBounds_ok _ _ _ _ st ex hst.joints.1 hst.joints.2.1] at hb
  obtain rfl := Option.some.inj hb
  dsimp only
  have ht' : ∀ sign : K, (if st.constrainTargetCoMPosition = true then some (⟨ex.constrainTargetCoMPositionRange, ⟨12 * st.nLeftPoints + 6, 3⟩, sign,
          ex.desiredCoMTrajectory, ex.targetCoMPositionTolerance⟩ : CoMTarget K) else none) = none ∨
      ∃ c, (if st.constrainTargetCoMPosition = true then some (⟨ex.constrainTargetCoMPositionRange, ⟨12 * st.nLeftPoints + 6, 3⟩, sign,
          ex.desiredCoMTrajectory, ex.targetCoMPositionTolerance⟩ : CoMTarget K) else none) = some c ∧
        (c.reference = none ∨ c.tolerance = none ∨ t < c.range.initTime ∨ c.range.endTime < t) := by
    intro sign
    rcases ht with h | h
    · left; simp [h]
    · by_cases hc : st.constrainTargetCoMPosition = true
      · right; exact ⟨_, if_pos hc, h⟩
      · left; exact if_neg hc
  refine ⟨_, _, get_base _ t rfl (ht' _), get_base _ t rfl (ht' _), fun s q hs hinf => ?_⟩
  have := between_state st.nLeftPoints minusInf plusInf st.maximumAngularMomentum st.jointsLimits ⟨minusInf, minusInf, st.minimumCoMHeight⟩
    ⟨plusInf, plusInf, plusInf⟩ st.minimumCoMHeight s q (by rw [hst.joints.1]; exact hs) hinf
  refine Iff.trans this ?_
  have hc : ∀ x ∈ [s.com.x, s.com.y, s.com.z], minusInf ≤ x ∧ x ≤ plusInf := by
    intro x hx
    apply hinf
    simp only [stateVector, List.mem_append]
    tauto
  simp only [List.mem_cons, List.not_mem_nil, or_false, forall_eq_or_imp, forall_eq] at hc
  tauto

/-- **C30**, states, when the target of the centre of mass is active and its reference is valid: the centre of mass is asked to be
within the tolerance (zero if not valid) of the reference in each direction; the minimum height is no longer asked for.  The lower
bound of the centre of mass does not exceed the upper one exactly when the tolerance is not negative. -/
theorem C30_state_with_target (minusInf plusInf : K) (ex : BoundExtras K) {b : Bounds K} (hb : setBounds minusInf plusInf r st ex = some b)
    (t : K) (hc : st.constrainTargetCoMPosition = true) {reference : K → List K × Bool} (href : ex.desiredCoMTrajectory = some reference)
    {tolerance : K → K × Bool} (htol : ex.targetCoMPositionTolerance = some tolerance)
    (h1 : ex.constrainTargetCoMPositionRange.initTime ≤ t) (h2 : t ≤ ex.constrainTargetCoMPositionRange.endTime)
    (target : V3 K) (hv : reference t = ([target.x, target.y, target.z], true)) (δ : K)
    (hδ : ((tolerance t).2 = true ∧ δ = (tolerance t).1) ∨ ((tolerance t).2 = false ∧ δ = 0)) :
    ∃ lower upper, b.stateLower.get t = some (lower, true) ∧ b.stateUpper.get t = some (upper, true) ∧
      (∀ (s : State K) (q : V4 K), StateSize st.robotModel.nrOfDOFs st.nLeftPoints s → (∀ x ∈ stateVector s q, minusInf ≤ x ∧ x ≤ plusInf) →
        (Between lower upper (stateVector s q) ↔ StateAllowed st.maximumAngularMomentum st.jointsLimits s ∧
          |s.com.x - target.x| ≤ δ ∧ |s.com.y - target.y| ≤ δ ∧ |s.com.z - target.z| ≤ δ)) ∧
      (minusInf ≤ 0 → 0 ≤ plusInf → (List.Forall₂ (· ≤ ·) lower upper ↔ 0 ≤ δ)) := by
  obtain rfl := ranges_eq hr
  rw [setBounds_ok _ _ _ _ st ex hst.joints.1 hst.joints.2.1] at hb
  obtain rfl := Option.some.inj hb
  dsimp only
  have hrange : ex.constrainTargetCoMPositionRange.isInRange t = true := by simp [Reference.TimeRange.isInRange, h1, h2]
  have htol' : (if (tolerance t).2 = true then (tolerance t).1 else 0) = δ := by
    rcases hδ with ⟨h, rfl⟩ | ⟨h, rfl⟩ <;> simp [h]
  have key : ∀ (sign : K) (s : State K) (q : V4 K), StateSize st.robotModel.nrOfDOFs st.nLeftPoints s →
      VariableBound.get (⟨stateVector s q, stateVector s q, st.horizon * st.activeControlPercentage,
        if st.constrainTargetCoMPosition = true then some (⟨ex.constrainTargetCoMPositionRange, ⟨12 * st.nLeftPoints + 6, 3⟩, sign,
          ex.desiredCoMTrajectory, ex.targetCoMPositionTolerance⟩ : CoMTarget K) else none⟩ : VariableBound K) t =
      some (stateVector { s with com := ⟨target.x + sign * δ, target.y + sign * δ, target.z + sign * δ⟩ } q, true) := by
    intro sign s q hs
    unfold VariableBound.get
    dsimp only
    rw [ite_self, if_pos hc]
    dsimp only
    rw [href, htol]
    dsimp only
    rw [if_pos hrange, hv]
    dsimp only
    rw [htol', if_neg (by simp)]
    have e : ∀ s : State K, stateVector s q = (s.left.flatMap pointState ++ s.right.flatMap pointState ++
        [s.linearMomentum.x, s.linearMomentum.y, s.linearMomentum.z, s.angularMomentum.x, s.angularMomentum.y, s.angularMomentum.z]) ++
        [s.com.x, s.com.y, s.com.z] ++ ([s.base.pos.x, s.base.pos.y, s.base.pos.z] ++ [q.w, q.x, q.y, q.z] ++ s.joints) := by
      intro s; simp [stateVector]
    rw [e, e, setSegment_mid (size := 3) (mid := [s.com.x, s.com.y, s.com.z])
      (x := [target.x + sign * δ, target.y + sign * δ, target.z + sign * δ]) (by
      simp only [List.length_append, flatMap_point_length, hs.left, hs.right, List.length_cons, List.length_nil]; omega) rfl rfl]
    rfl
  have z1 : StateSize st.robotModel.nrOfDOFs st.nLeftPoints (lowState st.nLeftPoints minusInf st.minimumCoMHeight st.maximumAngularMomentum
      (st.jointsLimits.map (·.1))) := ⟨List.length_replicate, List.length_replicate, by simp [lowState, hst.joints.1]⟩
  have z2 : StateSize st.robotModel.nrOfDOFs st.nLeftPoints (highState st.nLeftPoints plusInf st.maximumAngularMomentum
      (st.jointsLimits.map (·.2))) := ⟨List.length_replicate, List.length_replicate, by simp [highState, hst.joints.1]⟩
  refine ⟨_, _, key _ _ _ z1, key _ _ _ z2, fun s q hs hinf => ?_, fun hm hp => ?_⟩
  · refine Iff.trans (between_state st.nLeftPoints minusInf plusInf st.maximumAngularMomentum st.jointsLimits _ _ st.minimumCoMHeight s q
      (by rw [hst.joints.1]; exact hs) hinf) ?_
    simp only [abs_le]
    constructor
    · rintro ⟨h, ⟨a1, a2⟩, ⟨a3, a4⟩, a5, a6⟩
      exact ⟨h, ⟨by linarith, by linarith⟩, ⟨by linarith, by linarith⟩, by linarith, by linarith⟩
    · rintro ⟨h, ⟨a1, a2⟩, ⟨a3, a4⟩, a5, a6⟩
      exact ⟨h, ⟨by linarith, by linarith⟩, ⟨by linarith, by linarith⟩, by linarith, by linarith⟩
  · have y1 : StateSize st.robotModel.nrOfDOFs st.nLeftPoints { lowState st.nLeftPoints minusInf st.minimumCoMHeight st.maximumAngularMomentum
      (st.jointsLimits.map (·.1)) with com := ⟨target.x + -1 * δ, target.y + -1 * δ, target.z + -1 * δ⟩ } := ⟨z1.left, z1.right, z1.joints⟩
    have y2 : StateSize st.robotModel.nrOfDOFs st.nLeftPoints { highState st.nLeftPoints plusInf st.maximumAngularMomentum
      (st.jointsLimits.map (·.2)) with com := ⟨target.x + 1 * δ, target.y + 1 * δ, target.z + 1 * δ⟩ } := ⟨z2.left, z2.right, z2.joints⟩
    rw [forall2_stateVector y1 y2]
    dsimp only [lowState, highState]
    rw [forall2_replicate_left List.length_replicate]
    have hmp := hm.trans hp
    have ha : -st.maximumAngularMomentum ≤ st.maximumAngularMomentum := by have := hst.tolerances.2.2.2.2.2.2.2.2.1; linarith
    have hl : List.Forall₂ (· ≤ ·) (st.jointsLimits.map (·.1)) (st.jointsLimits.map (·.2)) := by
      rw [List.forall₂_map_left_iff, List.forall₂_map_right_iff]
      exact List.forall₂_same.2 fun l hl => hst.joints.2.2.1 l hl
    simp only [List.mem_replicate, and_imp, pointState, lowPoint, List.forall₂_cons, List.forall₂_nil_left_iff, and_true, hmp, ha, hl, true_and,
      forall_eq_apply_imp_iff]
    constructor
    · rintro ⟨-, -, h, -⟩; linarith
    · intro h
      exact ⟨fun _ => ⟨hp, hp⟩, fun _ => ⟨hp, hp⟩, by linarith, by linarith, by linarith⟩

/-- **C30**, states, when the target is active but its reference is not valid: the bounds are declared not valid (and are the ones without target). -/
theorem C30_state_invalid_reference (minusInf plusInf : K) (ex : BoundExtras K) {b : Bounds K} (hb : setBounds minusInf plusInf r st ex = some b)
    (t : K) (hc : st.constrainTargetCoMPosition = true) {reference : K → List K × Bool} (href : ex.desiredCoMTrajectory = some reference)
    {tolerance : K → K × Bool} (htol : ex.targetCoMPositionTolerance = some tolerance)
    (h1 : ex.constrainTargetCoMPositionRange.initTime ≤ t) (h2 : t ≤ ex.constrainTargetCoMPositionRange.endTime) (hv : (reference t).2 = false) :
    b.stateLower.get t = some (b.stateLower.first, false) ∧ b.stateUpper.get t = some (b.stateUpper.first, false) := by
  obtain rfl := ranges_eq hr
  rw [setBounds_ok _ _ _ _ st ex hst.joints.1 hst.joints.2.1] at hb
  obtain rfl := Option.some.inj hb
  have hrange : ex.constrainTargetCoMPositionRange.isInRange t = true := by simp [Reference.TimeRange.isInRange, h1, h2]
  dsimp only
  unfold VariableBound.get
  dsimp only
  rw [if_pos hc, if_pos hc]
  dsimp only
  rw [href, htol]
  dsimp only
  rw [if_pos hrange, if_pos hrange, hv]
  simp

/-- **C30**, controls: strictly before `horizon * activeControlPercentage` the derivatives of forces and velocities of the points are limited,
from that time on they must be zero; joint velocities are limited at all times.  (`forceMaximumDerivative` may be negative: then there
is no allowed control before the switch, if there is a point.) -/
theorem C30_control (minusInf plusInf : K) (ex : BoundExtras K) {b : Bounds K} (hb : setBounds minusInf plusInf r st ex = some b) (t : K) :
    ∃ lower upper, b.controlLower.get t = some (lower, true) ∧ b.controlUpper.get t = some (upper, true) ∧
      ∀ c : Control K, ControlSize st.robotModel.nrOfDOFs st.nLeftPoints c → (∀ x ∈ controlVector c, minusInf ≤ x ∧ x ≤ plusInf) →
        (Between lower upper (controlVector c) ↔ JointVelocitiesAllowed st.jointsVelocityLimits c ∧
          (t < st.horizon * st.activeControlPercentage → PointsLimited ex.forceMaximumDerivative (velocityLimits st) c) ∧
          (st.horizon * st.activeControlPercentage ≤ t → PointsFrozen c)) := by
  obtain rfl := ranges_eq hr
  rw [setBounds_ok _ _ _ _ st ex hst.joints.1 hst.joints.2.1] at hb
  obtain rfl := Option.some.inj hb
  dsimp only
  have hlen := hst.joints.2.1
  by_cases ht : t < st.horizon * st.activeControlPercentage
  · refine ⟨_, _, by simp only [VariableBound.get]; rw [if_pos ht], by simp only [VariableBound.get]; rw [if_pos ht], fun c hs hinf => ?_⟩
    rw [between_control _ _ _ _ _ _ c (by rw [hlen]; exact hs) hinf]
    simp only [ht, not_le.2 ht, true_imp_iff, false_imp_iff, and_true]
    rw [and_comm]
    refine and_congr_right fun _ => forall₂_congr fun x _ => ?_
    simp only [Between, pointControl, List.forall₂_cons, List.forall₂_nil_left_iff, and_true, inBox_iff]
    tauto
  · refine ⟨_, _, by simp only [VariableBound.get]; rw [if_neg ht], by simp only [VariableBound.get]; rw [if_neg ht], fun c hs hinf => ?_⟩
    rw [between_control _ _ _ _ _ _ c (by rw [hlen]; exact hs) hinf]
    simp only [ht, not_lt.1 ht, true_imp_iff, false_imp_iff, true_and]
    rw [and_comm]
    refine and_congr_right fun _ => forall₂_congr fun x _ => ?_
    obtain ⟨⟨a, b, c⟩, d, e, f⟩ := x
    simp only [Between, pointControl, List.forall₂_cons, List.forall₂_nil_left_iff, and_true, V3.mk.injEq]
    constructor
    · rintro ⟨⟨h1, h2, h3, h4, h5, h6⟩, g1, g2, g3, g4, g5, g6⟩
      exact ⟨⟨le_antisymm g4 h4, le_antisymm g5 h5, le_antisymm g6 h6⟩, le_antisymm g1 h1, le_antisymm g2 h2, le_antisymm g3 h3⟩
    · rintro ⟨⟨rfl, rfl, rfl⟩, rfl, rfl, rfl⟩
      simp

/-- **C30**, finding: the switch time is absolute.  If the time of the initial state is at least `horizon * activeControlPercentage` (for
instance from the second iteration of a receding horizon on) the points are frozen over the whole horizon, whatever the percentage. -/
theorem C30_finding_absolute_switch_time (minusInf plusInf : K) (ex : BoundExtras K) {b : Bounds K} (hb : setBounds minusInf plusInf r st ex = some b)
    (t0 : K) (h0 : st.horizon ≤ t0) (t : K) (ht : t0 ≤ t) (lower upper : List K) (hl : b.controlLower.get t = some (lower, true))
    (hu : b.controlUpper.get t = some (upper, true)) (c : Control K) (hc : ControlSize st.robotModel.nrOfDOFs st.nLeftPoints c)
    (hinf : ∀ x ∈ controlVector c, minusInf ≤ x ∧ x ≤ plusInf) (hbt : Between lower upper (controlVector c)) : PointsFrozen c := by
  obtain ⟨l, u, e1, e2, h⟩ := C30_control hr hst minusInf plusInf ex hb t
  rw [e1] at hl
  rw [e2] at hu
  simp only [Option.some.injEq, Prod.mk.injEq, and_true] at hl hu
  subst hl hu
  refine ((h c hc hinf).1 hbt).2.2 (le_trans ?_ (h0.trans ht))
  exact mul_le_of_le_one_right hst.timings.2.2.2.2.1 hst.timings.2.2.2.2.2.2

end

/-- Derivatives of forces up to 100, centre of mass asked to be in (0, 0, 1/10) plus or minus 1/100 for times in [1/2, 1]. -/
def someExtras : BoundExtras ℚ :=
  { forceMaximumDerivative := ⟨100, 100, 100⟩, constrainTargetCoMPositionRange := ⟨1 / 2, 1⟩
    desiredCoMTrajectory := some fun _ => ([0, 0, 1 / 10], true), targetCoMPositionTolerance := some fun _ => (1 / 100, true) }

/-- Points on the ground without force, centre of mass at `h`. -/
def restState (h : ℚ) : State ℚ :=
  { left := List.replicate 4 ⟨⟨0, 0, 0⟩, ⟨0, 0, 0⟩⟩, right := List.replicate 4 ⟨⟨0, 0, 0⟩, ⟨0, 0, 0⟩⟩, linearMomentum := ⟨0, 0, 0⟩
    angularMomentum := ⟨0, 0, 0⟩, com := ⟨0, 0, h⟩, base := identityTransform ℚ, joints := [0, 0], time := 0 }

theorem restState_allowed (h : ℚ) : StateAllowed Settings.goodStruct.maximumAngularMomentum Settings.goodStruct.jointsLimits (restState h) := by
  refine ⟨?_, ?_, ?_, ?_⟩
  · intro p hp
    rcases List.mem_append.1 hp with h | h <;> rw [List.eq_of_mem_replicate h]
  · intro p hp
    rcases List.mem_append.1 hp with h | h <;> rw [List.eq_of_mem_replicate h]
  · simp [InBox, restState, Settings.goodStruct, Settings.defaults]
  · simp [restState, Settings.goodStruct, Settings.defaults]

/-- The hypotheses of the theorems are met; with the default minimum height (0.2) a centre of mass at 0.1 is not allowed at time 0 but it is
at time 1/2, where the target replaces the minimum height. -/
example : ∃ ls lc r b, setVariablesStructure (Labeller.init ℚ) (Labeller.init ℚ) 2 4 = some (ls, lc, r) ∧
    setBounds (-(10 ^ 19)) (10 ^ 19) r Settings.goodStruct someExtras = some b ∧
    NoTarget Settings.goodStruct someExtras 0 ∧
    (∃ l u, b.stateLower.get 0 = some (l, true) ∧ b.stateUpper.get 0 = some (u, true) ∧
      ¬ Between l u (stateVector (restState (1 / 10)) ⟨1, 0, 0, 0⟩) ∧ Between l u (stateVector (restState (1 / 2)) ⟨1, 0, 0, 0⟩)) ∧
    (∃ l u, b.stateLower.get (1 / 2) = some (l, true) ∧ b.stateUpper.get (1 / 2) = some (u, true) ∧
      Between l u (stateVector (restState (1 / 10)) ⟨1, 0, 0, 0⟩) ∧ ¬ Between l u (stateVector (restState (1 / 2)) ⟨1, 0, 0, 0⟩) ∧
      List.Forall₂ (· ≤ ·) l u) := by
  obtain ⟨ls, lc, r, hr, -⟩ := C29_structure (Labeller.init ℚ) (Labeller.init ℚ) 2 4
  have hr' : setVariablesStructure (Labeller.init ℚ) (Labeller.init ℚ) Settings.goodStruct.robotModel.nrOfDOFs Settings.goodStruct.nLeftPoints =
    some (ls, lc, r) := hr
  obtain ⟨b, hb⟩ := C30_bounds_made hr' Settings.goodStruct_acceptable (-(10 ^ 19)) (10 ^ 19) someExtras
  have hn : NoTarget Settings.goodStruct someExtras 0 := Or.inr (Or.inr (Or.inr (Or.inl (by norm_num [someExtras]))))
  have hsz : ∀ h, StateSize 2 4 (restState h) := fun h => ⟨rfl, rfl, rfl⟩
  have hinf : ∀ h : ℚ, (h = 1 / 10 ∨ h = 1 / 2) → ∀ x ∈ stateVector (restState h) ⟨1, 0, 0, 0⟩, (-(10 ^ 19) : ℚ) ≤ x ∧ x ≤ 10 ^ 19 := by
    intro h hh x hx
    have : x = 0 ∨ x = 1 ∨ x = h := by
      simp only [stateVector, restState, identityTransform, List.mem_append, List.mem_flatMap, List.mem_replicate, pointState] at hx
      have z1 : V3.x (0 : V3 ℚ) = 0 := rfl
      have z2 : V3.y (0 : V3 ℚ) = 0 := rfl
      have z3 : V3.z (0 : V3 ℚ) = 0 := rfl
      simp only [List.mem_cons, List.not_mem_nil, or_false, z1, z2, z3] at hx
      grind
    rcases this with rfl | rfl | rfl
    · norm_num
    · norm_num
    · rcases hh with rfl | rfl <;> norm_num
  refine ⟨ls, lc, r, b, hr, hb, hn, ?_, ?_⟩
  · obtain ⟨l, u, e1, e2, h⟩ := C30_state_without_target hr' Settings.goodStruct_acceptable _ _ someExtras hb 0 hn
    refine ⟨l, u, e1, e2, ?_, ?_⟩
    · rw [h _ _ (hsz _) (hinf _ (Or.inl rfl))]
      rintro ⟨-, h⟩
      norm_num [restState, Settings.goodStruct, Settings.defaults] at h
    · rw [h _ _ (hsz _) (hinf _ (Or.inr rfl))]
      exact ⟨restState_allowed _, by norm_num [restState, Settings.goodStruct, Settings.defaults]⟩
  · obtain ⟨l, u, e1, e2, h, ho⟩ := C30_state_with_target hr' Settings.goodStruct_acceptable _ _ someExtras hb (1 / 2) rfl rfl rfl
      (by norm_num [someExtras]) (by norm_num [someExtras]) ⟨0, 0, 1 / 10⟩ rfl (1 / 100) (Or.inl ⟨rfl, rfl⟩)
    refine ⟨l, u, e1, e2, ?_, ?_, (ho (by norm_num) (by norm_num)).2 (by norm_num)⟩
    · rw [h _ _ (hsz _) (hinf _ (Or.inl rfl))]
      exact ⟨restState_allowed _, by norm_num [restState]⟩
    · rw [h _ _ (hsz _) (hinf _ (Or.inr rfl))]
      rintro ⟨-, -, -, h⟩
      norm_num [restState, abs_le] at h

end Verif.SolverM
