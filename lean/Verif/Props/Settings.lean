import Verif.Lemmas.Settings
/- Properties C10 and C11: validation of the settings. -/
set_option linter.unusedSectionVars false
namespace Verif.Settings
open Spec
variable {K R : Type} [Field K] [LinearOrder K]

/-- C10.  `setFromStruct` answers true exactly on acceptable structures, and then the object is valid and
`getSettings` returns the structure just given, whole. -/
theorem C10_accept_iff (s : Settings K R) (i : SettingsStruct K R) :
    (∃ s', setFromStruct s i = some (s', true)) ↔ Acceptable i := by
  rw [← errors_zero]
  unfold setFromStruct
  cases errors i with
  | none => simp
  | some n => by_cases h : n = 0 <;> simp [h]

theorem C10_accept_stores (s s' : Settings K R) (i : SettingsStruct K R) (h : setFromStruct s i = some (s', true)) :
    s'.stored = some i ∧ s'.isValid = true := by
  unfold setFromStruct at h
  split at h
  · cases h
  · split at h
    · cases h; exact ⟨rfl, rfl⟩
    · cases h

/-- C10.  A refused structure changes nothing: stored settings and validity flag are those of before the call. -/
theorem C10_refuse_unchanged (s s' : Settings K R) (i : SettingsStruct K R)
    (h : setFromStruct s i = some (s', false)) : s' = s ∧ ¬ Acceptable i := by
  rw [← errors_zero]
  unfold setFromStruct at h
  split at h
  · cases h
  · split at h
    · cases h
    · rename_i n he hn
      cases h
      refine ⟨rfl, ?_⟩
      rw [he]
      simpa using hn

/-- C10 (definedness).  The validation reads out of bounds exactly when fewer velocity limits than joint limits are
given: the length error is counted but the loop still runs. -/
theorem C10_out_of_bounds_iff (s : Settings K R) (i : SettingsStruct K R) :
    setFromStruct s i = none ↔ i.jointsVelocityLimits.length < i.jointsLimits.length := by
  rw [← errors_none]
  unfold setFromStruct
  cases errors i with
  | none => simp
  | some n => by_cases h : n = 0 <;> simp [h]

/-- C10 (history).  After any history of well defined `setFromStruct` calls on a new object, the object is valid iff some
structure of the history was acceptable, and it then holds the last acceptable one. -/
theorem C10_history (h : List (SettingsStruct K R)) (s : Settings K R) (hs : setMany (init K R) h = some s) :
    (s.isValid = false ∧ s.stored = none ∧ ∀ i ∈ h, ¬ Acceptable i) ∨
    (∃ l i r, h = l ++ i :: r ∧ Acceptable i ∧ (∀ j ∈ r, ¬ Acceptable j) ∧ s.stored = some i ∧ s.isValid = true) := by
  have key : ∀ (h : List (SettingsStruct K R)) (s0 s : Settings K R), setMany s0 h = some s →
      (s = s0 ∧ ∀ i ∈ h, ¬ Acceptable i) ∨
      (∃ l i r, h = l ++ i :: r ∧ Acceptable i ∧ (∀ j ∈ r, ¬ Acceptable j) ∧ s.stored = some i ∧ s.isValid = true) := by
    intro h
    induction h with
    | nil => intro s0 s hs; simp only [setMany, Option.some.injEq] at hs; exact Or.inl ⟨hs.symm, by simp⟩
    | cons i h ih =>
      intro s0 s hs
      simp only [setMany] at hs
      split at hs
      · cases hs
      · rename_i s1 b hb
        rcases ih s1 s hs with ⟨e, hn⟩ | ⟨l, j, r, e, ha, hr, hst, hv⟩
        · cases b with
          | true =>
            right
            have hst := C10_accept_stores s0 s1 i hb
            exact ⟨[], i, h, rfl, (C10_accept_iff s0 i).1 ⟨s1, hb⟩, hn, by rw [e]; exact hst.1, by rw [e]; exact hst.2⟩
          | false =>
            left
            obtain ⟨e1, hna⟩ := C10_refuse_unchanged s0 s1 i hb
            refine ⟨e.trans e1, ?_⟩
            intro j hj
            rcases List.mem_cons.1 hj with rfl | hj
            · exact hna
            · exact hn j hj
        · right
          exact ⟨i :: l, j, r, by rw [e]; rfl, ha, hr, hst, hv⟩
  rcases key h _ s hs with ⟨rfl, hn⟩ | hr
  · exact Or.inl ⟨rfl, rfl, hn⟩
  · exact Or.inr hr

/-- C10 (constructor).  Constructing from a structure gives a valid object exactly for acceptable structures. -/
theorem C10_constructor (i : SettingsStruct K R) (s : Settings K R) (h : fromStruct i = some s) :
    (s.isValid = true ↔ Acceptable i) ∧ (s.isValid = true → s.stored = some i) := by
  unfold fromStruct at h
  split at h
  · cases h
  · rename_i s' ok hb
    cases h
    cases ok with
    | true => exact ⟨by simp [(C10_accept_iff _ i).1 ⟨s', hb⟩], fun _ => (C10_accept_stores _ _ _ hb).1⟩
    | false => exact ⟨by simp [(C10_refuse_unchanged _ _ _ hb).2], by simp⟩

/-- C10 (defaults).  The default structure is acceptable exactly for models that have the iCub link and frames it names,
and one ordered pair of limits per degree of freedom. -/
theorem C10_defaults [IsStrictOrderedRing K] (m : RobotModel) (limits : List (K × K)) (rest : R) :
    Acceptable (defaults m limits rest) ↔
      m.isLinkNameUsed "root_link" = true ∧ m.isFrameNameUsed "l_sole" = true ∧ m.isFrameNameUsed "r_sole" = true ∧
      m.isFrameNameUsed "neck_2" = true ∧ limits.length = m.nrOfDOFs ∧ ∀ l ∈ limits, l.1 ≤ l.2 := by
  constructor
  · intro h
    have hm := h.model
    have hc := h.costs
    have hj := h.joints
    simp only [ModelOk, CostsOk, JointsOk, defaults, forall_const] at hm hc hj
    exact ⟨hm.1, hm.2.2.1, hm.2.2.2.1, hc.2.2.2.1.1, hj.1, hj.2.2.1⟩
  · rintro ⟨h1, h2, h3, h4, h5, h6⟩
    have hr : ∀ r ∈ List.replicate 4 (1 / 4 : K), 0 ≤ r ∧ r ≤ 1 := by
      intro r hr
      rw [List.eq_of_mem_replicate hr]
      constructor <;> norm_num
    refine ⟨?_, ?_, ?_, ?_, ?_, ?_⟩
    · simp only [TimingsOk, defaults]; norm_num
    · unfold ModelOk; exact ⟨h1, rfl, h2, h3, h3, h2, by simp [defaults]⟩
    · simp only [TolerancesOk, defaults]; norm_num
    · simp only [JointsOk, defaults]
      refine ⟨h5, by simp, h6, ?_⟩
      intro l hl
      rw [List.eq_of_mem_replicate hl]
      norm_num
    · simp only [CostsOk, defaults]
      refine ⟨by simp, by simp, by simp, by simp [h4], by simp, by simp, by simp, by simp, fun _ => by norm_num, by simp,
        by simp, by simp, by simp, by simp, fun _ => ⟨by simp, by simp, hr, hr⟩⟩
    · simp only [ComplementarityOk, defaults]
      refine ⟨fun _ => by norm_num, fun _ => by norm_num, fun _ => by norm_num, fun _ => by norm_num⟩

/-- A robot with every name and two degrees of freedom. -/
def anyRobot : RobotModel := { nrOfDOFs := 2, isLinkNameUsed := fun _ => true, isFrameNameUsed := fun _ => true }

def goodStruct : SettingsStruct Rat Unit := defaults anyRobot [(-1, 1), (0, 2)] ()

theorem goodStruct_acceptable : Acceptable goodStruct := by
  rw [goodStruct, C10_defaults]
  refine ⟨rfl, rfl, rfl, rfl, rfl, ?_⟩
  decide +kernel

theorem accepted_eq (s : Settings K R) (i : SettingsStruct K R) (h : errors i = some 0) :
    setFromStruct s i = some ({ stored := some i, isValid := true }, true) := by simp [setFromStruct, h]

theorem refused_eq (s : Settings K R) (i : SettingsStruct K R) (n : Nat) (h : errors i = some (n + 1)) :
    setFromStruct s i = some (s, false) := by simp [setFromStruct, h]

def negativeHorizon : SettingsStruct Rat Unit := { goodStruct with horizon := -1 }
def noForceDerivativeTrajectory : SettingsStruct Rat Unit :=
  { goodStruct with hasDesiredForceDerivativeTrajectory := false }
def noUncheckedTrajectories : SettingsStruct Rat Unit :=
  { goodStruct with hasDesiredJointsVelocityTrajectory := false, hasDesiredLeftFootYaw := false,
                    hasDesiredRightFootYaw := false }

/-- Non-vacuity: there are accepted and refused structures, and histories mixing them. -/
example : ∃ s, setMany (init Rat Unit) [goodStruct, negativeHorizon] = some s
    ∧ s.stored = some goodStruct ∧ s.isValid = true := by
  refine ⟨{ stored := some goodStruct, isValid := true }, ?_, rfl, rfl⟩
  simp only [setMany, accepted_eq (init Rat Unit) goodStruct ((errors_zero _).2 goodStruct_acceptable),
    refused_eq _ negativeHorizon 0 (by decide +kernel)]

/-- C11 fails: settings whose force-derivative cost is enabled but has no force-derivative trajectory are accepted
(Settings.cpp:129 tests the rotation trajectory instead). -/
theorem C11_negation_force_derivative :
    ∃ (i : SettingsStruct Rat Unit) (s : Settings Rat Unit), setFromStruct (init Rat Unit) i = some (s, true) ∧
      i.forceDerivativeCostActive = true ∧ i.hasDesiredForceDerivativeTrajectory = false ∧ ¬ TrajectoriesPresent i :=
  ⟨noForceDerivativeTrajectory, _, accepted_eq _ _ (by decide +kernel), rfl, rfl,
    fun h => absurd (h.2.2.2.2.2.1 rfl) (by decide)⟩

/-- C11 fails also for the joint velocity and the foot yaw costs, whose trajectories are never tested. -/
theorem C11_negation_unchecked :
    ∃ (i : SettingsStruct Rat Unit) (s : Settings Rat Unit), setFromStruct (init Rat Unit) i = some (s, true) ∧
      i.jointsVelocityCostActive = true ∧ i.hasDesiredJointsVelocityTrajectory = false ∧
      i.leftFootYawCostActive = true ∧ i.hasDesiredLeftFootYaw = false ∧
      i.rightFootYawCostActive = true ∧ i.hasDesiredRightFootYaw = false :=
  ⟨noUncheckedTrajectories, _, accepted_eq _ _ (by decide +kernel), rfl, rfl, rfl, rfl, rfl, rfl⟩

/-- And settings that need no rotation are refused because of the same line: a complete force-derivative configuration
without a rotation trajectory is refused. -/
theorem C11_negation_spurious_refusal :
    ∃ (i : SettingsStruct Rat Unit), TrajectoriesPresent i ∧ i.frameCostActive = false ∧ ¬ Acceptable i ∧
      Acceptable { i with hasDesiredRotationTrajectory := true } := by
  refine ⟨{ goodStruct with frameCostActive := false, hasDesiredRotationTrajectory := false }, ?_, rfl, ?_, ?_⟩
  · simp [TrajectoriesPresent, goodStruct, defaults]
  · rw [← errors_zero]; decide +kernel
  · rw [← errors_zero]; decide +kernel

/-- C11, the part that holds: of the enabled costs that follow a trajectory, all but the force-derivative, joint-velocity
and the two foot-yaw costs have theirs whenever the settings are accepted.  Missing: those four (see the negations). -/
theorem C11_trajectories_partial (s s' : Settings K R) (i : SettingsStruct K R)
    (h : setFromStruct s i = some (s', true))
    (hf : i.forceDerivativeCostActive = true → i.hasDesiredForceDerivativeTrajectory = true)
    (hv : i.jointsVelocityCostActive = true → i.hasDesiredJointsVelocityTrajectory = true)
    (hl : i.leftFootYawCostActive = true → i.hasDesiredLeftFootYaw = true)
    (hr : i.rightFootYawCostActive = true → i.hasDesiredRightFootYaw = true) : TrajectoriesPresent i := by
  have ha := (C10_accept_iff s i).1 ⟨s', h⟩
  obtain ⟨_, c2, c3, c4, c5, _, _, c8, _, c10, c11, c12, c13, c14, _⟩ := ha.costs
  exact ⟨fun h => (c2 h).2.2, fun h => (c3 h).2, fun h => (c4 h).2.1, fun h => (c5 h).1, hv, hf, fun h => (c8 h).1,
    fun h => (c10 h).2.1, hl, hr, fun h => (c11 h).2.2, c12, fun h => (c13 h).1, c14⟩

/-- Non-vacuity of the hypotheses of `C11_trajectories_partial`. -/
example : ∃ s', setFromStruct (init Rat Unit) goodStruct = some (s', true) :=
  (C10_accept_iff _ _).2 goodStruct_acceptable

end Verif.Settings
