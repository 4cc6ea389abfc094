import Verif.Spec.LoggedSettings
import Verif.Props.Logger
/- C96: the settings saved next to the solution. -/
namespace Verif.LoggedSettings
open Spec
variable {K M T W : Type}

/-- The names, in the order in which the fields are added. -/
def savedNames : List String :=
  ["minimumDt", "maximumDt", "controlPeriod", "horizon", "activeControlPercentage", "robotModel", "gravity", "updateTolerance", "floatingBaseName", "leftPointsPosition", "rightPointsPosition", "leftFrameName", "rightFrameName", "complementarity", "forceMaximumDerivative", "normalForceDissipationRatio", "normalForceHyperbolicSecantScaling", "complementarityDissipation", "dynamicComplementarityUpperBound", "classicalComplementarityTolerance", "frictionCoefficient", "planarComplementarity", "velocityMaximumDerivative", "planarVelocityHyperbolicTangentScaling", "normalVelocityHyperbolicSecantScaling", "classicalPlanarComplementarityTolerance", "indexOfLateralDirection", "minimumFeetDistance", "referenceFrameNameForFeetDistance", "otherFrameNameForFeetDistance", "feetMaximumRelativeHeight", "comPositionConstraintTolerance", "centroidalMomentumConstraintTolerance", "quaternionModulusConstraintTolerance", "pointPositionConstraintTolerance", "minimumCoMHeight", "maximumAngularMomentum", "jointsLimits", "jointsVelocityLimits", "constrainTargetCoMPosition", "comCostActive", "comCostOverallWeight", "comWeights", "comVelocityCostActive", "comVelocityCostOverallWeight", "comVelocityWeights", "frameCostActive", "frameCostOverallWeight", "frameForOrientationCost", "forceMeanCostActive", "forceMeanCostOverallWeight", "forceRatioCostActive", "forceRatioCostOverallWeight", "desiredLeftRatios", "desiredRightRatios", "jointsRegularizationCostActive", "jointsRegularizationCostOverallWeight", "jointsRegularizationWeights", "jointsVelocityCostActive", "jointsVelocityCostOverallWeight", "jointsVelocityCostWeights", "staticTorquesCostActive", "staticTorquesCostOverallWeight", "staticTorquesCostWeights", "forceDerivativeCostActive", "forceDerivativesCostOverallWeight", "forceDerivativeWeights", "pointAccelerationCostActive", "pointAccelerationCostOverallWeight", "pointAccelerationWeights", "swingCostActive", "swingCostOverallWeight", "desiredSwingHeight", "swingCostWeights", "phantomForcesCostActive", "phantomForcesCostOverallWeight", "meanPointPositionCostActive", "meanPointPositionCostOverallWeight", "leftFootYawCostActive", "leftFootYawCostOverallWeight", "rightFootYawCostActive", "rightFootYawCostOverallWeight", "feetDistanceCostActive", "feetDistanceCostOverallWeight", "jointsVelocityForPosturalCostActive", "jointsVelocityForPosturalCostOverallWeight", "complementarityCostActive", "complementarityCostOverallWeight", "basePositionCostActive", "basePositionCostOverallWeight", "basePositionCostWeights", "baseQuaternionCostActive", "baseQuaternionCostOverallWeight", "frameAngularVelocityCostActive", "frameAngularVelocityCostOverallWeight", "rotationalPIDgain", "baseLinearVelocityCostActive", "baseLinearVelocityCostWeights", "baseLinearVelocityCostOverallWeight", "baseQuaternionVelocityCostActive", "baseQuaternionVelocityCostOverallWeight", "angularMomentumCostActive", "angularMomentumCostOverallWeight", "useConstraintsHessianRegularization", "constraintsHessianRegularization", "useCostsHessianRegularization", "costsHessianRegularization"]

theorem names_nodup : savedNames.Nodup := by decide +kernel

theorem calls_names (t : M → String) (s : SettingsStruct K M T W) : (calls t s).map Prod.fst = savedNames := rfl

theorem setField_new (s : Struct K) (name : String) (v : Value K) (h : name ∉ s.map Prod.fst) : setField s name v = s ++ [(name, v)] := by
  unfold setField
  rw [if_neg]
  simp only [List.any_eq_true, beq_iff_eq, not_exists, not_and]
  intro f hf e
  exact h (List.mem_map.2 ⟨f, hf, e⟩)

theorem fold_new (l acc : Struct K) (h : ((acc ++ l).map Prod.fst).Nodup) : l.foldl (fun acc c => setField acc c.1 c.2) acc = acc ++ l := by
  induction l generalizing acc with
  | nil => simp
  | cons c l ih =>
    have hn : c.1 ∉ acc.map Prod.fst := by
      intro hc
      rw [List.map_append, List.nodup_append] at h
      exact h.2.2 _ hc _ (by simp) rfl
    rw [List.foldl_cons, setField_new _ _ _ hn, ih]
    · simp
    · simpa using h

/-- No call overwrites the field of another one. -/
theorem populate_eq (t : M → String) (s : SettingsStruct K M T W) : populate t s = calls t s := by
  unfold populate
  rw [fold_new]
  · rfl
  · rw [List.nil_append, calls_names]
    exact names_nodup

theorem field_mem (s : Struct K) (h : (s.map Prod.fst).Nodup) (c : String × Value K) (hc : c ∈ s) : field s c.1 = some c.2 := by
  induction s with
  | nil => simp at hc
  | cons a s ih =>
    rw [List.map_cons, List.nodup_cons] at h
    unfold field
    rw [List.find?_cons]
    rcases List.mem_cons.1 hc with rfl | hc
    · simp
    · have : (a.1 == c.1) = false := by
        rw [beq_eq_false_iff_ne]
        intro e
        exact h.1 (e ▸ List.mem_map.2 ⟨c, hc, rfl⟩)
      rw [this]
      exact ih h.2 hc

theorem field_at (t : M → String) (s : SettingsStruct K M T W) (k : ℕ) (name : String) (v : Value K) (h : (calls t s)[k]? = some (name, v)) :
    field (populate t s) name = some v := by
  rw [populate_eq]
  exact field_mem _ (by rw [calls_names]; exact names_nodup) (name, v) (List.mem_of_getElem? h)

theorem text_iff {a b : String} : (some (Value.text a : Value K) = some (.text b)) ↔ a = b := by
  constructor
  · intro h
    injection h with h
    injection h
  · rintro rfl
    rfl

/-- C96: under the name of each saved setting the structure holds the value of that setting. -/
theorem C96_each_setting (modelText : M → String) (s : SettingsStruct K M T W) : Recorded modelText (field (populate modelText s)) s where
  minimumDt := field_at modelText s 0 _ _ rfl
  maximumDt := field_at modelText s 1 _ _ rfl
  controlPeriod := field_at modelText s 2 _ _ rfl
  horizon := field_at modelText s 3 _ _ rfl
  activeControlPercentage := field_at modelText s 4 _ _ rfl
  robotModel := field_at modelText s 5 _ _ rfl
  gravity := field_at modelText s 6 _ _ rfl
  updateTolerance := field_at modelText s 7 _ _ rfl
  floatingBaseName := field_at modelText s 8 _ _ rfl
  leftPointsPosition := field_at modelText s 9 _ _ rfl
  rightPointsPosition := field_at modelText s 10 _ _ rfl
  leftFrameName := field_at modelText s 11 _ _ rfl
  rightFrameName := field_at modelText s 12 _ _ rfl
  complementarity_classical := by
    rw [field_at modelText s 13 _ _ rfl, text_iff]
    cases s.complementarity <;> decide
  complementarity_dynamical := by
    rw [field_at modelText s 13 _ _ rfl, text_iff]
    cases s.complementarity <;> decide
  complementarity_hyperbolicSecantInDynamics := by
    rw [field_at modelText s 13 _ _ rfl, text_iff]
    cases s.complementarity <;> decide
  complementarity_hyperbolicSecantInequality := by
    rw [field_at modelText s 13 _ _ rfl, text_iff]
    cases s.complementarity <;> decide
  forceMaximumDerivative := field_at modelText s 14 _ _ rfl
  normalForceDissipationRatio := field_at modelText s 15 _ _ rfl
  normalForceHyperbolicSecantScaling := field_at modelText s 16 _ _ rfl
  complementarityDissipation := field_at modelText s 17 _ _ rfl
  dynamicComplementarityUpperBound := field_at modelText s 18 _ _ rfl
  classicalComplementarityTolerance := field_at modelText s 19 _ _ rfl
  frictionCoefficient := field_at modelText s 20 _ _ rfl
  planarComplementarity_classical := by
    rw [field_at modelText s 21 _ _ rfl, text_iff]
    cases s.planarComplementarity <;> decide
  planarComplementarity_hyperbolicTangentInDynamics := by
    rw [field_at modelText s 21 _ _ rfl, text_iff]
    cases s.planarComplementarity <;> decide
  planarComplementarity_hyperbolicTangentInequality := by
    rw [field_at modelText s 21 _ _ rfl, text_iff]
    cases s.planarComplementarity <;> decide
  velocityMaximumDerivative := field_at modelText s 22 _ _ rfl
  planarVelocityHyperbolicTangentScaling := field_at modelText s 23 _ _ rfl
  normalVelocityHyperbolicSecantScaling := field_at modelText s 24 _ _ rfl
  classicalPlanarComplementarityTolerance := field_at modelText s 25 _ _ rfl
  indexOfLateralDirection := field_at modelText s 26 _ _ rfl
  minimumFeetDistance := field_at modelText s 27 _ _ rfl
  referenceFrameNameForFeetDistance := field_at modelText s 28 _ _ rfl
  otherFrameNameForFeetDistance := field_at modelText s 29 _ _ rfl
  feetMaximumRelativeHeight := field_at modelText s 30 _ _ rfl
  comPositionConstraintTolerance := field_at modelText s 31 _ _ rfl
  centroidalMomentumConstraintTolerance := field_at modelText s 32 _ _ rfl
  quaternionModulusConstraintTolerance := field_at modelText s 33 _ _ rfl
  pointPositionConstraintTolerance := field_at modelText s 34 _ _ rfl
  minimumCoMHeight := field_at modelText s 35 _ _ rfl
  maximumAngularMomentum := field_at modelText s 36 _ _ rfl
  jointsLimits := field_at modelText s 37 _ _ rfl
  jointsVelocityLimits := field_at modelText s 38 _ _ rfl
  constrainTargetCoMPosition := field_at modelText s 39 _ _ rfl
  comCostActive := field_at modelText s 40 _ _ rfl
  comCostOverallWeight := field_at modelText s 41 _ _ rfl
  comWeights := field_at modelText s 42 _ _ rfl
  comVelocityCostActive := field_at modelText s 43 _ _ rfl
  comVelocityCostOverallWeight := field_at modelText s 44 _ _ rfl
  comVelocityWeights := field_at modelText s 45 _ _ rfl
  frameCostActive := field_at modelText s 46 _ _ rfl
  frameCostOverallWeight := field_at modelText s 47 _ _ rfl
  frameForOrientationCost := field_at modelText s 48 _ _ rfl
  forceMeanCostActive := field_at modelText s 49 _ _ rfl
  forceMeanCostOverallWeight := field_at modelText s 50 _ _ rfl
  forceRatioCostActive := field_at modelText s 51 _ _ rfl
  forceRatioCostOverallWeight := field_at modelText s 52 _ _ rfl
  desiredLeftRatios := field_at modelText s 53 _ _ rfl
  desiredRightRatios := field_at modelText s 54 _ _ rfl
  jointsRegularizationCostActive := field_at modelText s 55 _ _ rfl
  jointsRegularizationCostOverallWeight := field_at modelText s 56 _ _ rfl
  jointsRegularizationWeights := field_at modelText s 57 _ _ rfl
  jointsVelocityCostActive := field_at modelText s 58 _ _ rfl
  jointsVelocityCostOverallWeight := field_at modelText s 59 _ _ rfl
  jointsVelocityCostWeights := field_at modelText s 60 _ _ rfl
  staticTorquesCostActive := field_at modelText s 61 _ _ rfl
  staticTorquesCostOverallWeight := field_at modelText s 62 _ _ rfl
  staticTorquesCostWeights := field_at modelText s 63 _ _ rfl
  forceDerivativeCostActive := field_at modelText s 64 _ _ rfl
  forceDerivativesCostOverallWeight := field_at modelText s 65 _ _ rfl
  forceDerivativeWeights := field_at modelText s 66 _ _ rfl
  pointAccelerationCostActive := field_at modelText s 67 _ _ rfl
  pointAccelerationCostOverallWeight := field_at modelText s 68 _ _ rfl
  pointAccelerationWeights := field_at modelText s 69 _ _ rfl
  swingCostActive := field_at modelText s 70 _ _ rfl
  swingCostOverallWeight := field_at modelText s 71 _ _ rfl
  desiredSwingHeight := field_at modelText s 72 _ _ rfl
  swingCostWeights := field_at modelText s 73 _ _ rfl
  phantomForcesCostActive := field_at modelText s 74 _ _ rfl
  phantomForcesCostOverallWeight := field_at modelText s 75 _ _ rfl
  meanPointPositionCostActive := field_at modelText s 76 _ _ rfl
  meanPointPositionCostOverallWeight := field_at modelText s 77 _ _ rfl
  leftFootYawCostActive := field_at modelText s 78 _ _ rfl
  leftFootYawCostOverallWeight := field_at modelText s 79 _ _ rfl
  rightFootYawCostActive := field_at modelText s 80 _ _ rfl
  rightFootYawCostOverallWeight := field_at modelText s 81 _ _ rfl
  feetDistanceCostActive := field_at modelText s 82 _ _ rfl
  feetDistanceCostOverallWeight := field_at modelText s 83 _ _ rfl
  jointsVelocityForPosturalCostActive := field_at modelText s 84 _ _ rfl
  jointsVelocityForPosturalCostOverallWeight := field_at modelText s 85 _ _ rfl
  complementarityCostActive := field_at modelText s 86 _ _ rfl
  complementarityCostOverallWeight := field_at modelText s 87 _ _ rfl
  basePositionCostActive := field_at modelText s 88 _ _ rfl
  basePositionCostOverallWeight := field_at modelText s 89 _ _ rfl
  basePositionCostWeights := field_at modelText s 90 _ _ rfl
  baseQuaternionCostActive := field_at modelText s 91 _ _ rfl
  baseQuaternionCostOverallWeight := field_at modelText s 92 _ _ rfl
  frameAngularVelocityCostActive := field_at modelText s 93 _ _ rfl
  frameAngularVelocityCostOverallWeight := field_at modelText s 94 _ _ rfl
  rotationalPIDgain := field_at modelText s 95 _ _ rfl
  baseLinearVelocityCostActive := field_at modelText s 96 _ _ rfl
  baseLinearVelocityCostWeights := field_at modelText s 97 _ _ rfl
  baseLinearVelocityCostOverallWeight := field_at modelText s 98 _ _ rfl
  baseQuaternionVelocityCostActive := field_at modelText s 99 _ _ rfl
  baseQuaternionVelocityCostOverallWeight := field_at modelText s 100 _ _ rfl
  angularMomentumCostActive := field_at modelText s 101 _ _ rfl
  angularMomentumCostOverallWeight := field_at modelText s 102 _ _ rfl
  useConstraintsHessianRegularization := field_at modelText s 103 _ _ rfl
  constraintsHessianRegularization := field_at modelText s 104 _ _ rfl
  useCostsHessianRegularization := field_at modelText s 105 _ _ rfl
  costsHessianRegularization := field_at modelText s 106 _ _ rfl

/-- C96: these are all the fields, each of them once, and every name is one that MATLAB accepts. -/
theorem C96_names (modelText : M → String) (s : SettingsStruct K M T W) :
    ((populate modelText s).map Prod.fst).Nodup ∧ (populate modelText s).length = 107 ∧ ∀ c ∈ populate modelText s, MatlabName c.1 := by
  rw [populate_eq]
  refine ⟨by rw [calls_names]; exact names_nodup, rfl, fun c hc => ?_⟩
  have h : c.1 ∈ savedNames := by
    rw [← calls_names modelText s]
    exact List.mem_map.2 ⟨c, hc, rfl⟩
  have all : ∀ n ∈ savedNames, n.toList.length ≤ 63 ∧ (n.toList.head?.any Char.isAlpha) = true ∧ ∀ x ∈ n.toList, x.isAlphanum = true := by decide +kernel
  obtain ⟨h1, h2, h3⟩ := all _ h
  refine ⟨h1, ?_, fun x hx => Or.inl (h3 x hx)⟩
  cases hh : c.1.toList.head? with
  | none => rw [hh] at h2; simp at h2
  | some x =>
    rw [hh] at h2
    exact ⟨x, rfl, by simpa using h2⟩

theorem contactPoint_inj : Function.Injective (contactPoint (K := K)) := by
  rintro ⟨a, b, c⟩ ⟨a', b', c'⟩ h
  simp only [contactPoint, Value.vector.injEq, List.cons.injEq, and_true] at h
  obtain ⟨rfl, rfl, rfl⟩ := h
  rfl

theorem bound_eq (b : K × K) : bound b = .struct [("min", .number b.1), ("max", .number b.2)] := by
  unfold bound
  rw [setField_new [] "min" _ (by simp), setField_new _ "max" _ (by simp)]
  rfl

theorem bound_inj : Function.Injective (bound (K := K)) := by
  rintro ⟨a, b⟩ ⟨a', b'⟩ h
  simp only [bound_eq, Value.struct.injEq, List.cons.injEq, Prod.mk.injEq, Value.number.injEq, and_true, true_and] at h
  obtain ⟨rfl, rfl⟩ := h
  rfl

theorem complementarityName_inj : Function.Injective complementarityName := by
  intro a b h
  revert h
  cases a <;> cases b <;> decide

theorem planarName_inj : Function.Injective planarName := by
  intro a b h
  revert h
  cases a <;> cases b <;> decide

theorem triple_inj {p q : K × K × K} (h : Value.vector [p.1, p.2.1, p.2.2] = .vector [q.1, q.2.1, q.2.2]) : p = q := contactPoint_inj h

/-- C96: two settings give the same structure exactly when they agree on everything that is saved. -/
theorem C96_same_file_iff (modelText : M → String) (s s' : SettingsStruct K M T W) :
    populate modelText s = populate modelText s' ↔ SameRecord modelText s s' := by
  constructor
  · intro h
    rw [populate_eq, populate_eq] at h
    have at_ : ∀ k : ℕ, (calls modelText s)[k]? = (calls modelText s')[k]? := fun k => by rw [h]
    have val : ∀ (k : ℕ) (n : String) (v v' : Value K), (calls modelText s)[k]? = some (n, v) → (calls modelText s')[k]? = some (n, v') → v = v' := by
      intro k n v v' h1 h2
      have := at_ k
      rw [h1, h2] at this
      simpa using this
    constructor
    · exact Value.number.inj (val 0 _ _ _ rfl rfl)
    · exact Value.number.inj (val 1 _ _ _ rfl rfl)
    · exact Value.number.inj (val 2 _ _ _ rfl rfl)
    · exact Value.number.inj (val 3 _ _ _ rfl rfl)
    · exact Value.number.inj (val 4 _ _ _ rfl rfl)
    · exact Value.text.inj (val 5 _ _ _ rfl rfl)
    · exact triple_inj (val 6 _ _ _ rfl rfl)
    · exact Value.number.inj (val 7 _ _ _ rfl rfl)
    · exact Value.text.inj (val 8 _ _ _ rfl rfl)
    · exact contactPoint_inj.list_map (Value.cell.inj (val 9 _ _ _ rfl rfl))
    · exact contactPoint_inj.list_map (Value.cell.inj (val 10 _ _ _ rfl rfl))
    · exact Value.text.inj (val 11 _ _ _ rfl rfl)
    · exact Value.text.inj (val 12 _ _ _ rfl rfl)
    · exact complementarityName_inj (Value.text.inj (val 13 _ _ _ rfl rfl))
    · exact triple_inj (val 14 _ _ _ rfl rfl)
    · exact Value.number.inj (val 15 _ _ _ rfl rfl)
    · exact Value.number.inj (val 16 _ _ _ rfl rfl)
    · exact Value.number.inj (val 17 _ _ _ rfl rfl)
    · exact Value.number.inj (val 18 _ _ _ rfl rfl)
    · exact Value.number.inj (val 19 _ _ _ rfl rfl)
    · exact Value.number.inj (val 20 _ _ _ rfl rfl)
    · exact planarName_inj (Value.text.inj (val 21 _ _ _ rfl rfl))
    · exact triple_inj (val 22 _ _ _ rfl rfl)
    · exact Value.number.inj (val 23 _ _ _ rfl rfl)
    · exact Value.number.inj (val 24 _ _ _ rfl rfl)
    · exact Value.number.inj (val 25 _ _ _ rfl rfl)
    · exact Value.integer.inj (val 26 _ _ _ rfl rfl)
    · exact Value.number.inj (val 27 _ _ _ rfl rfl)
    · exact Value.text.inj (val 28 _ _ _ rfl rfl)
    · exact Value.text.inj (val 29 _ _ _ rfl rfl)
    · exact Value.number.inj (val 30 _ _ _ rfl rfl)
    · exact Value.number.inj (val 31 _ _ _ rfl rfl)
    · exact Value.number.inj (val 32 _ _ _ rfl rfl)
    · exact Value.number.inj (val 33 _ _ _ rfl rfl)
    · exact Value.number.inj (val 34 _ _ _ rfl rfl)
    · exact Value.number.inj (val 35 _ _ _ rfl rfl)
    · exact Value.number.inj (val 36 _ _ _ rfl rfl)
    · exact bound_inj.list_map (Value.cell.inj (val 37 _ _ _ rfl rfl))
    · exact bound_inj.list_map (Value.cell.inj (val 38 _ _ _ rfl rfl))
    · exact Value.logical.inj (val 39 _ _ _ rfl rfl)
    · exact Value.logical.inj (val 40 _ _ _ rfl rfl)
    · exact Value.number.inj (val 41 _ _ _ rfl rfl)
    · exact Value.vector.inj (val 42 _ _ _ rfl rfl)
    · exact Value.logical.inj (val 43 _ _ _ rfl rfl)
    · exact Value.number.inj (val 44 _ _ _ rfl rfl)
    · exact Value.vector.inj (val 45 _ _ _ rfl rfl)
    · exact Value.logical.inj (val 46 _ _ _ rfl rfl)
    · exact Value.number.inj (val 47 _ _ _ rfl rfl)
    · exact Value.text.inj (val 48 _ _ _ rfl rfl)
    · exact Value.logical.inj (val 49 _ _ _ rfl rfl)
    · exact Value.number.inj (val 50 _ _ _ rfl rfl)
    · exact Value.logical.inj (val 51 _ _ _ rfl rfl)
    · exact Value.number.inj (val 52 _ _ _ rfl rfl)
    · exact Value.vector.inj (val 53 _ _ _ rfl rfl)
    · exact Value.vector.inj (val 54 _ _ _ rfl rfl)
    · exact Value.logical.inj (val 55 _ _ _ rfl rfl)
    · exact Value.number.inj (val 56 _ _ _ rfl rfl)
    · exact Value.vector.inj (val 57 _ _ _ rfl rfl)
    · exact Value.logical.inj (val 58 _ _ _ rfl rfl)
    · exact Value.number.inj (val 59 _ _ _ rfl rfl)
    · exact Value.vector.inj (val 60 _ _ _ rfl rfl)
    · exact Value.logical.inj (val 61 _ _ _ rfl rfl)
    · exact Value.number.inj (val 62 _ _ _ rfl rfl)
    · exact Value.vector.inj (val 63 _ _ _ rfl rfl)
    · exact Value.logical.inj (val 64 _ _ _ rfl rfl)
    · exact Value.number.inj (val 65 _ _ _ rfl rfl)
    · exact Value.vector.inj (val 66 _ _ _ rfl rfl)
    · exact Value.logical.inj (val 67 _ _ _ rfl rfl)
    · exact Value.number.inj (val 68 _ _ _ rfl rfl)
    · exact Value.vector.inj (val 69 _ _ _ rfl rfl)
    · exact Value.logical.inj (val 70 _ _ _ rfl rfl)
    · exact Value.number.inj (val 71 _ _ _ rfl rfl)
    · exact Value.number.inj (val 72 _ _ _ rfl rfl)
    · exact triple_inj (val 73 _ _ _ rfl rfl)
    · exact Value.logical.inj (val 74 _ _ _ rfl rfl)
    · exact Value.number.inj (val 75 _ _ _ rfl rfl)
    · exact Value.logical.inj (val 76 _ _ _ rfl rfl)
    · exact Value.number.inj (val 77 _ _ _ rfl rfl)
    · exact Value.logical.inj (val 78 _ _ _ rfl rfl)
    · exact Value.number.inj (val 79 _ _ _ rfl rfl)
    · exact Value.logical.inj (val 80 _ _ _ rfl rfl)
    · exact Value.number.inj (val 81 _ _ _ rfl rfl)
    · exact Value.logical.inj (val 82 _ _ _ rfl rfl)
    · exact Value.number.inj (val 83 _ _ _ rfl rfl)
    · exact Value.logical.inj (val 84 _ _ _ rfl rfl)
    · exact Value.number.inj (val 85 _ _ _ rfl rfl)
    · exact Value.logical.inj (val 86 _ _ _ rfl rfl)
    · exact Value.number.inj (val 87 _ _ _ rfl rfl)
    · exact Value.logical.inj (val 88 _ _ _ rfl rfl)
    · exact Value.number.inj (val 89 _ _ _ rfl rfl)
    · exact Value.vector.inj (val 90 _ _ _ rfl rfl)
    · exact Value.logical.inj (val 91 _ _ _ rfl rfl)
    · exact Value.number.inj (val 92 _ _ _ rfl rfl)
    · exact Value.logical.inj (val 93 _ _ _ rfl rfl)
    · exact Value.number.inj (val 94 _ _ _ rfl rfl)
    · exact Value.number.inj (val 95 _ _ _ rfl rfl)
    · exact Value.logical.inj (val 96 _ _ _ rfl rfl)
    · exact Value.vector.inj (val 97 _ _ _ rfl rfl)
    · exact Value.number.inj (val 98 _ _ _ rfl rfl)
    · exact Value.logical.inj (val 99 _ _ _ rfl rfl)
    · exact Value.number.inj (val 100 _ _ _ rfl rfl)
    · exact Value.logical.inj (val 101 _ _ _ rfl rfl)
    · exact Value.number.inj (val 102 _ _ _ rfl rfl)
    · exact Value.logical.inj (val 103 _ _ _ rfl rfl)
    · exact Value.number.inj (val 104 _ _ _ rfl rfl)
    · exact Value.logical.inj (val 105 _ _ _ rfl rfl)
    · exact Value.number.inj (val 106 _ _ _ rfl rfl)
  · intro h
    rw [populate_eq, populate_eq]
    unfold calls
    rw [h.minimumDt, h.maximumDt, h.controlPeriod, h.horizon, h.activeControlPercentage, h.robotModel, h.gravity, h.updateTolerance, h.floatingBaseName, h.leftPointsPosition, h.rightPointsPosition, h.leftFrameName, h.rightFrameName, h.complementarity, h.forceMaximumDerivative, h.normalForceDissipationRatio, h.normalForceHyperbolicSecantScaling, h.complementarityDissipation, h.dynamicComplementarityUpperBound, h.classicalComplementarityTolerance, h.frictionCoefficient, h.planarComplementarity, h.velocityMaximumDerivative, h.planarVelocityHyperbolicTangentScaling, h.normalVelocityHyperbolicSecantScaling, h.classicalPlanarComplementarityTolerance, h.indexOfLateralDirection, h.minimumFeetDistance, h.referenceFrameNameForFeetDistance, h.otherFrameNameForFeetDistance, h.feetMaximumRelativeHeight, h.comPositionConstraintTolerance, h.centroidalMomentumConstraintTolerance, h.quaternionModulusConstraintTolerance, h.pointPositionConstraintTolerance, h.minimumCoMHeight, h.maximumAngularMomentum, h.jointsLimits, h.jointsVelocityLimits, h.constrainTargetCoMPosition, h.comCostActive, h.comCostOverallWeight, h.comWeights, h.comVelocityCostActive, h.comVelocityCostOverallWeight, h.comVelocityWeights, h.frameCostActive, h.frameCostOverallWeight, h.frameForOrientationCost, h.forceMeanCostActive, h.forceMeanCostOverallWeight, h.forceRatioCostActive, h.forceRatioCostOverallWeight, h.desiredLeftRatios, h.desiredRightRatios, h.jointsRegularizationCostActive, h.jointsRegularizationCostOverallWeight, h.jointsRegularizationWeights, h.jointsVelocityCostActive, h.jointsVelocityCostOverallWeight, h.jointsVelocityCostWeights, h.staticTorquesCostActive, h.staticTorquesCostOverallWeight, h.staticTorquesCostWeights, h.forceDerivativeCostActive, h.forceDerivativesCostOverallWeight, h.forceDerivativeWeights, h.pointAccelerationCostActive, h.pointAccelerationCostOverallWeight, h.pointAccelerationWeights, h.swingCostActive, h.swingCostOverallWeight, h.desiredSwingHeight, h.swingCostWeights, h.phantomForcesCostActive, h.phantomForcesCostOverallWeight, h.meanPointPositionCostActive, h.meanPointPositionCostOverallWeight, h.leftFootYawCostActive, h.leftFootYawCostOverallWeight, h.rightFootYawCostActive, h.rightFootYawCostOverallWeight, h.feetDistanceCostActive, h.feetDistanceCostOverallWeight, h.jointsVelocityForPosturalCostActive, h.jointsVelocityForPosturalCostOverallWeight, h.complementarityCostActive, h.complementarityCostOverallWeight, h.basePositionCostActive, h.basePositionCostOverallWeight, h.basePositionCostWeights, h.baseQuaternionCostActive, h.baseQuaternionCostOverallWeight, h.frameAngularVelocityCostActive, h.frameAngularVelocityCostOverallWeight, h.rotationalPIDgain, h.baseLinearVelocityCostActive, h.baseLinearVelocityCostWeights, h.baseLinearVelocityCostOverallWeight, h.baseQuaternionVelocityCostActive, h.baseQuaternionVelocityCostOverallWeight, h.angularMomentumCostActive, h.angularMomentumCostOverallWeight, h.useConstraintsHessianRegularization, h.constraintsHessianRegularization, h.useCostsHessianRegularization, h.costsHessianRegularization]

/-- C96, finding: none of the references, of the time ranges and of the time varying weights is in the file: all of them can be replaced and the file is the same. -/
theorem C96_unsaved (modelText : M → String) (s s' : SettingsStruct K M T W) : populate modelText { s with
      targetCoMPositionTolerance := s'.targetCoMPositionTolerance
      constrainTargetCoMPositionRange := s'.constrainTargetCoMPositionRange
      comCostActiveRange := s'.comCostActiveRange
      desiredCoMTrajectory := s'.desiredCoMTrajectory
      comVelocityCostActiveRange := s'.comVelocityCostActiveRange
      desiredCoMVelocityTrajectory := s'.desiredCoMVelocityTrajectory
      desiredRotationTrajectory := s'.desiredRotationTrajectory
      frameCostTimeVaryingWeight := s'.frameCostTimeVaryingWeight
      desiredJointsTrajectory := s'.desiredJointsTrajectory
      desiredJointsVelocityTrajectory := s'.desiredJointsVelocityTrajectory
      desiredForceDerivativeTrajectory := s'.desiredForceDerivativeTrajectory
      desiredPointAccelerationTrajectory := s'.desiredPointAccelerationTrajectory
      meanPointPositionCostTimeVaryingWeight := s'.meanPointPositionCostTimeVaryingWeight
      meanPointPositionCostActiveRange := s'.meanPointPositionCostActiveRange
      desiredMeanPointPosition := s'.desiredMeanPointPosition
      desiredLeftFootYaw := s'.desiredLeftFootYaw
      desiredRightFootYaw := s'.desiredRightFootYaw
      basePositionCostActiveRange := s'.basePositionCostActiveRange
      desiredBasePositionTrajectory := s'.desiredBasePositionTrajectory
      desiredBaseQuaternionTrajectory := s'.desiredBaseQuaternionTrajectory
      desiredBaseLinearVelocityTrajectory := s'.desiredBaseLinearVelocityTrajectory
      desiredBaseQuaternionVelocityTrajectory := s'.desiredBaseQuaternionVelocityTrajectory } = populate modelText s := rfl

/-- C96, finding: what the full statement asks for (the file tells the settings apart) is false, even with models that their text tells apart. -/
theorem C96_not_recoverable [Nonempty (SettingsStruct K M T W)] [Nontrivial T] (modelText : M → String) :
    ∃ s s' : SettingsStruct K M T W, s ≠ s' ∧ s.desiredCoMTrajectory ≠ s'.desiredCoMTrajectory ∧ populate modelText s = populate modelText s' := by
  obtain ⟨s⟩ := ‹Nonempty (SettingsStruct K M T W)›
  obtain ⟨x, hx⟩ := exists_ne s.desiredCoMTrajectory
  refine ⟨s, { s with desiredCoMTrajectory := x }, fun h => hx ?_, hx.symm, rfl⟩
  rw [h]

theorem settings_ne_point (foot : Logger.Spec.Foot) (rest : String) : "settings" ≠ foot.name ++ rest := by
  intro h
  have h' := congrArg (fun t : String => t.toList.head?) h
  cases foot <;> simp [Logger.Spec.Foot.name] at h'

theorem settings_ne_state (q : Logger.Spec.StateQ) : "settings" ≠ q.name := by
  cases q with
  | force foot point => exact fun h => settings_ne_point foot ("Point" ++ toString point ++ "Force") (h.trans (by simp [Logger.Spec.StateQ.name, String.append_assoc]))
  | position foot point => exact fun h => settings_ne_point foot ("Point" ++ toString point ++ "Position") (h.trans (by simp [Logger.Spec.StateQ.name, String.append_assoc]))
  | _ => exact by decide

theorem settings_ne_control (q : Logger.Spec.ControlQ) : "settings" ≠ q.name := by
  cases q with
  | force foot point => exact fun h => settings_ne_point foot ("Point" ++ toString point ++ "ForceControl") (h.trans (by simp [Logger.Spec.ControlQ.name, String.append_assoc]))
  | velocity foot point => exact fun h => settings_ne_point foot ("Point" ++ toString point ++ "VelocityControl") (h.trans (by simp [Logger.Spec.ControlQ.name, String.append_assoc]))
  | _ => exact by decide

/-- C96: the settings are saved whenever the solution is, they are what is read under the name "settings", and they hide none of the variables of the solution. -/
theorem C96_file (junk : String → Nat → Nat → K) (asQuat : Verif.M3 K → StateM.V4 K) (modelText : M → String) (s : SettingsStruct K M T W)
    (states : List (StateM.State K)) (controls : List (StateM.Control K)) (times costs : List K) :
    (savedFile junk asQuat modelText s states controls times costs = none ↔ Logger.saveSolutionVectors junk asQuat states controls times costs = none) ∧
    ∀ file, savedFile junk asQuat modelText s states controls times costs = some file →
      ∃ logged, Logger.saveSolutionVectors junk asQuat states controls times costs = some logged ∧
        (∀ name a, logged name = some a → file name = some (.array a)) ∧
        (∃ fields, file "settings" = some (.struct fields) ∧ Recorded modelText (field fields) s) ∧
        ∀ name, name ≠ "settings" → logged name = none → file name = none := by
  unfold savedFile
  cases hl : Logger.saveSolutionVectors junk asQuat states controls times costs with
  | none => simp
  | some logged =>
    refine ⟨by simp, fun file hf => ⟨logged, rfl, fun name a ha => ?_, ?_, fun name hn h0 => ?_⟩⟩ <;>
      (simp only [Option.pure_def, Option.bind_eq_bind, Option.bind_some, Option.some.injEq] at hf; subst hf)
    · have hne : name ≠ "settings" := by
        have := Logger.C74_nothing_else junk asQuat states controls times costs hl name (by rw [ha]; simp)
        rintro rfl
        rcases this with ⟨_, _, q, _, h⟩ | ⟨_, _, q, _, h⟩ | ⟨_, h⟩ | ⟨_, h⟩
        · exact settings_ne_state q h
        · exact settings_ne_control q h
        · exact absurd h (by decide)
        · exact absurd h (by decide)
      rw [Function.update_of_ne hne, ha]
      rfl
    · exact ⟨populate modelText s, Function.update_self .., C96_each_setting modelText s⟩
    · rw [Function.update_of_ne hn, h0]
      rfl

/-! ### The hypotheses are met -/

/-- Settings in which every value is told apart. -/
def sample : SettingsStruct Int (String × Int) String (Int × Int) where
  minimumDt := 1
  maximumDt := 2
  controlPeriod := 3
  horizon := 4
  activeControlPercentage := 5
  robotModel := ("biped", 5)
  gravity := (0, 7, -9)
  updateTolerance := 8
  floatingBaseName := "frame9"
  leftPointsPosition := [(1, 10, 0), (-1, 10, 0)]
  rightPointsPosition := [(1, 11, 0), (-1, 11, 0)]
  leftFrameName := "frame12"
  rightFrameName := "frame13"
  complementarity := .dynamical
  forceMaximumDerivative := (0, 15, -9)
  normalForceDissipationRatio := 16
  normalForceHyperbolicSecantScaling := 17
  complementarityDissipation := 18
  dynamicComplementarityUpperBound := 19
  classicalComplementarityTolerance := 20
  frictionCoefficient := 21
  planarComplementarity := .hyperbolicTangentInequality
  velocityMaximumDerivative := (0, 23, -9)
  planarVelocityHyperbolicTangentScaling := 24
  normalVelocityHyperbolicSecantScaling := 25
  classicalPlanarComplementarityTolerance := 26
  indexOfLateralDirection := 1
  minimumFeetDistance := 28
  referenceFrameNameForFeetDistance := "frame29"
  otherFrameNameForFeetDistance := "frame30"
  feetMaximumRelativeHeight := 31
  comPositionConstraintTolerance := 32
  centroidalMomentumConstraintTolerance := 33
  quaternionModulusConstraintTolerance := 34
  pointPositionConstraintTolerance := 35
  minimumCoMHeight := 36
  jointsLimits := [(-37, 37), (0, 1)]
  jointsVelocityLimits := [(-38, 38), (0, 1)]
  constrainTargetCoMPosition := true
  targetCoMPositionTolerance := "targetCoMPositionTolerance"
  constrainTargetCoMPositionRange := (0, 41)
  maximumAngularMomentum := 42
  comCostActive := true
  comCostOverallWeight := 44
  comCostActiveRange := (0, 45)
  comWeights := [46, 2]
  desiredCoMTrajectory := "desiredCoMTrajectory"
  comVelocityCostActive := false
  comVelocityCostOverallWeight := 49
  comVelocityWeights := [50, 2]
  comVelocityCostActiveRange := (0, 51)
  desiredCoMVelocityTrajectory := "desiredCoMVelocityTrajectory"
  frameCostActive := true
  frameCostOverallWeight := 54
  frameForOrientationCost := "frame55"
  desiredRotationTrajectory := "desiredRotationTrajectory"
  frameCostTimeVaryingWeight := "frameCostTimeVaryingWeight"
  forceMeanCostActive := false
  forceMeanCostOverallWeight := 59
  forceRatioCostActive := false
  forceRatioCostOverallWeight := 61
  desiredLeftRatios := [62]
  desiredRightRatios := [63]
  jointsRegularizationCostActive := false
  jointsRegularizationCostOverallWeight := 65
  desiredJointsTrajectory := "desiredJointsTrajectory"
  jointsRegularizationWeights := [67, 2]
  jointsVelocityCostActive := false
  jointsVelocityCostOverallWeight := 69
  desiredJointsVelocityTrajectory := "desiredJointsVelocityTrajectory"
  jointsVelocityCostWeights := [71, 2]
  staticTorquesCostActive := false
  staticTorquesCostOverallWeight := 73
  staticTorquesCostWeights := [74, 2]
  forceDerivativeCostActive := true
  forceDerivativesCostOverallWeight := 76
  desiredForceDerivativeTrajectory := "desiredForceDerivativeTrajectory"
  forceDerivativeWeights := [78, 2]
  pointAccelerationCostActive := true
  pointAccelerationCostOverallWeight := 80
  desiredPointAccelerationTrajectory := "desiredPointAccelerationTrajectory"
  pointAccelerationWeights := [82, 2]
  swingCostActive := true
  swingCostOverallWeight := 84
  desiredSwingHeight := 85
  swingCostWeights := (0, 86, -9)
  phantomForcesCostActive := true
  phantomForcesCostOverallWeight := 88
  meanPointPositionCostActive := true
  meanPointPositionCostOverallWeight := 90
  meanPointPositionCostTimeVaryingWeight := "meanPointPositionCostTimeVaryingWeight"
  meanPointPositionCostActiveRange := (0, 92)
  desiredMeanPointPosition := "desiredMeanPointPosition"
  leftFootYawCostActive := false
  leftFootYawCostOverallWeight := 95
  desiredLeftFootYaw := "desiredLeftFootYaw"
  rightFootYawCostActive := true
  rightFootYawCostOverallWeight := 98
  desiredRightFootYaw := "desiredRightFootYaw"
  feetDistanceCostActive := false
  feetDistanceCostOverallWeight := 101
  jointsVelocityForPosturalCostActive := false
  jointsVelocityForPosturalCostOverallWeight := 103
  complementarityCostActive := false
  complementarityCostOverallWeight := 105
  basePositionCostActive := false
  basePositionCostOverallWeight := 107
  basePositionCostActiveRange := (0, 108)
  basePositionCostWeights := [109, 2]
  desiredBasePositionTrajectory := "desiredBasePositionTrajectory"
  baseQuaternionCostActive := true
  baseQuaternionCostOverallWeight := 112
  desiredBaseQuaternionTrajectory := "desiredBaseQuaternionTrajectory"
  frameAngularVelocityCostActive := false
  frameAngularVelocityCostOverallWeight := 115
  rotationalPIDgain := 116
  baseLinearVelocityCostActive := true
  baseLinearVelocityCostOverallWeight := 118
  baseLinearVelocityCostWeights := [119, 2]
  desiredBaseLinearVelocityTrajectory := "desiredBaseLinearVelocityTrajectory"
  baseQuaternionVelocityCostActive := true
  baseQuaternionVelocityCostOverallWeight := 122
  desiredBaseQuaternionVelocityTrajectory := "desiredBaseQuaternionVelocityTrajectory"
  angularMomentumCostActive := false
  angularMomentumCostOverallWeight := 125
  useConstraintsHessianRegularization := false
  constraintsHessianRegularization := 127
  useCostsHessianRegularization := false
  costsHessianRegularization := 129

/-- The same with rational numbers. -/
def sampleRat : SettingsStruct Rat String String (Int × Int) where
  minimumDt := 1
  maximumDt := 2
  controlPeriod := 3
  horizon := 4
  activeControlPercentage := 5
  robotModel := "biped"
  gravity := (0, 7, -9)
  updateTolerance := 8
  floatingBaseName := "frame9"
  leftPointsPosition := [(1, 10, 0), (-1, 10, 0)]
  rightPointsPosition := [(1, 11, 0), (-1, 11, 0)]
  leftFrameName := "frame12"
  rightFrameName := "frame13"
  complementarity := .dynamical
  forceMaximumDerivative := (0, 15, -9)
  normalForceDissipationRatio := 16
  normalForceHyperbolicSecantScaling := 17
  complementarityDissipation := 18
  dynamicComplementarityUpperBound := 19
  classicalComplementarityTolerance := 20
  frictionCoefficient := 21
  planarComplementarity := .hyperbolicTangentInequality
  velocityMaximumDerivative := (0, 23, -9)
  planarVelocityHyperbolicTangentScaling := 24
  normalVelocityHyperbolicSecantScaling := 25
  classicalPlanarComplementarityTolerance := 26
  indexOfLateralDirection := 1
  minimumFeetDistance := 28
  referenceFrameNameForFeetDistance := "frame29"
  otherFrameNameForFeetDistance := "frame30"
  feetMaximumRelativeHeight := 31
  comPositionConstraintTolerance := 32
  centroidalMomentumConstraintTolerance := 33
  quaternionModulusConstraintTolerance := 34
  pointPositionConstraintTolerance := 35
  minimumCoMHeight := 36
  jointsLimits := [(-37, 37), (0, 1)]
  jointsVelocityLimits := [(-38, 38), (0, 1)]
  constrainTargetCoMPosition := true
  targetCoMPositionTolerance := "targetCoMPositionTolerance"
  constrainTargetCoMPositionRange := (0, 41)
  maximumAngularMomentum := 42
  comCostActive := true
  comCostOverallWeight := 44
  comCostActiveRange := (0, 45)
  comWeights := [46, 2]
  desiredCoMTrajectory := "desiredCoMTrajectory"
  comVelocityCostActive := false
  comVelocityCostOverallWeight := 49
  comVelocityWeights := [50, 2]
  comVelocityCostActiveRange := (0, 51)
  desiredCoMVelocityTrajectory := "desiredCoMVelocityTrajectory"
  frameCostActive := true
  frameCostOverallWeight := 54
  frameForOrientationCost := "frame55"
  desiredRotationTrajectory := "desiredRotationTrajectory"
  frameCostTimeVaryingWeight := "frameCostTimeVaryingWeight"
  forceMeanCostActive := false
  forceMeanCostOverallWeight := 59
  forceRatioCostActive := false
  forceRatioCostOverallWeight := 61
  desiredLeftRatios := [62]
  desiredRightRatios := [63]
  jointsRegularizationCostActive := false
  jointsRegularizationCostOverallWeight := 65
  desiredJointsTrajectory := "desiredJointsTrajectory"
  jointsRegularizationWeights := [67, 2]
  jointsVelocityCostActive := false
  jointsVelocityCostOverallWeight := 69
  desiredJointsVelocityTrajectory := "desiredJointsVelocityTrajectory"
  jointsVelocityCostWeights := [71, 2]
  staticTorquesCostActive := false
  staticTorquesCostOverallWeight := 73
  staticTorquesCostWeights := [74, 2]
  forceDerivativeCostActive := true
  forceDerivativesCostOverallWeight := 76
  desiredForceDerivativeTrajectory := "desiredForceDerivativeTrajectory"
  forceDerivativeWeights := [78, 2]
  pointAccelerationCostActive := true
  pointAccelerationCostOverallWeight := 80
  desiredPointAccelerationTrajectory := "desiredPointAccelerationTrajectory"
  pointAccelerationWeights := [82, 2]
  swingCostActive := true
  swingCostOverallWeight := 84
  desiredSwingHeight := 85
  swingCostWeights := (0, 86, -9)
  phantomForcesCostActive := true
  phantomForcesCostOverallWeight := 88
  meanPointPositionCostActive := true
  meanPointPositionCostOverallWeight := 90
  meanPointPositionCostTimeVaryingWeight := "meanPointPositionCostTimeVaryingWeight"
  meanPointPositionCostActiveRange := (0, 92)
  desiredMeanPointPosition := "desiredMeanPointPosition"
  leftFootYawCostActive := false
  leftFootYawCostOverallWeight := 95
  desiredLeftFootYaw := "desiredLeftFootYaw"
  rightFootYawCostActive := true
  rightFootYawCostOverallWeight := 98
  desiredRightFootYaw := "desiredRightFootYaw"
  feetDistanceCostActive := false
  feetDistanceCostOverallWeight := 101
  jointsVelocityForPosturalCostActive := false
  jointsVelocityForPosturalCostOverallWeight := 103
  complementarityCostActive := false
  complementarityCostOverallWeight := 105
  basePositionCostActive := false
  basePositionCostOverallWeight := 107
  basePositionCostActiveRange := (0, 108)
  basePositionCostWeights := [109, 2]
  desiredBasePositionTrajectory := "desiredBasePositionTrajectory"
  baseQuaternionCostActive := true
  baseQuaternionCostOverallWeight := 112
  desiredBaseQuaternionTrajectory := "desiredBaseQuaternionTrajectory"
  frameAngularVelocityCostActive := false
  frameAngularVelocityCostOverallWeight := 115
  rotationalPIDgain := 116
  baseLinearVelocityCostActive := true
  baseLinearVelocityCostOverallWeight := 118
  baseLinearVelocityCostWeights := [119, 2]
  desiredBaseLinearVelocityTrajectory := "desiredBaseLinearVelocityTrajectory"
  baseQuaternionVelocityCostActive := true
  baseQuaternionVelocityCostOverallWeight := 122
  desiredBaseQuaternionVelocityTrajectory := "desiredBaseQuaternionVelocityTrajectory"
  angularMomentumCostActive := false
  angularMomentumCostOverallWeight := 125
  useConstraintsHessianRegularization := false
  constraintsHessianRegularization := 127
  useCostsHessianRegularization := false
  costsHessianRegularization := 129

example : Nonempty (SettingsStruct Int (String × Int) String (Int × Int)) := ⟨sample⟩

/-- The file of the solution used for C74 exists also with the settings. -/
example : ∃ file, savedFile (fun _ _ _ => (0 : Rat)) (fun _ => ⟨1, 0, 0, 0⟩) (fun t : String => t) (sampleRat) Logger.sampleStates Logger.sampleControls [1, 2] [3] = some file := by
  obtain ⟨m, hm⟩ := (Logger.C74_saves_iff (fun _ _ _ => (0 : Rat)) (fun _ => ⟨1, 0, 0, 0⟩) Logger.sampleStates Logger.sampleControls [1, 2] [3]).2 Logger.sample_uniform
  exact ⟨_, by unfold savedFile; rw [hm]; rfl⟩

/-- Reading a field of a structure made by the code. -/
example : field (populate (fun m : String × Int => m.1) sample) "robotModel" = some (.text "biped") := (C96_each_setting (fun m : String × Int => m.1) sample).robotModel

example : ¬ SameRecord (fun m : String × Int => m.1) sample { sample with horizon := 100 } := fun h => absurd h.horizon (by decide)

end Verif.LoggedSettings
