import Verif.Spec.Settings
import Verif.Tac
/- Lemmas about the settings checks. -/
set_option linter.unusedSectionVars false
namespace Verif.Settings
open Spec
variable {K R : Type} [Field K] [LinearOrder K]

theorem checkError_zero (b : Bool) : checkError b = 0 ↔ b = false := by cases b <;> simp [checkError]

theorem jointErrors_isSome (ls vs : List (K × K)) : (jointErrors ls vs).isSome = true ↔ ls.length ≤ vs.length := by
  induction ls generalizing vs with
  | nil => simp [jointErrors]
  | cons l ls ih =>
    cases vs with
    | nil => simp [jointErrors]
    | cons v vs =>
      have := ih vs
      simp only [jointErrors]
      cases h : jointErrors ls vs with
      | none => simp [h] at this; simp; omega
      | some n => simp [h] at this; simp; omega

theorem jointErrors_zero (ls vs : List (K × K)) (hlen : ls.length = vs.length) :
    jointErrors ls vs = some 0 ↔ (∀ l ∈ ls, l.1 ≤ l.2) ∧ (∀ v ∈ vs, v.1 ≤ v.2) := by
  induction ls generalizing vs with
  | nil => cases vs with
    | nil => simp [jointErrors]
    | cons => simp at hlen
  | cons l ls ih =>
    cases vs with
    | nil => simp at hlen
    | cons v vs =>
      have h1 := ih vs (by simpa using hlen)
      simp only [jointErrors]
      cases h : jointErrors ls vs with
      | none =>
        have : (jointErrors ls vs).isSome = true := (jointErrors_isSome ls vs).2 (by simp at hlen; omega)
        simp [h] at this
      | some n =>
        rw [h] at h1
        simp only [Option.some.injEq] at h1 ⊢
        constructor
        · intro hs
          have ha : checkError (decide (l.1 > l.2)) = 0 := by omega
          have hb : checkError (decide (v.1 > v.2)) = 0 := by omega
          have hn : n = 0 := by omega
          rw [checkError_zero, decide_eq_false_iff_not, not_lt] at ha hb
          obtain ⟨h2, h3⟩ := h1.1 hn
          simp only [List.mem_cons, forall_eq_or_imp]
          exact ⟨⟨ha, h2⟩, hb, h3⟩
        · simp only [List.mem_cons, forall_eq_or_imp]
          rintro ⟨⟨ha, h2⟩, hb, h3⟩
          rw [h1.2 ⟨h2, h3⟩]
          simp [checkError, ha, hb]

theorem ratioErrors_zero (rs : List K) : ratioErrors rs = 0 ↔ ∀ r ∈ rs, 0 ≤ r ∧ r ≤ 1 := by
  induction rs with
  | nil => simp [ratioErrors]
  | cons r rs ih =>
    have : ratioErrors (r :: rs) = checkError (decide (r < 0) || decide (r > 1)) + ratioErrors rs := by
      simp [ratioErrors]
    rw [this, Nat.add_eq_zero_iff, ih, checkError_zero]
    simp

theorem min3_neg (a b c : K) : min a (min b c) < 0 ↔ ¬ (0 ≤ a ∧ 0 ≤ b ∧ 0 ≤ c) := by
  rw [← not_le, le_min_iff, le_min_iff]

theorem guarded_zero (p : Prop) [Decidable p] (n : Nat) : (if p then n else 0) = 0 ↔ (p → n = 0) := by
  by_cases h : p <;> simp [h]

theorem before_zero (i : SettingsStruct K R) : errorsBeforeJoints i = 0 ↔
    TimingsOk i ∧ ModelOk i ∧
    (0 ≤ i.complementarityDissipation ∧ 0 ≤ i.frictionCoefficient ∧ 0 ≤ i.minimumFeetDistance ∧
      0 ≤ i.comPositionConstraintTolerance ∧ 0 ≤ i.centroidalMomentumConstraintTolerance ∧
      0 ≤ i.quaternionModulusConstraintTolerance ∧ 0 ≤ i.pointPositionConstraintTolerance ∧
      0 ≤ i.minimumCoMHeight) ∧
    (i.jointsLimits.length = i.robotModel.nrOfDOFs ∧ i.jointsVelocityLimits.length = i.robotModel.nrOfDOFs) := by
  simp only [errorsBeforeJoints, Nat.add_eq_zero_iff, checkError_zero, TimingsOk, ModelOk, decide_eq_false_iff_not,
    not_lt, not_le, Bool.or_eq_false_iff, Bool.not_eq_false', gt_iff_lt, ne_eq, not_not]
  tauto

theorem costs_zero (i : SettingsStruct K R) : errorsCosts1 i + errorsCosts2 i = 0 ↔
    CostsOk i ∧ (0 ≤ i.maximumAngularMomentum ∧ 0 ≤ i.feetMaximumRelativeHeight ∧
      0 ≤ i.velocityMaximumDerivative.1 ∧ 0 ≤ i.velocityMaximumDerivative.2.1 ∧
      0 ≤ i.velocityMaximumDerivative.2.2) ∧
    ((i.complementarity = .dynamical → 0 ≤ i.complementarityDissipation) ∧ ComplementarityOk i) := by
  have hpl : (i.planarComplementarity = .hyperbolicTangentInDynamics
        ∨ i.planarComplementarity = .hyperbolicTangentInequality) ↔ i.planarComplementarity ≠ .classical := by
    cases i.planarComplementarity <;> simp
  simp only [errorsCosts1, errorsCosts2, Nat.add_eq_zero_iff, checkError_zero, CostsOk, ComplementarityOk,
    decide_eq_false_iff_not, guarded_zero, hpl, min3_neg, ratioErrors_zero,
    not_lt, Bool.not_eq_false', ne_eq, not_not]
  constructor
  · rintro ⟨⟨⟨⟨⟨⟨⟨⟨⟨⟨a1, a2⟩, a3⟩, a4⟩, a5⟩, a6⟩, a7⟩, a8⟩, a9⟩, a10⟩,
      ⟨⟨⟨⟨⟨⟨⟨⟨⟨⟨⟨b1, b2⟩, b3⟩, b4⟩, b5⟩, b6⟩, b7⟩, b8⟩, b9⟩, b10⟩, b11⟩, b12⟩⟩
    refine ⟨⟨a3, ?_, a5, ?_, a7, a8, a9, a10, b1, ?_, ?_, b4, b5, b6, ?_⟩, ⟨a1, a2, b11⟩, ?_, ?_, b9, b10, b12⟩
    · exact fun h => ⟨(a4 h).1.1, (a4 h).1.2, (a4 h).2⟩
    · exact fun h => ⟨(a6 h).1.1, (a6 h).1.2, (a6 h).2⟩
    · exact fun h => ⟨(b2 h).1.1, (b2 h).1.2, (b2 h).2⟩
    · exact fun h => ⟨(b3 h).1.1, (b3 h).1.2, (b3 h).2⟩
    · intro h; obtain ⟨⟨⟨h1, h2⟩, h3⟩, h4⟩ := b7 h; exact ⟨h1.symm, h3.symm, h2, h4⟩
    · intro h; exact (b8 h).1
    · intro h; exact (b8 h).2
  · rintro ⟨⟨a3, a4, a5, a6, a7, a8, a9, a10, b1, b2, b3, b4, b5, b6, b7⟩, ⟨a1, a2, b11⟩, c1, c2, b9, b10, b12⟩
    refine ⟨⟨⟨⟨⟨⟨⟨⟨⟨⟨a1, a2⟩, a3⟩, ?_⟩, a5⟩, ?_⟩, a7⟩, a8⟩, a9⟩, a10⟩,
      ⟨⟨⟨⟨⟨⟨⟨⟨⟨⟨⟨b1, ?_⟩, ?_⟩, b4⟩, b5⟩, b6⟩, ?_⟩, ?_⟩, b9⟩, b10⟩, b11⟩, b12⟩⟩
    · exact fun h => ⟨⟨(a4 h).1, (a4 h).2.1⟩, (a4 h).2.2⟩
    · exact fun h => ⟨⟨(a6 h).1, (a6 h).2.1⟩, (a6 h).2.2⟩
    · exact fun h => ⟨⟨(b2 h).1, (b2 h).2.1⟩, (b2 h).2.2⟩
    · exact fun h => ⟨⟨(b3 h).1, (b3 h).2.1⟩, (b3 h).2.2⟩
    · intro h; obtain ⟨h1, h3, h2, h4⟩ := b7 h; exact ⟨⟨⟨h1.symm, h2⟩, h3.symm⟩, h4⟩
    · intro h; exact ⟨c1 h, c2 h⟩

theorem errors_zero (i : SettingsStruct K R) : errors i = some 0 ↔ Acceptable i := by
  unfold errors
  cases h : jointErrors i.jointsLimits i.jointsVelocityLimits with
  | none =>
    simp only [reduceCtorEq, false_iff]
    intro ha
    have : (jointErrors i.jointsLimits i.jointsVelocityLimits).isSome = true :=
      (jointErrors_isSome _ _).2 (by have := ha.joints.1; have := ha.joints.2.1; omega)
    simp [h] at this
  | some n =>
    simp only [Option.some.injEq]
    constructor
    · intro hs
      obtain ⟨h1, h2, h3, h4⟩ := (before_zero i).1 (by omega)
      obtain ⟨c1, c2, c3, c4⟩ := (costs_zero i).1 (by omega)
      have hn : n = 0 := by omega
      subst hn
      have hj := (jointErrors_zero _ _ (by omega)).1 h
      refine ⟨h1, h2, ?_, ⟨h4.1, h4.2, hj.1, hj.2⟩, c1, c4⟩
      unfold TolerancesOk; tauto
    · intro ha
      obtain ⟨t1, t2, t3, t4, t5, t6, t7, t8, t9⟩ := ha.tolerances
      obtain ⟨j1, j2, j3, j4⟩ := ha.joints
      have hb := (before_zero i).2 ⟨ha.timings, ha.model, ⟨t1, t2, t3, t4, t5, t6, t7, t8⟩, j1, j2⟩
      have hc := (costs_zero i).2 ⟨ha.costs, t9, fun _ => t1, ha.complementarity⟩
      have hj := (jointErrors_zero _ _ (by omega)).2 ⟨j3, j4⟩
      rw [h, Option.some.injEq] at hj
      omega

theorem errors_none (i : SettingsStruct K R) :
    errors i = none ↔ i.jointsVelocityLimits.length < i.jointsLimits.length := by
  unfold errors
  have := jointErrors_isSome i.jointsLimits i.jointsVelocityLimits
  cases h : jointErrors i.jointsLimits i.jointsVelocityLimits with
  | none => simp [h] at this; simp; omega
  | some n => simp [h] at this; simp; omega

end Verif.Settings
