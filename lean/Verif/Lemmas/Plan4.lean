import Verif.Lemmas.Plan3
import Verif.Props.QuaternionUtils
/- The motion of the links of the robot along a trajectory that follows the dynamics with a unit quaternion. -/
set_option linter.unusedSectionVars false
set_option linter.unusedSimpArgs false
namespace Verif.Plan
open NLP NLP.Kin SolverM StateM Rigid Matrix Filter Topology
open SolverM.Spec (stateVector controlVector StateSize ControlSize)
open Verif.Quaternion.Spec
open Verif.Quaternion (rotationFromQuaternion normalized leftTrivializedDerivativeInverse)
noncomputable section
variable {n nj : ℕ} {L F : Type} [DecidableEq L] [DecidableEq F] {m : Model L (Fin nj)} (R : Objects m F)
variable {P : Dynamics.Params} {s : ℝ → State ℝ} {q : ℝ → V4 ℝ} {c : ℝ → Control ℝ} {t : ℝ}

theorem unit_iff (a : V4 ℝ) : UnitQ (Spec.quat a) ↔ a.w ^ 2 + a.x ^ 2 + a.y ^ 2 + a.z ^ 2 = 1 := Iff.rfl

theorem unit_ne {a : Fin 4 → ℝ} (h : UnitQ a) : a ≠ 0 := by
  rintro rfl
  unfold UnitQ at h
  simp at h

theorem normalized_unit {a : Fin 4 → ℝ} (h : UnitQ a) : normalized Real.sqrt a = a := (Quaternion.C33_normalised_is_unit a (unit_ne h)).2 h

section
variable (hs : ∀ᶠ τ in 𝓝 t, StateSize nj n (s τ)) (hc : ControlSize nj n (c t)) (hP : P.joints = nj)
  (hf : Follows (n := n) nj P (rangesAt nj n) s q c t) (hu : ∀ᶠ τ in 𝓝 t, UnitQ (Spec.quat (q τ)))
include hs hc hf hu

theorem tangent_pose : HasTangent (fun τ => Spec.pose (s τ) (q τ)) (Spec.twist (q t) (c t)) t := by
  have hq := rate_quat hs hc hf
  have h1 := hu.self_of_nhds
  have htan : Tangent (Spec.quat (q t)) (Spec.quat (c t).baseQuaternionDerivative) := by
    have e : HasDerivAt (fun τ => Spec.quat (q τ) 0 * Spec.quat (q τ) 0 + Spec.quat (q τ) 1 * Spec.quat (q τ) 1 + Spec.quat (q τ) 2 * Spec.quat (q τ) 2 +
        Spec.quat (q τ) 3 * Spec.quat (q τ) 3) _ t :=
      ((((hq 0).mul (hq 0)).add ((hq 1).mul (hq 1))).add ((hq 2).mul (hq 2))).add ((hq 3).mul (hq 3))
    have e2 := e.congr_of_eventuallyEq (f₁ := fun _ => (1 : ℝ)) (by
      filter_upwards [hu] with τ hτ
      unfold UnitQ at hτ
      rw [← hτ]; ring)
    have := e2.unique (hasDerivAt_const t 1)
    unfold Tangent
    linarith
  rw [hasTangent_iff]
  constructor
  · intro i k
    have h := Quaternion.C33_body_angular_velocity_at (fun τ => Spec.quat (q τ)) _ t h1 htan hq i k
    have e : (fun τ => (Spec.pose (s τ) (q τ)).R i k) =ᶠ[𝓝 t] fun τ => rotationFromQuaternion (Spec.quat (q τ)) i k := by
      filter_upwards [hu] with τ hτ
      show rotationFromQuaternion (normalized Real.sqrt (Spec.quat (q τ))) i k = _
      rw [normalized_unit hτ]
    refine (h.congr_of_eventuallyEq e).congr_deriv ?_
    have e1 : (Spec.pose (s t) (q t)).R = rotationFromQuaternion (Spec.quat (q t)) := by
      show rotationFromQuaternion (normalized Real.sqrt (Spec.quat (q t))) = _
      rw [normalized_unit h1]
    have e2 : (Spec.twist (q t) (c t)).2 = leftTrivializedDerivativeInverse (Spec.quat (q t)) *ᵥ Spec.quat (c t).baseQuaternionDerivative := by
      show leftTrivializedDerivativeInverse (normalized Real.sqrt (Spec.quat (q t))) *ᵥ _ = _
      rw [normalized_unit h1]
    rw [e1, e2]; rfl
  · exact rate_base hs hc hf

include hP

theorem tangent_link (hm : m.Regular) (l : L) : HasTangent (fun τ => R.server.kin.world (Spec.pose (s τ) (q τ)) (Spec.joints (s τ)) l)
    (R.server.kin.vel (Spec.twist (q t) (c t)) (Spec.joints (s t)) (Spec.jointVelocities (c t)) l) t :=
  R.server.kin.hasTangent_world_motion hm (tangent_pose hs hc hf hu) (rate_joints hs hc hP hf) l

theorem rate_centre (hm : m.Regular) : HasDerivAt (fun τ => Spec.centre R (s τ) (q τ)) ((Spec.mass m)⁻¹ • Spec.linearMomentum R (s t) (q t) (c t)) t := by
  unfold Spec.centre Spec.linearMomentum
  refine HasDerivAt.fun_const_smul _ ?_
  have : ∀ ls : List L, HasDerivAt (fun τ => (ls.map fun l => (m.inertia l).mass •
      (R.server.kin.world (Spec.pose (s τ) (q τ)) (Spec.joints (s τ)) l).point (m.inertia l).com).sum)
      ((ls.map fun l => (m.inertia l).mass • ((R.server.kin.world (Spec.pose (s t) (q t)) (Spec.joints (s t)) l).R *ᵥ
        ((R.server.kin.vel (Spec.twist (q t) (c t)) (Spec.joints (s t)) (Spec.jointVelocities (c t)) l).1 +
          (R.server.kin.vel (Spec.twist (q t) (c t)) (Spec.joints (s t)) (Spec.jointVelocities (c t)) l).2 ⨯₃ (m.inertia l).com))).sum) t := by
    intro ls
    induction ls with
    | nil => exact hasDerivAt_const _ _
    | cons a ls ih =>
      simp only [List.map_cons, List.sum_cons]
      exact ((tangent_link R hs hc hP hf hu hm a (m.inertia a).com).fun_const_smul _).add ih
  exact this m.links

end
end
end Verif.Plan
