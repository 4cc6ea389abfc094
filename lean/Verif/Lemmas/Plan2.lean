import Verif.Lemmas.Plan
import Verif.Props.CentroidalMomentum
import Verif.Props.PointConstraints
import Verif.Props.Constraints
import Verif.Props.Problem
/- Each constraint of the problem, said with the fields of the state and of the control. -/
set_option linter.unusedSectionVars false
set_option linter.unusedSimpArgs false
namespace Verif.Plan
open NLP NLP.Kin SolverM StateM Rigid Matrix
open SolverM.Spec (stateVector controlVector pointState pointControl StateSize ControlSize footPoints footFrame)
noncomputable section
variable {n nj : ℕ} {L F : Type} [DecidableEq L] [DecidableEq F] {m : Model L (Fin nj)} (R : Objects m F)

theorem withBounds_holds {σ κ : Type} {r : ℕ} (c : Constraint σ κ r) (tol : ℝ) (x : σ → ℝ) (u : κ → ℝ) :
    (withBounds c (-tol / 2) (tol / 2)).Holds x u ↔ ∀ i, |c.value x u i| ≤ tol / 2 := by
  unfold Constraint.Holds withBounds
  simp only [Option.some.injEq, forall_eq', abs_le, neg_div]
  exact ⟨fun h i => ⟨h.1 i, h.2 i⟩, fun h => ⟨fun i => (h i).1, fun i => (h i).2⟩⟩

theorem sum_apply {α : Type} (g : α → Vec) (ls : List α) (i : Fin 3) : (ls.map fun l => g l i).sum = (ls.map g).sum i := by
  induction ls with
  | nil => rfl
  | cons a ls ih => rw [List.map_cons, List.sum_cons, ih, List.map_cons, List.sum_cons, Pi.add_apply]

variable {s : State ℝ} {c : Control ℝ} (q : V4 ℝ) (hs : StateSize nj n s) (hc : ControlSize nj n c)
include hs hc

local notation "X" => readState (n := n) (rangesAt nj n) (stateVector s q)
local notation "U" => readControl (n := n) (rangesAt nj n) (controlVector c)

theorem momentum_iff (hM : massOf m ≠ 0) (tol : ℝ) : satisfied R X U (.centroidalMomentum (-tol / 2) (tol / 2)) ↔
    Spec.Close (tol / 2) (Spec.angularMomentum R s q c) (toVec s.angularMomentum) := by
  simp only [satisfied]
  rw [withBounds_holds]
  refine forall_congr' fun i => ?_
  obtain ⟨z, hz, e⟩ := C64_value R.server R.norm R.fuel R.order R.order' 0 hM X U i
  rw [e]
  have ez : z = Spec.centre R s q := by
    rw [read_pose q hs, read_joints q hs] at hz
    unfold Spec.centre Spec.mass
    rw [← hz, smul_smul, inv_mul_cancel₀ hM, one_smul]
  have em : X (.momentum, 3 + (i : ℕ)) = toVec s.angularMomentum i := by
    rw [state_momentum q hs _ (by omega)]; fin_cases i <;> rfl
  rw [em, ez, read_pose q hs, read_joints q hs, read_twist q hs hc, read_jointVel hc]
  exact iff_of_eq (congrArg (fun z => |z - toVec s.angularMomentum i| ≤ tol / 2) (sum_apply (fun l =>
    let T := R.server.kin.world (Spec.pose s q) (Spec.joints s) l
    let h := (m.inertia l).mul (R.server.kin.vel (Spec.twist q c) (Spec.joints s) (Spec.jointVelocities c) l)
    T.R *ᵥ h.2 + (T.p - Spec.centre R s q) ⨯₃ (T.R *ᵥ h.1)) m.links i))

theorem com_iff (hM : massOf m ≠ 0) (tol : ℝ) : satisfied R X U (.comPosition (-tol / 2) (tol / 2)) ↔
    Spec.Close (tol / 2) (Spec.centre R s q) (toVec s.com) := by
  simp only [satisfied]
  rw [withBounds_holds]
  refine forall_congr' fun i => ?_
  have e := C65_value R.server R.rot R.fuel R.leftover 0 hM X U
  rw [read_pose q hs, read_joints q hs] at e
  have e2 : (comPositionConstraint R.server R.rot R.fuel R.leftover 0).value X U = Spec.centre R s q - toVec s.com := by
    have h3 : (fun i : Fin 3 => X (.com, (i : ℕ))) = toVec s.com := by
      funext i; rw [state_com q hs _ (by omega)]; fin_cases i <;> rfl
    rw [h3] at e
    unfold Spec.centre Spec.mass
    rw [← e, smul_smul, inv_mul_cancel₀ hM, one_smul, add_sub_cancel_right]
  rw [e2, Pi.sub_apply]

theorem distance_iff (a b : String) (k : ℕ) (d : ℝ) : satisfied R X U (.feetLateralDistance k a b d) ↔
    ∃ h : k < 3, d ≤ ((Spec.framePose R s q a)⁻¹.point ((Spec.framePose R s q b).point 0)) ⟨k, h⟩ := by
  simp only [satisfied]
  refine exists_congr fun h => ?_
  have e := C67_value R.server (R.frame a) (R.frame b) ⟨k, h⟩ R.leftover d X U (Spec.pose s q)
  rw [read_joints q hs] at e
  unfold Constraint.Holds
  rw [(C67_bounds R.server (R.frame a) (R.frame b) ⟨k, h⟩ R.leftover d).1, (C67_bounds R.server (R.frame a) (R.frame b) ⟨k, h⟩ R.leftover d).2.1]
  simp only [Option.some.injEq, forall_eq', Fin.forall_fin_one, reduceCtorEq, false_implies, implies_true, and_true]
  rw [e]; rfl

theorem quaternion_iff (tol : ℝ) : satisfied R X U (.quaternionNorm (-tol / 2) (tol / 2)) ↔ |q.w ^ 2 + q.x ^ 2 + q.y ^ 2 + q.z ^ 2 - 1| ≤ tol / 2 := by
  simp only [satisfied]
  rw [withBounds_holds, Fin.forall_fin_one]
  have e : (quaternionNorm (n := n) 0).value X U 0 = q.w ^ 2 + q.x ^ 2 + q.y ^ 2 + q.z ^ 2 - 1 := by
    simp only [quaternionNorm, state_quat q hs _ (show 0 < 4 by omega), state_quat q hs _ (show 1 < 4 by omega), state_quat q hs _ (show 2 < 4 by omega), state_quat q hs _ (show 3 < 4 by omega)]
    simp
    ring
  rw [e]

theorem sum_points (f : Foot) : ∑ k : Fin n, X (.pos (side f) k, 2) = ((Spec.points s f).map fun p => p.position.z).sum := by
  have hl : (Spec.points s f).length = n := by cases f; exacts [hs.left, hs.right]
  have : ∀ k : Fin n, X (.pos (side f) k, 2) = ((Spec.points s f)[(k : ℕ)]'(by omega)).position.z := fun k =>
    (state_point q hs f k _ (List.getElem?_eq_getElem (by omega)) 2 (by omega)).2
  rw [Finset.sum_congr rfl fun k _ => this k, ← List.sum_ofFn]
  congr 1
  exact List.ext_getElem (by simp [hl]) fun i h1 h2 => by simp

theorem height_iff (hM : ℝ) : satisfied R X U (.feetRelativeHeight hM) ↔
    |(s.left.map fun p => p.position.z).sum / s.left.length - (s.right.map fun p => p.position.z).sum / s.right.length| ≤ hM := by
  have e1 := sum_points q hs hc .left
  have e2 := sum_points q hs hc .right
  simp only [satisfied]
  have key : (feetRelativeHeight hM).Holds X U ↔ |(∑ k : Fin n, X (.pos .left k, 2)) / n - (∑ k : Fin n, X (.pos .right k, 2)) / n| ≤ hM := by
    unfold Constraint.Holds
    simp only [feetRelativeHeight, Option.some.injEq, forall_eq', Fin.forall_fin_one, sumHeights_eq, abs_le]
  rw [key, hs.left, hs.right]
  exact iff_of_eq (congrArg₂ (fun a b => |a / (n : ℝ) - b / n| ≤ hM) e1 e2)

/-! ### The points -/

section Points
variable (f : Foot) (i : Fin n) (p : PointState ℝ) (hp : (Spec.points s f)[(i : ℕ)]? = some p) (v : PointControl ℝ)
  (hv : (Spec.inputs c f)[(i : ℕ)]? = some v)
include hp

theorem read_force : X (.force (side f) i, 0) = p.force.x ∧ X (.force (side f) i, 1) = p.force.y ∧ X (.force (side f) i, 2) = p.force.z :=
  ⟨(state_point q hs f i p hp 0 (by omega)).1, (state_point q hs f i p hp 1 (by omega)).1, (state_point q hs f i p hp 2 (by omega)).1⟩
theorem read_position (k : Fin 3) : X (.pos (side f) i, (k : ℕ)) = toVec p.position k := by
  rw [(state_point q hs f i p hp k k.2).2]; fin_cases k <;> rfl
omit hp in
include hv in
theorem read_inputs : U (.velCtl (side f) i, 0) = v.velocityControl.x ∧ U (.velCtl (side f) i, 1) = v.velocityControl.y ∧
    U (.velCtl (side f) i, 2) = v.velocityControl.z ∧ U (.forceCtl (side f) i, 2) = v.forceControl.z :=
  ⟨(control_point hc f i v hv 0 (by omega)).1, (control_point hc f i v hv 1 (by omega)).1, (control_point hc f i v hv 2 (by omega)).1,
    (control_point hc f i v hv 2 (by omega)).2⟩

theorem friction_iff (mu : ℝ) (hmu : 0 < mu) : satisfied R X U (.friction f i mu) ↔ Real.sqrt (p.force.x ^ 2 + p.force.y ^ 2) ≤ mu * |p.force.z| := by
  simp only [satisfied, exists_prop_of_true i.2]
  rw [C20_cone _ _ _ hmu]
  obtain ⟨e1, e2, e3⟩ := read_force q hs hc f i p hp
  rw [e1, e2, e3]

theorem contact_iff (frame : String) (b : V3 ℝ) (tol : ℝ) : satisfied R X U (.contactPosition f i frame b (-tol / 2) (tol / 2)) ↔
    Spec.Close (tol / 2) ((Spec.framePose R s q frame).point (toVec b)) (toVec p.position) := by
  simp only [satisfied, exists_prop_of_true i.2]
  rw [withBounds_holds]
  refine forall_congr' fun k => ?_
  have e : (contactPositionConstraint R.server R.rot (R.frame frame) R.leftover (side f) i (toVec b) 0).value X U k =
      ((Spec.framePose R s q frame).point (toVec b)) k - toVec p.position k := by
    rw [← read_position q hs hc f i p hp k]
    unfold Spec.framePose
    rw [← read_pose q hs, ← read_joints q hs]
    rfl
  rw [e]

include hv

theorem planar_iff (a x y : ℝ) : satisfied R X U (.planarVelocityControl f i a x y) ↔
    |v.velocityControl.x| ≤ Real.tanh (a * p.position.z) * x ∧ |v.velocityControl.y| ≤ Real.tanh (a * p.position.z) * y := by
  simp only [satisfied, exists_prop_of_true i.2]
  rw [(C44_velocity_bounds (side f) i (activation a) rfl x y 0 R.stored X U).1]
  obtain ⟨e1, e2, -, -⟩ := read_inputs hs hc f i v hv
  have e3 : X (.pos (side f) i, 2) = p.position.z := read_position q hs hc f i p hp 2
  rw [e1, e2, e3]; rfl

theorem planarClassical_iff (tol : ℝ) : satisfied R X U (.classicalPlanarComplementarity f i tol) ↔
    |p.force.z * v.velocityControl.x| ≤ tol ∧ |p.force.z * v.velocityControl.y| ≤ tol := by
  simp only [satisfied, exists_prop_of_true i.2]
  rw [(C21_meaning (side f) i tol X U).2.1]
  obtain ⟨e1, e2, -, -⟩ := read_inputs hs hc f i v hv
  rw [e1, e2, (read_force q hs hc f i p hp).2.2]

theorem dynamical_iff (g ub : ℝ) : satisfied R X U (.dynamicalComplementarity f i g ub) ↔
    v.forceControl.z * p.position.z + p.force.z * v.velocityControl.z ≤ ub - g * (p.position.z * p.force.z) := by
  simp only [satisfied, exists_prop_of_true i.2]
  obtain ⟨-, -, e1, e2⟩ := read_inputs hs hc f i v hv
  have e3 : X (.pos (side f) i, 2) = p.position.z := read_position q hs hc f i p hp 2
  have e4 := (read_force q hs hc f i p hp).2.2
  simp only [Constraint.Holds, dynamicalComplementarity, vec3, e1, e2, e3, e4, Option.some.injEq, forall_eq', Fin.forall_fin_one, reduceCtorEq,
    false_implies, implies_true, true_and]
  constructor <;> intro h <;> linarith

theorem forceControl_iff (a M D : ℝ) : satisfied R X U (.forceControl f i a M D) ↔
    let δ := 1 / Real.cosh (a * p.position.z)
    v.forceControl.z ≤ δ * M - (1 - δ) * (D * p.force.z) := by
  simp only [satisfied, exists_prop_of_true i.2]
  obtain ⟨-, -, e1, e2⟩ := read_inputs hs hc f i v hv
  have e3 : X (.pos (side f) i, 2) = p.position.z := read_position q hs hc f i p hp 2
  have e4 := (read_force q hs hc f i p hp).2.2
  simp only [Constraint.Holds, contactForceControl, vec3, e1, e2, e3, e4, Option.some.injEq, forall_eq', Fin.forall_fin_one, reduceCtorEq,
    false_implies, implies_true, true_and, Smooth.Fn.eval, activation, Smooth.Params.setScaling, Bool.false_eq_true, if_false]
  constructor <;> intro h <;> linarith

theorem classical_iff (tol : ℝ) : satisfied R X U (.classicalComplementarity f i tol) ↔ p.position.z * p.force.z ≤ tol := by
  simp only [satisfied, exists_prop_of_true i.2]
  rw [(C21_meaning (side f) i tol X U).1, (read_force q hs hc f i p hp).2.2]
  have e3 : X (.pos (side f) i, 2) = p.position.z := read_position q hs hc f i p hp 2
  rw [e3]

end Points
end
end Verif.Plan
