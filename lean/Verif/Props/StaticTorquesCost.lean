import Verif.Lemmas.StaticTorquesCost4
import Verif.Lemmas.TraceQuaternion
import Verif.Lemmas.SampleServer
import Verif.Props.PointConstraints
/- C68: the cost of the static torques. -/
set_option linter.unusedSectionVars false
namespace Verif.NLP.Kin
open Matrix Verif.Rigid Function Verif.NLP.Spec
open Verif.Quaternion (rotationFromQuaternion inverse traceQuaternion rotatedVectorJacobian inverseDerivative leftTrivializedDerivative)
open Verif.NLP.Dynamics (quatOf baseRotation)
noncomputable section
variable {n nj : ℕ} {L F : Type} [DecidableEq L] [DecidableEq F] {m : Model L (Fin nj)}

/-- Specification: where a contact point is, in the world, for the positions `q` of the joints. -/
def contactPoint (c : StaticTorques m F n) (H : SE3) (q : Fin nj → ℝ) (side : Side) (p : Fin n) : Vec :=
  (c.server.kin.world H q (c.server.frames.link (c.frame side)) * c.server.frames.offset (c.frame side)).point (c.point side p)

/-- Specification: the energy of the weight, minus the work of the contact forces of the state `x` (fixed in the world). -/
def restEnergy (c : StaticTorques m F n) (x : SVec n) (q : Fin nj → ℝ) : ℝ :=
  weightEnergy c.server.kin (baseTransform x) c.gravity q -
    ((∑ p, StaticTorques.pointForce x .left p ⬝ᵥ contactPoint c (baseTransform x) q .left p) +
      ∑ p, StaticTorques.pointForce x .right p ⬝ᵥ contactPoint c (baseTransform x) q .right p)

namespace StaticTorques
variable {c : StaticTorques m F n} {x : SVec n}

theorem hasDerivAt_work (hm : m.Regular) (side : Side) (p : Fin n) (j : Fin nj) :
    HasDerivAt (fun t => pointForce x side p ⬝ᵥ contactPoint c (baseTransform x) (update (jointsOf x) j t) side p)
      (power (c.frameJacobian x side j) (pointMap 1 (c.point side p) ((c.footTransform x side).Rᵀ *ᵥ pointForce x side p))) (jointsOf x j) := by
  have h := (c.server.kin.hasTangent_world hm (baseTransform x) (jointsOf x) (c.server.kin.child_ne j) (c.server.frames.link (c.frame side))).mul
    (hasTangent_const (c.server.frames.offset (c.frame side)) _)
  rw [c.server.kin.joint_child, ← c.server.kin.vel_single] at h
  have h' := h (c.point side p)
  dsimp only at h'
  rw [update_eq_self] at h'
  have e : (c.server.kin.world (baseTransform x) (jointsOf x) (c.server.frames.link (c.frame side)) * c.server.frames.offset (c.frame side)) = c.footTransform x side := rfl
  rw [e] at h'
  have es : ((c.server.frames.offset (c.frame side))⁻¹.act (c.server.kin.vel 0 (jointsOf x) (Pi.single j 1) (c.server.frames.link (c.frame side))) + 0 : Spatial) = c.frameJacobian x side j := by
    rw [add_zero]; rfl
  rw [es] at h'
  generalize c.frameJacobian x side j = s at *
  rw [hasDerivAt_pi] at h'
  have hsum := HasDerivAt.fun_sum (u := Finset.univ) fun k _ => (h' k).const_mul (pointForce x side p k)
  refine hsum.congr_deriv ?_
  generalize (c.footTransform x side).R = R
  generalize pointForce x side p = f
  simp only [power, pointMap, one_mulVec, dotProduct, mulVec, Fin.sum_univ_three, transpose_apply, cross_apply]
  simp
  ring

theorem staticTorques_eq (hc : c.Apart) (j : Fin nj) : c.staticTorques x j =
    c.server.kin.staticTorque (baseTransform x) (Traversal.baseAcc (baseTransform x) c.gravity) 0 (jointsOf x) j -
      c.footPart x (fun side p => (c.footTransform x side).Rᵀ *ᵥ pointForce x side p) j := by
  rw [staticTorques, Traversal.staticTorque_power, Traversal.staticTorque_power, ← footPart_eq hc, ← Traversal.total_sub]
  refine Traversal.total_congr fun l => ?_
  rw [← power_sub, Pi.zero_apply, sub_zero, contactWrenches_eq]
  have : c.totalWrenchInFrame x = fun side => ∑ p, pointMap 1 (c.point side p) ((c.footTransform x side).Rᵀ *ᵥ pointForce x side p) :=
    funext fun side => c.totalWrench_eq x side
  rw [this]

end StaticTorques
open StaticTorques

/-- C68: what the torques are.  The torque of a joint is the derivative, by the position of that joint, of the energy of the weight minus the
work of the contact forces: with these torques the robot, pushed by the contact forces, does not move its joints. -/
theorem C68_torques_hold_the_robot (c : StaticTorques m F n) (hm : m.Regular) (hc : c.Apart) (x : SVec n) (j : Fin nj) :
    HasDerivAt (fun t => restEnergy c x (update (jointsOf x) j t)) (c.staticTorques x j) (jointsOf x j) := by
  have h1 := C59_torque_of_weight c.server.kin hm (baseTransform x) c.gravity (jointsOf x) j
  have h2 := (HasDerivAt.fun_sum (u := Finset.univ) fun p _ => hasDerivAt_work (c := c) (x := x) hm .left p j).add
    (HasDerivAt.fun_sum (u := Finset.univ) fun p _ => hasDerivAt_work (c := c) (x := x) hm .right p j)
  rw [staticTorques_eq hc]
  exact h1.sub h2

/-- C68: the value is half the sum of the weighted squares. -/
theorem C68_value (c : StaticTorques m F n) (w : Fin nj → ℝ) (x : SVec n) : c.value w x = (1 / 2) * ∑ j, w j * c.staticTorques x j ^ 2 := by
  rw [value]
  norm_num
  refine Finset.sum_congr rfl fun j _ => by ring

/-- C68: the cost is zero or positive for weights that are. -/
theorem C68_nonneg (c : StaticTorques m F n) (w : Fin nj → ℝ) (hw : ∀ j, 0 ≤ w j) (x : SVec n) : 0 ≤ c.value w x := by
  rw [C68_value]
  have : 0 ≤ ∑ j, w j * c.staticTorques x j ^ 2 := Finset.sum_nonneg fun j _ => mul_nonneg (hw j) (sq_nonneg _)
  linarith

/-- The entries that the methods write. -/
def Written (nj : ℕ) (q : Idx (SBlk n)) : Prop := (q.1 = .baseQuat ∧ q.2 < 4) ∨ (q.1 = .joints ∧ q.2 < nj) ∨ ∃ side p, q.1 = .force side p ∧ q.2 < 3

theorem StaticTorques.gradient_entry (c : StaticTorques m F n) (w : Fin nj → ℝ) (B : Buffers n nj) (x : SVec n) (q : Idx (SBlk n)) :
    (Written nj q → (c.stateGradient w B x).gradient q = weightedColumn w (c.staticTorques x) (c.torquesJacobian B.jacobian x q)) ∧
      (¬ Written nj q → (c.stateGradient w B x).gradient q = B.gradient q) := by
  constructor
  · rintro (h | h | ⟨side, p, h⟩)
    · unfold stateGradient
      dsimp only
      have hf : ∀ side p, ¬ (q.1 = SBlk.force side p ∧ q.2 < 3) := by intro side p; simp [h.1]
      rw [foldl_putForce_other _ _ _ (hf _), foldl_putForce_other _ _ _ (hf _), putCols, dif_pos h]
      have e : q = (.baseQuat, q.2) := Prod.ext h.1 rfl
      exact congrArg (fun z => weightedColumn w (c.staticTorques x) (c.torquesJacobian B.jacobian x z)) e.symm
    · unfold stateGradient
      dsimp only
      have hf : ∀ side p, ¬ (q.1 = SBlk.force side p ∧ q.2 < 3) := by intro side p; simp [h.1]
      rw [foldl_putForce_other _ _ _ (hf _), foldl_putForce_other _ _ _ (hf _), putCols, dif_neg (by simp [h.1]), putCols, dif_pos h]
      have e : q = (.joints, q.2) := Prod.ext h.1 rfl
      exact congrArg (fun z => weightedColumn w (c.staticTorques x) (c.torquesJacobian B.jacobian x z)) e.symm
    · obtain ⟨b, l⟩ := q
      have hb : b = .force side p := h.1
      subst hb
      obtain ⟨k, rfl⟩ : ∃ k : Fin 3, l = k := ⟨⟨l, h.2⟩, rfl⟩
      unfold stateGradient
      dsimp only
      cases side with
      | right => rw [foldl_putForce _ _ _ _ _ (by simp)]
      | left => rw [foldl_putForce_other _ _ _ (by simp), foldl_putForce _ _ _ _ _ (by simp)]
  · intro h
    have h1 : ¬ (q.1 = .baseQuat ∧ q.2 < 4) := fun e => h (Or.inl e)
    have h2 : ¬ (q.1 = .joints ∧ q.2 < nj) := fun e => h (Or.inr (Or.inl e))
    have h3 : ∀ side p, ¬ (q.1 = .force side p ∧ q.2 < 3) := fun side p e => h (Or.inr (Or.inr ⟨side, p, e⟩))
    unfold stateGradient
    dsimp only
    rw [foldl_putForce_other _ _ _ (h3 _), foldl_putForce_other _ _ _ (h3 _), putCols, dif_neg h1, putCols, dif_neg h2]

theorem StaticTorques.after_zero (c : StaticTorques m F n) (calls : List (Call n nj)) (q : Idx (SBlk n)) (h : ¬ Written nj q) :
    (c.after calls).jacobian q = 0 ∧ (c.after calls).gradient q = 0 := by
  have h1 : ¬ (q.1 = .baseQuat ∧ q.2 < 4) := fun e => h (Or.inl e)
  have h2 : ¬ (q.1 = .joints ∧ q.2 < nj) := fun e => h (Or.inr (Or.inl e))
  have h3 : ∀ side p, ¬ (q.1 = .force side p ∧ q.2 < 3) := fun side p e => h (Or.inr (Or.inr ⟨side, p, e⟩))
  induction calls using List.reverseRecOn with
  | nil => exact ⟨rfl, rfl⟩
  | append_singleton xs a ih =>
    unfold after at *
    rw [List.foldl_append, List.foldl_cons, List.foldl_nil]
    cases a with
    | jacobian y => exact ⟨(c.torquesJacobian_other _ q h1 h2 h3).trans ih.1, ih.2⟩
    | gradient w y => exact ⟨(c.torquesJacobian_other _ q h1 h2 h3).trans ih.1, ((c.gradient_entry w _ y q).2 h).trans ih.2⟩

/-- C68: the Jacobian of the torques is exact, whatever was computed before with the same object. -/
theorem C68_torques_jacobian (c : StaticTorques m F n) (hm : m.Regular) (hc : c.Apart) (calls : List (Call n nj)) (x : SVec n) (hx : quatOf x ≠ 0)
    (hq : c.Coherent x) (j : Fin nj) :
    GradAt (fun y => c.staticTorques y j) (fun q => c.torquesJacobian (c.after calls).jacobian x q j) x := by
  refine torques_grad _ hm hc hx hq j fun q h1 h2 h3 => ?_
  rw [(c.after_zero calls q ?_).1, Pi.zero_apply]
  rintro (e | e | ⟨side, p, e⟩)
  · exact h1 e
  · exact h2 e
  · exact h3 side p e

/-- C68: the gradient of the cost is exact, whatever was computed before with the same object; the cost does not depend on the control and
the gradient by the control is zero. -/
theorem C68_gradient (c : StaticTorques m F n) (hm : m.Regular) (hc : c.Apart) (w : Fin nj → ℝ) (calls : List (Call n nj)) (x : SVec n)
    (hx : quatOf x ≠ 0) (hq : c.Coherent x) :
    GradAt (fun y => c.value w y) (c.stateGradient w (c.after calls) x).gradient x ∧
      ∀ u : CVec n, GradAt (fun _ => c.value w x) controlGradient u := by
  refine ⟨fun q => ?_, fun u q => hasDerivAt_const _ _⟩
  have hj : ∀ j, HasDerivAt (fun t => c.staticTorques (update x q t) j) (c.torquesJacobian (c.after calls).jacobian x q j) (x q) :=
    fun j => C68_torques_jacobian c hm hc calls x hx hq j q
  have hs : HasDerivAt (fun t => c.value w (update x q t)) (weightedColumn w (c.staticTorques x) (c.torquesJacobian (c.after calls).jacobian x q)) (x q) := by
    have := (HasDerivAt.fun_sum (u := Finset.univ) fun j _ => ((hj j).mul_const (w j)).mul (hj j)).const_mul 0.5
    refine this.congr_deriv ?_
    simp only [update_eq_self, weightedColumn, Finset.mul_sum]
    refine Finset.sum_congr rfl fun j _ => ?_
    norm_num; ring
  refine hs.congr_deriv ?_
  by_cases h : Written nj q
  · rw [(c.gradient_entry w _ x q).1 h]
  · rw [(c.gradient_entry w _ x q).2 h, (c.after_zero calls q h).2]
    have h1 : ¬ (q.1 = .baseQuat ∧ q.2 < 4) := fun e => h (Or.inl e)
    have h2 : ¬ (q.1 = .joints ∧ q.2 < nj) := fun e => h (Or.inr (Or.inl e))
    have h3 : ∀ side p, ¬ (q.1 = .force side p ∧ q.2 < 3) := fun side p e => h (Or.inr (Or.inr ⟨side, p, e⟩))
    rw [c.torquesJacobian_other _ q h1 h2 h3, (c.after_zero calls q h).1]
    simp [weightedColumn]

/-- C68: the hypothesis on the quaternions holds when the quaternions given by the library are the ones of the rotations, with positive real
part (so, for feet that are not turned by half a turn). -/
theorem C68_quaternions_coherent (c : StaticTorques m F n) (x : SVec n)
    (hu : ∀ R : Matrix (Fin 3) (Fin 3) ℝ, R * Rᵀ = 1 → R.det = 1 → Quaternion.Spec.UnitQ (c.asQuaternion R) ∧ rotationFromQuaternion (c.asQuaternion R) = R)
    (hp : ∀ side, 0 < c.asQuaternion (c.footTransform x side).R 0 ∧ 0 < c.asQuaternion (c.footTransform x side).Rᵀ 0) : c.Coherent x := by
  intro side
  have h1 := hu _ (c.footTransform x side).orthogonal (c.footTransform x side).det
  have h2 := hu _ (c.footTransform x side)⁻¹.orthogonal (c.footTransform x side)⁻¹.det
  refine ⟨h1.1, h1.2, ?_⟩
  have hi : Quaternion.Spec.UnitQ (inverse (c.asQuaternion (c.footTransform x side).R)) := by
    have := h1.1
    unfold Quaternion.Spec.UnitQ at *
    simpa [inverse, Quaternion.im] using this
  rcases Quaternion.unit_same h2.1 hi (by rw [h2.2, rotation_inverse, h1.2]; rfl) with h | h
  · exact h
  · exfalso
    have e := congrFun h 0
    have p1 := (hp side).1
    have p2 := (hp side).2
    rw [SE3.inv_R] at e
    simp [inverse] at e
    linarith

/-- C68, the other case: when the library gives for the inverse rotation the opposite of the inverse quaternion (the same rotation), the
contribution of the turning of the foot to the derivative by the joints has the opposite sign of the true one. -/
theorem C68_finding_quaternion_sign (c : StaticTorques m F n) (x : SVec n) (side : Side)
    (hu : Quaternion.Spec.UnitQ (c.asQuaternion (c.footTransform x side).R)) (hr : rotationFromQuaternion (c.asQuaternion (c.footTransform x side).R) = (c.footTransform x side).R)
    (ho : c.asQuaternion (c.footTransform x side).Rᵀ = -inverse (c.asQuaternion (c.footTransform x side).R)) (f : Vec) (z : Fin nj) :
    c.turnDer x side f z = (c.frameJacobian x side z).2 ⨯₃ ((c.footTransform x side).Rᵀ *ᵥ f) := by
  have e := turn_seen (c.asQuaternion (c.footTransform x side).R) (c.frameJacobian x side z).2 f (by
    unfold Quaternion.Spec.UnitQ at hu; linarith)
  rw [hr] at e
  rw [turnDer, inv_inv, SE3.inv_R, ho, ← neg_neg ((c.frameJacobian x side z).2 ⨯₃ _), ← e]
  have : ∀ q : Fin 4 → ℝ, rotatedVectorJacobian Real.sqrt f (-q) = -rotatedVectorJacobian Real.sqrt f q := by
    intro q
    rw [Quaternion.rotatedVectorJacobian_eq, Quaternion.rotatedVectorJacobian_eq, Quaternion.unscaled_entry, Quaternion.unscaled_entry]
    ext i k
    fin_cases i <;> fin_cases k <;> simp <;> ring
  rw [this, Matrix.neg_mul, Matrix.neg_mul, neg_mulVec]

/-- C68, feet on the same link: the wrench of the left foot is overwritten and the torques do not depend on its forces (they should: see
`C68_torques_hold_the_robot`). -/
theorem C68_finding_same_link (c : StaticTorques m F n) (h : ¬ c.Apart) (x : SVec n) (p : Fin n) (k : ℕ) (a : ℝ) (j : Fin nj) :
    c.staticTorques (update x (.force .left p, k) a) j = c.staticTorques x j := by
  have hl : c.server.frames.link (c.frame .left) = c.server.frames.link (c.frame .right) := not_not.1 h
  have hj : (jointsOf (update x (.force .left p, k) a) : Fin nj → ℝ) = jointsOf x := by funext i; simp [jointsOf]
  have hb : baseTransform (update x (.force .left p, k) a) = baseTransform x := by
    have h1 := baseRotation_congr (quatOf_other x (.force .left p, k) (by simp) a)
    have h2 : basePosOf (update x (.force .left p, k) a) = basePosOf x := by funext i; simp [basePosOf]
    simp only [baseTransform, h1, h2]
  have hT : c.footTransform (update x (.force .left p, k) a) .right = c.footTransform x .right := by rw [footTransform, hj, hb]; rfl
  have hf : pointForce (update x (.force .left p, k) a) .right = pointForce x .right := by funext p' i; simp [pointForce]
  have hw : c.contactWrenches (update x (.force .left p, k) a) = c.contactWrenches x := by
    unfold contactWrenches putWrench
    rw [hl, update_idem, update_idem]
    congr 2
  rw [staticTorques, hj, hb, hw]; rfl

/-- C68: the weights are replaced only by weights of the same number. -/
theorem C68_set_weights (old new : List ℝ) :
    ((setWeights old new).2 = true ↔ new.length = old.length) ∧ (setWeights old new).1 = (if new.length = old.length then new else old) := by
  unfold setWeights
  by_cases h : new.length = old.length <;> simp [h]

/-! ### A concrete case -/

/-- The feet of the small robot: two different links, two points each, the quaternions with positive real part. -/
def sampleTorques : StaticTorques sampleModel (Option (Fin 3)) 2 where
  server := sampleServer
  gravity := ![0, 0, -9.81]
  frame := fun side => match side with | .left => none | .right => some 2
  point := fun _ => ![![1, 0, 0], ![0, 1, 0]]
  asQuaternion := traceQuaternion

theorem sampleTorques_apart : sampleTorques.Apart := by
  show sampleServer.frames.link none ≠ sampleServer.frames.link (some 2)
  decide

/-- The hypothesis on the quaternions holds for the quaternion computed from the trace, when no foot is turned by half a turn. -/
theorem C68_trace_coherent (c : StaticTorques m F n) (hc : c.asQuaternion = traceQuaternion) (x : SVec n) (ht : ∀ side, -1 < (c.footTransform x side).R.trace) :
    c.Coherent x := by
  intro side
  have h := Quaternion.trace_quaternion (c.footTransform x side).orthogonal (c.footTransform x side).det (ht side)
  rw [hc]
  exact ⟨h.1, h.2.1, Quaternion.trace_transpose⟩

example (x : SVec 2) (j : Fin 2) := C68_torques_hold_the_robot sampleTorques sample_regular sampleTorques_apart x j

/-- The robot upright, with one vertical force. -/
def uprightState : SVec 2 := fun p => if p = (.baseQuat, 0) ∨ p = (.force .left 0, 2) then 1 else 0

theorem upright_quat : quatOf uprightState ≠ 0 := by
  intro h
  have := congrFun h 0
  simp [quatOf, uprightState] at this

theorem upright_base : (baseTransform uprightState).R = 1 := by
  show baseRotation uprightState = 1
  have : quatOf uprightState = ![1, 0, 0, 0] := by
    funext k; fin_cases k <;> simp [quatOf, uprightState]
  have hn : Quaternion.normalized Real.sqrt ![1, 0, 0, 0] = ![1, 0, 0, 0] := by
    funext k; fin_cases k <;> simp [Quaternion.normalized, Quaternion.norm, Quaternion.squaredNorm, Fin.sum_univ_four]
  rw [baseRotation, this, hn]
  ext i k; fin_cases i <;> fin_cases k <;> simp [rotationFromQuaternion, Quaternion.skew, Quaternion.im, mul_apply, Fin.sum_univ_three]

theorem upright_coherent : sampleTorques.Coherent uprightState := by
  refine C68_trace_coherent _ rfl _ fun side => ?_
  have hj : (jointsOf uprightState : Fin 2 → ℝ) = 0 := by funext k; simp [jointsOf, uprightState]
  have h0 : ∀ H, sampleTraversal.world H 0 0 = H := fun H => sampleTraversal.world_root H 0
  have h1 : ∀ H, (sampleTraversal.world H 0 1).R = H.R := by
    intro H
    rw [sampleTraversal.world_step H 0 (show (1 : Fin 3) ≠ sampleTraversal.root by decide)]
    show (sampleTraversal.world H 0 0 * _ : SE3).R = _
    rw [h0]
    have : (sampleTraversal.jointTransform 0 1).R = 1 := by
      simp [Traversal.jointTransform, sampleTraversal, sampleModel, sampleAxes, Axis.T, rotZ, transZ]
      ext i k; fin_cases i <;> fin_cases k <;> simp
    simp [this]
  have h2 : ∀ H, (sampleTraversal.world H 0 2).R = H.R * (rotZ 1).Rᵀ := by
    intro H
    rw [sampleTraversal.world_step H 0 (show (2 : Fin 3) ≠ sampleTraversal.root by decide)]
    show (sampleTraversal.world H 0 1 * _ : SE3).R = _
    have : (sampleTraversal.jointTransform 0 2).R = (rotZ 1).Rᵀ := by
      simp [Traversal.jointTransform, sampleTraversal, sampleModel, sampleAxes, Axis.T, transZ]
    simp [this, h1]
  rw [footTransform, hj]
  cases side with
  | left =>
    show -1 < ((sampleTraversal.world _ 0 1) * quarterX : SE3).R.trace
    rw [SE3.mul_R, h1, upright_base]
    simp [quarterX, Matrix.trace, Fin.sum_univ_three]
  | right =>
    show -1 < ((sampleTraversal.world _ 0 2) * 1 : SE3).R.trace
    rw [mul_one, h2, upright_base]
    have := Real.cos_one_pos
    simp [rotZ, Matrix.trace, Fin.sum_univ_three]
    linarith

example (w : Fin 2 → ℝ) (calls : List (StaticTorques.Call 2 2)) :=
  C68_gradient sampleTorques sample_regular sampleTorques_apart w calls uprightState upright_quat upright_coherent

end
end Verif.NLP.Kin
