import Verif.Lemmas.FrameVelocity4
import Verif.Props.FrameOrientationCost
import Verif.Props.PointConstraints
import Verif.Lemmas.TreeExpr
/- C70: the cost of the angular velocity of a frame. -/
set_option linter.unusedSectionVars false
namespace Verif.NLP.Kin
open Matrix Verif.Rigid Function Verif.NLP.Spec
open Verif.Quaternion (rotationFromQuaternion leftTrivializedDerivativeInverse im skew)
open Verif.Quaternion.Spec (UnitQ Tangent)
open Verif.NLP.Dynamics (quatOf baseRotation velOf)
open Verif.Levi.Ex (Cfg)
noncomputable section
variable {n nj : ℕ} {L F : Type} [DecidableEq L] [DecidableEq F] {m : Model L (Fin nj)}

/-! ### Specification -/

/-- The rotation of the frame in the world. -/
def AngularVelocity.frameRotation (c : AngularVelocity m F) (x : SVec n) : Matrix (Fin 3) (Fin 3) ℝ :=
  (c.server.kin.world (baseTransform x) (jointsOf x) (c.server.frames.link c.frame) * c.server.frames.offset c.frame).R

/-- The angular velocity of the frame, seen from the frame, when the base moves with the given twist. -/
def AngularVelocity.angular (c : AngularVelocity m F) (twist : Spatial) (x : SVec n) (v : Velocities n) : Vec :=
  (c.server.kin.frameVel twist (jointsOf x) (jointVelOf v) (c.server.frames.link c.frame) (c.server.frames.offset c.frame)).2

/-- The angular velocity of the frame, in the world: `baseTwist` is the body velocity of the base (C49). -/
def AngularVelocity.worldAngular (c : AngularVelocity m F) (x : SVec n) (v : Velocities n) : Vec :=
  c.frameRotation x *ᵥ c.angular (baseTwist x v) x v

/-- The orientation error, in the world: the vector of the skew symmetric part of the rotation from the desired orientation to the one of the frame. -/
def rotationError (R Rd : Matrix (Fin 3) (Fin 3) ℝ) : Vec :=
  let E := R * Rdᵀ
  ![(E 2 1 - E 1 2) / 2, (E 0 2 - E 2 0) / 2, (E 1 0 - E 0 1) / 2]

/-- Half of the squared norm. -/
def half (e : Vec) : ℝ := (e 0 ^ 2 + e 1 ^ 2 + e 2 ^ 2) / 2

namespace AngularVelocity
variable (c : AngularVelocity m F)

theorem error_value (RE : RotExprs) (E : NormExprs) (hm : m.Regular) (Rd : Matrix (Fin 3) (Fin 3) ℝ) (x : SVec n) (hx : quatOf x ≠ 0) (v : Velocities n) (i : Fin 3) :
    (velocityErrorE c.gain Rd i).eval (c.vVal RE E x v) = (c.angular (serverTwist x v) x v + c.gain • rotationError (c.frameRotation x) Rd) i := by
  have hR : c.frameRotation x = baseRotation x * (c.server.transform (jointsOf x) c.server.baseFrame c.frame).R :=
    Orientation.frameRotation_eq ⟨c.server, c.frame, fun _ => 0⟩ x
  have hmv : ∀ b e : Fin 3, pVal RE (contactInner c.server c.frame Leftover.zero) x v (.m b e) =
      (c.server.transform (jointsOf x) c.server.baseFrame c.frame).R b e := by
    intro b e
    show (c.server.eval (jointsOf x) (.adj c.server.baseFrame c.frame) (unit3 e, 0)).1 b = _
    rw [c.server.eval_adj]
    simp [SE3.act, unit3, mulVec, dotProduct, Pi.single_apply]
  have hE : ∀ i j : Fin 3, (rotationErrorE (nj := nj) Rd i j).eval (c.vVal RE E x v) = (c.frameRotation x * Rdᵀ : Matrix (Fin 3) (Fin 3) ℝ) i j := by
    intro i j
    rw [hR]
    simp only [rotationErrorE, SMat.mul, SMat.transpose, SExp.eval, vVal, R_val hx, hmv, Matrix.mul_apply, transpose_apply]
  have ha : (c.server.veval (serverState x v) (.absVel c.frame)).2 = c.angular (serverTwist x v) x v := by
    rw [c.server.veval_absVel hm]; rfl
  have hs : ∀ i j : Fin 3, (skewErrorE (nj := nj) Rd i j).eval (c.vVal RE E x v) =
      ((c.frameRotation x * Rdᵀ : Matrix (Fin 3) (Fin 3) ℝ) i j - (c.frameRotation x * Rdᵀ : Matrix (Fin 3) (Fin 3) ℝ) j i) / 2 := by
    intro i j
    simp only [skewErrorE, SMat.smul, SMat.add, SMat.neg, SMat.transpose, SExp.eval, hE]
    ring
  have hv : (velocityErrorE c.gain Rd i).eval (c.vVal RE E x v) = c.angular (serverTwist x v) x v i + c.gain * (veeE (skewErrorE Rd) i).eval (c.vVal RE E x v) := by
    rw [← ha]; rfl
  rw [hv]
  fin_cases i <;> simp [veeE, hs, rotationError]

end AngularVelocity

/-- **C70.** The cost, from the velocities of the shared computations: half of the squared norm of the angular velocity used plus the gain times the
orientation error.  The calls of the code do not use the control they are given. -/
theorem C70_value (c : AngularVelocity m F) (RE : RotExprs) (E : NormExprs) (hm : m.Regular) (left : Velocities n) (Rd : Matrix (Fin 3) (Fin 3) ℝ)
    (x : SVec n) (hx : quatOf x ≠ 0) (u : CVec n) :
    (c.cost RE E left Rd).value x u = half (c.angular (serverTwist x left) x left + c.gain • rotationError (c.frameRotation x) Rd) := by
  show (velocityCostE c.gain Rd).eval (c.vVal RE E x left) = _
  simp only [velocityCostE, SExp.eval, c.error_value RE E hm Rd x hx, Fin.sum_univ_three, half]
  ring

/-- **C70.** The velocity that is used, and the body angular velocity of the frame: they differ because the twist of the base is the one in the world
in the expressions. -/
theorem C70_velocity_used (c : AngularVelocity m F) (hm : m.Regular) (x : SVec n) (v : Velocities n) :
    c.angular (serverTwist x v) x v = c.angular (baseTwist x v) x v +
      (c.server.transform (jointsOf x) c.frame c.server.baseFrame).R *ᵥ ((serverTwist x v).2 - (baseTwist x v).2) := by
  have hroot : c.server.kin.root = c.server.base := c.server.root_tree _
  have hb : ∀ w, c.server.kin.frameVel w (jointsOf x) (jointVelOf v) c.server.base 1 = w := by
    intro w; rw [Traversal.frameVel, ← hroot, Traversal.vel_root]; simp
  have hr : ∀ w : Spatial, c.server.kin.frameVel w (jointsOf x) (jointVelOf v) (c.server.frames.link c.frame) (c.server.frames.offset c.frame) =
      (c.server.transform (jointsOf x) c.frame c.server.baseFrame).act w +
      ∑ j, (jointVelOf v : Fin nj → ℝ) j • c.server.direction (jointsOf x) c.server.baseFrame c.frame j := by
    intro w
    have h1 := c.server.stateFrameVel_sub hm (⟨w, w, jointsOf x, jointVelOf v⟩ : KState (Fin nj)) c.server.baseFrame c.frame
    simp only [Server.stateFrameVel, c.server.frames.link_ofLink, c.server.frames.offset_ofLink, hb] at h1
    rw [← h1]; abel
  rw [AngularVelocity.angular, AngularVelocity.angular, hr (serverTwist x v), hr (baseTwist x v)]
  simp only [Prod.snd_add, SE3.act, mulVec_sub]
  abel

/-- The angular part of the twist of the base in the expressions is the angular velocity of the base in the world, when the derivative of the
quaternion keeps its norm. -/
theorem serverTwist_world (x : SVec n) (hx : quatOf x ≠ 0) (v : Velocities n) (ht : Tangent (quatN x) (quatVelOf v)) :
    (serverTwist x v).2 = baseRotation x *ᵥ (baseTwist x v).2 := by
  have hu := quatN_unit hx
  unfold Tangent at ht
  have hR : baseRotation x = rotationFromQuaternion (quatN x) := rfl
  rw [hR]
  show (2 : ℝ) • ((-(quatVelOf v 0)) • im (quatN x) + ((quatN x 0) • (1 : Matrix (Fin 3) (Fin 3) ℝ) + skew (im (quatN x))) *ᵥ im (quatVelOf v)) =
    rotationFromQuaternion (quatN x) *ᵥ (leftTrivializedDerivativeInverse (quatN x) *ᵥ quatVelOf v)
  funext i
  rw [Quaternion.rotate_entry, Quaternion.inverse_entry]
  generalize quatN x = q at *
  generalize quatVelOf v = d at *
  have hc : q 3 ^ 2 = 1 - q 0 ^ 2 - q 1 ^ 2 - q 2 ^ 2 := by linarith
  clear hR hu hx
  fin_cases i <;> simp [im, skew, mulVec, dotProduct, Fin.sum_univ_three, Matrix.one_apply, vecHead, vecTail] <;> grind

/-- **C70.** When the base is upright or turns about an axis that its rotation keeps, the velocity used is the body angular velocity of the frame. -/
theorem C70_body_velocity (c : AngularVelocity m F) (hm : m.Regular) (x : SVec n) (hx : quatOf x ≠ 0) (v : Velocities n) (ht : Tangent (quatN x) (quatVelOf v)) :
    c.angular (serverTwist x v) x v = c.angular (baseTwist x v) x v ↔ baseRotation x *ᵥ (baseTwist x v).2 = (baseTwist x v).2 := by
  rw [C70_velocity_used c hm, serverTwist_world x hx v ht]
  constructor
  · intro h
    have h1 : (c.server.transform (jointsOf x) c.frame c.server.baseFrame).R *ᵥ (baseRotation x *ᵥ (baseTwist x v).2 - (baseTwist x v).2) =
        (c.server.transform (jointsOf x) c.frame c.server.baseFrame).R *ᵥ 0 := by
      rw [mulVec_zero]; exact left_eq_add.1 h.symm
    exact sub_eq_zero.1 (Server.mulVec_R_injective _ h1)
  · intro h
    rw [h, sub_self, mulVec_zero, add_zero]

/-- **C70.** For the base frame the velocity used is the angular velocity in the world, so that the cost is the intended one. -/
theorem C70_base_frame_partial (c : AngularVelocity m F) (RE : RotExprs) (E : NormExprs) (hm : m.Regular) (hc : c.frame = c.server.baseFrame)
    (left : Velocities n) (Rd : Matrix (Fin 3) (Fin 3) ℝ) (x : SVec n) (hx : quatOf x ≠ 0) (ht : Tangent (quatN x) (quatVelOf left)) (u : CVec n) :
    (c.cost RE E left Rd).value x u = half (c.worldAngular x left + c.gain • rotationError (c.frameRotation x) Rd) := by
  rw [C70_value c RE E hm left Rd x hx u]
  have hroot : c.server.kin.root = c.server.base := c.server.root_tree _
  have hb : ∀ w, c.angular w x left = w.2 := by
    intro w
    rw [AngularVelocity.angular, hc, c.server.frames.link_ofLink, c.server.frames.offset_ofLink, Traversal.frameVel, ← hroot, Traversal.vel_root]; simp
  have hR : c.frameRotation x = baseRotation x := by
    rw [AngularVelocity.frameRotation, hc, c.server.frames.link_ofLink, c.server.frames.offset_ofLink, ← hroot, Traversal.world_root, mul_one]; rfl
  rw [AngularVelocity.worldAngular, hb, hb, hR, serverTwist_world x hx left ht]

/-! ### The derivatives -/

/-- **C70.** The derivatives with respect to the state are exact, whatever the velocities in the shared computations are, for the frames of the
links and for the ones whose rotation on the link keeps the axis of the joint. -/
theorem C70_state_derivatives_partial (c : AngularVelocity m F) {RE : RotExprs} {E : NormExprs} {cfg : Cfg ℝ} (hs : Levi.Spec.Sound cfg) (hR : RE.Made cfg)
    (hE : E.Made cfg) (hm : m.Regular) (hK : c.server.KeepsAxes c.frame) (left : Velocities n) (Rd : Matrix (Fin 3) (Fin 3) ℝ) (x : SVec n) (hx : quatOf x ≠ 0)
    (u : CVec n) :
    GradAt (fun y => (c.cost RE E left Rd).value y u) ((c.cost RE E left Rd).stateGrad x u fun _ => 0) x ∧
    HessNear (fun y => (c.cost RE E left Rd).value y u) ((c.cost RE E left Rd).stateHess x u fun _ _ => 0) x :=
  ⟨c.stateGradient_right hm hs hR hE hK hx, c.stateHessian_right hm hs hR hE hK hx⟩

/-- **C70.** The gradient with respect to the control and the mixed second derivatives are the derivatives of the cost that has the velocities of the
control: the calls of the code give them at the velocities of the shared computations. -/
theorem C70_control_derivatives_partial (c : AngularVelocity m F) {RE : RotExprs} {E : NormExprs} {cfg : Cfg ℝ} (hs : Levi.Spec.Sound cfg) (hR : RE.Made cfg)
    (hE : E.Made cfg) (hm : m.Regular) (hK : c.server.KeepsAxes c.frame) (left : Velocities n) (Rd : Matrix (Fin 3) (Fin 3) ℝ) (x : SVec n) (hx : quatOf x ≠ 0)
    (u : CVec n) :
    GradAt (fun v => (c.costWith RE E id Rd).value x v) ((c.cost RE E left Rd).ctrlGrad x u fun _ => 0) left ∧
    MixedNear (fun y v => (c.costWith RE E id Rd).value y v) ((c.cost RE E left Rd).mixedHess x u fun _ _ => 0) x left :=
  ⟨c.controlGradient_right hm hs hR hE hx, c.mixedHessian_right hm hs hR hE hK hx⟩

/-- **C70.** If the shared computations hold the velocities of the control, then the value, the gradients and the mixed second derivatives of the code
are the ones of the cost that uses the control. -/
theorem C70_same_velocities (c : AngularVelocity m F) (RE : RotExprs) (E : NormExprs) (Rd : Matrix (Fin 3) (Fin 3) ℝ) (x : SVec n) (u : CVec n) :
    (c.cost RE E u Rd).value x u = (c.costWith RE E id Rd).value x u ∧
    (c.cost RE E u Rd).stateGrad x u = (c.costWith RE E id Rd).stateGrad x u ∧ (c.cost RE E u Rd).ctrlGrad x u = (c.costWith RE E id Rd).ctrlGrad x u ∧
    (c.cost RE E u Rd).stateHess x u = (c.costWith RE E id Rd).stateHess x u ∧ (c.cost RE E u Rd).mixedHess x u = (c.costWith RE E id Rd).mixedHess x u :=
  ⟨rfl, rfl, rfl, rfl, rfl⟩

/-- **C70, finding.** The value does not depend on the control: the gradient with respect to the control is right only when it is zero. -/
theorem C70_finding_control_ignored (c : AngularVelocity m F) (RE : RotExprs) (E : NormExprs) (left : Velocities n) (Rd : Matrix (Fin 3) (Fin 3) ℝ)
    (x : SVec n) (u u' : CVec n) :
    (c.cost RE E left Rd).value x u = (c.cost RE E left Rd).value x u' ∧
    (GradAt (fun v => (c.cost RE E left Rd).value x v) ((c.cost RE E left Rd).ctrlGrad x u fun _ => 0) u ↔
      (c.cost RE E left Rd).ctrlGrad x u (fun _ => 0) = 0) := by
  refine ⟨rfl, ⟨fun h => ?_, fun h => ?_⟩⟩
  · funext p
    exact (h p).unique (hasDerivAt_const _ _)
  · rw [h]; exact fun p => hasDerivAt_const _ _

/-- **C70.** The declared entries cover the second derivatives that are written. -/
theorem C70_sparsity (c : AngularVelocity m F) (RE : RotExprs) (E : NormExprs) (left : Velocities n) (Rd : Matrix (Fin 3) (Fin 3) ℝ) :
    CostSparsityCovers (c.cost (n := n) RE E left Rd) := by
  refine ⟨fun x u p q h => ?_, fun _ _ _ _ h => absurd rfl h, fun x u p q h => ?_⟩
  · obtain ⟨p1, p2⟩ := p
    obtain ⟨q1, q2⟩ := q
    by_contra hn
    apply h
    have hn' : ¬ (((p1 = .baseQuat ∧ p2 < 4) ∨ (p1 = .joints ∧ p2 < nj)) ∧ ((q1 = .baseQuat ∧ q2 < 4) ∨ (q1 = .joints ∧ q2 < nj))) := by
      rintro ⟨hp | hp, hq | hq⟩ <;> obtain ⟨hp1, hp2⟩ := hp <;> obtain ⟨hq1, hq2⟩ := hq <;> subst hp1 <;> subst hq1 <;> apply hn <;>
        simp only [AngularVelocity.cost, AngularVelocity.costWith, List.mem_append]
      · exact Or.inl (Or.inl (Or.inl (mem_dense0 hp2 hq2)))
      · exact Or.inl (Or.inl (Or.inr (mem_dense0 hp2 hq2)))
      · exact Or.inl (Or.inr (mem_dense0 hp2 hq2))
      · exact Or.inr (mem_dense0 hp2 hq2)
    simp only [AngularVelocity.cost, AngularVelocity.costWith, AngularVelocity.stateHessian, Orientation.putBlock]
    rw [dif_neg fun h => hn' ⟨Or.inr h.1, Or.inl h.2⟩, dif_neg fun h => hn' ⟨Or.inl h.1, Or.inr h.2⟩, dif_neg fun h => hn' ⟨Or.inr h.1, Or.inr h.2⟩,
      dif_neg fun h => hn' ⟨Or.inl h.1, Or.inl h.2⟩]
  · obtain ⟨p1, p2⟩ := p
    obtain ⟨q1, q2⟩ := q
    by_contra hn
    apply h
    have hn' : ¬ (((p1 = .baseQuat ∧ p2 < 4) ∨ (p1 = .joints ∧ p2 < nj)) ∧ ((q1 = .quatDer ∧ q2 < 4) ∨ (q1 = .jointVel ∧ q2 < nj))) := by
      rintro ⟨hp | hp, hq | hq⟩ <;> obtain ⟨hp1, hp2⟩ := hp <;> obtain ⟨hq1, hq2⟩ := hq <;> subst hp1 <;> subst hq1 <;> apply hn <;>
        simp only [AngularVelocity.cost, AngularVelocity.costWith, List.mem_append]
      · exact Or.inl (Or.inl (Or.inl (mem_dense0 hp2 hq2)))
      · exact Or.inl (Or.inl (Or.inr (mem_dense0 hp2 hq2)))
      · exact Or.inl (Or.inr (mem_dense0 hp2 hq2))
      · exact Or.inr (mem_dense0 hp2 hq2)
    simp only [AngularVelocity.cost, AngularVelocity.costWith, AngularVelocity.mixedHessian, Orientation.putBlock]
    rw [dif_neg fun h => hn' ⟨Or.inr h.1, Or.inr h.2⟩, dif_neg fun h => hn' ⟨Or.inr h.1, Or.inl h.2⟩, dif_neg fun h => hn' ⟨Or.inl h.1, Or.inr h.2⟩,
      dif_neg fun h => hn' ⟨Or.inl h.1, Or.inl h.2⟩]

/-- **C70.** The calls fail exactly when the desired rotation is not valid at that time; the default is the identity; a null trajectory is refused and
changes nothing. -/
theorem C70_validity (c : AngularVelocity m F) (RE : RotExprs) (E : NormExprs) (left : Velocities n) (r : VelocityRef) (t : ℝ) :
    ((c.atTime RE E left r t = none ↔ r t = none) ∧ ∀ Rd, r t = some Rd → c.atTime RE E left r t = some (c.cost RE E left Rd)) ∧
    c.atTime RE E left VelocityRef.initial t = some (c.cost RE E left 1) ∧ r.set none = (r, false) ∧ ∀ d, r.set (some d) = (d, true) := by
  refine ⟨⟨by simp [AngularVelocity.atTime], fun Rd h => by simp [AngularVelocity.atTime, h]⟩, rfl, rfl, fun _ => rfl⟩

/-! ### Examples -/

/-- The base of the sample robot, and the frame turned of 90 degrees. -/
def sampleVelocity : AngularVelocity sampleModel (Option (Fin 3)) := ⟨sampleServer, some 0, 2⟩
def sampleTurned : AngularVelocity sampleModel (Option (Fin 3)) := ⟨sampleServer, none, 1⟩

/-- The base turns, at the given speed, about its `x` axis or about its `z` axis. -/
def spin (r : ℝ) : Velocities 2 := update 0 (.quatDer, 1) r
def spinZ : Velocities 2 := update 0 (.quatDer, 3) 1

theorem upright_n : quatN uprightState = ![1, 0, 0, 0] := by
  have : quatOf uprightState = ![1, 0, 0, 0] := by
    funext k; fin_cases k <;> simp [quatOf, uprightState]
  rw [quatN, this]
  funext k; fin_cases k <;> simp [Quaternion.normalized, Quaternion.norm, Quaternion.squaredNorm, Fin.sum_univ_four]

theorem spin_quat (r : ℝ) : quatVelOf (spin r) = ![0, r, 0, 0] := by
  funext k; fin_cases k <;> simp [quatVelOf, spin, update]

theorem spinZ_quat : quatVelOf spinZ = ![0, 0, 0, 1] := by
  funext k; fin_cases k <;> simp [quatVelOf, spinZ, update]

theorem upright_twist (v : Velocities 2) : (serverTwist uprightState v).2 = ![2 * v (.quatDer, 1), 2 * v (.quatDer, 2), 2 * v (.quatDer, 3)] := by
  simp only [serverTwist, upright_n]
  funext k; fin_cases k <;> simp [im, skew, mulVec, dotProduct, Fin.sum_univ_three, Matrix.one_apply, vecHead, vecTail, quatVelOf]

theorem upright_body (v : Velocities 2) : (baseTwist uprightState v).2 = ![2 * v (.quatDer, 1), 2 * v (.quatDer, 2), 2 * v (.quatDer, 3)] := by
  simp only [baseTwist, upright_n]
  rw [Quaternion.inverse_entry]
  funext k; fin_cases k <;> simp [quatVelOf]

theorem sampleVelocity_angular (w : Spatial) (x : SVec 2) (v : Velocities 2) : sampleVelocity.angular w x v = w.2 := by
  rw [AngularVelocity.angular]
  show (sampleServer.kin.frameVel w _ _ sampleServer.kin.root 1).2 = _
  rw [Traversal.frameVel, Traversal.vel_root]; simp

/-- The cost of the base of the sample robot, when the desired orientation is the one it has. -/
theorem sampleVelocity_value (RE : RotExprs) (E : NormExprs) (v : Velocities 2) :
    (sampleVelocity.costWith RE E id 1).value uprightState v = 2 * (v (.quatDer, 1) ^ 2 + v (.quatDer, 2) ^ 2 + v (.quatDer, 3) ^ 2) := by
  show (sampleVelocity.cost RE E v 1).value uprightState v = _
  rw [C70_value sampleVelocity RE E sample_regular v 1 uprightState upright_quat v, sampleVelocity_angular, upright_twist]
  have hR : sampleVelocity.frameRotation uprightState = 1 := by
    rw [AngularVelocity.frameRotation]
    show (sampleServer.kin.world _ _ sampleServer.kin.root * 1 : SE3).R = 1
    rw [Traversal.world_root, mul_one, upright_base]
  rw [hR]
  simp [half, rotationError]
  ring

/-- **C70, finding.** The base of the sample robot is upright, as desired, and turns: the gradient with respect to the control that is returned is not
zero, while the value does not depend on the control. -/
theorem C70_finding_control_gradient {RE : RotExprs} {E : NormExprs} {cfg : Cfg ℝ} (hs : Levi.Spec.Sound cfg) (hR : RE.Made cfg) (hE : E.Made cfg) (u : CVec 2) :
    ¬ GradAt (fun v => (sampleVelocity.cost RE E (spin 1) 1).value uprightState v)
      ((sampleVelocity.cost RE E (spin 1) 1).ctrlGrad uprightState u fun _ => 0) u := by
  rw [(C70_finding_control_ignored sampleVelocity RE E (spin 1) 1 uprightState u u).2]
  intro h
  have h1 := (C70_control_derivatives_partial sampleVelocity hs hR hE sample_regular (sampleServer.keepsAxes_ofLink 0) (spin 1) 1 uprightState upright_quat u).1
    (.quatDer, 1)
  rw [h] at h1
  simp only [sampleVelocity_value] at h1
  have h2 : HasDerivAt (fun t : ℝ => 2 * (t ^ 2 + 0 ^ 2 + 0 ^ 2)) 4 1 := by
    have := (((hasDerivAt_pow 2 (1 : ℝ)).add_const ((0 : ℝ) ^ 2)).add_const ((0 : ℝ) ^ 2)).const_mul 2
    refine this.congr_deriv ?_
    norm_num
  have h3 : (fun t : ℝ => 2 * (update (spin 1) (.quatDer, 1) t (.quatDer, 1) ^ 2 + update (spin 1) (.quatDer, 1) t (.quatDer, 2) ^ 2 +
      update (spin 1) (.quatDer, 1) t (.quatDer, 3) ^ 2)) = fun t : ℝ => 2 * (t ^ 2 + 0 ^ 2 + 0 ^ 2) := by
    funext t; simp [spin, update]
  rw [h3, show spin 1 (.quatDer, 1) = 1 by simp [spin]] at h1
  have := h1.unique h2
  norm_num at this

/-- **C70, finding.** Even for the cost that uses the control, the second derivatives with respect to the control are missing. -/
theorem C70_finding_control_hessian (RE : RotExprs) (E : NormExprs) (u : CVec 2) :
    ¬ HessNear (fun v => (sampleVelocity.costWith RE E id 1).value uprightState v)
      ((sampleVelocity.costWith RE E id 1).ctrlHess uprightState u fun _ _ => 0) u := by
  rintro ⟨g, hg, hh⟩
  have h1 := hh (.quatDer, 1) (.quatDer, 1)
  have hg' : ∀ᶠ v in nhds u, g v (.quatDer, 1) = 4 * v (.quatDer, 1) := by
    filter_upwards [hg] with v hv
    have h2 := hv (.quatDer, 1)
    simp only [sampleVelocity_value] at h2
    have h3 : (fun t : ℝ => 2 * (update v (.quatDer, 1) t (.quatDer, 1) ^ 2 + update v (.quatDer, 1) t (.quatDer, 2) ^ 2 +
        update v (.quatDer, 1) t (.quatDer, 3) ^ 2)) = fun t : ℝ => 2 * (t ^ 2 + v (.quatDer, 2) ^ 2 + v (.quatDer, 3) ^ 2) := by
      funext t; simp [update]
    rw [h3] at h2
    have h4 := (((hasDerivAt_pow 2 (v (.quatDer, 1))).add_const (v (.quatDer, 2) ^ 2)).add_const (v (.quatDer, 3) ^ 2)).const_mul 2
    rw [h2.unique h4]
    norm_num; ring
  have hc : ContinuousAt (fun t : ℝ => update u (.quatDer, 1) t) (u (.quatDer, 1)) :=
    (continuous_const.update _ continuous_id).continuousAt
  have h2 := (hc.tendsto.mono_right (by rw [update_eq_self])).eventually hg'
  have h3 : HasDerivAt (fun t : ℝ => 4 * t) 4 (u (.quatDer, 1)) := by simpa using (hasDerivAt_id (u (.quatDer, 1))).const_mul (4 : ℝ)
  have h5 := h1.unique (h3.congr_of_eventuallyEq (by filter_upwards [h2] with t ht; rw [ht]; simp))
  norm_num [AngularVelocity.costWith] at h5

/-- The desired orientation of the last finding: turned of 90 degrees about `z`. -/
def quarterZ : Matrix (Fin 3) (Fin 3) ℝ := !![0, -1, 0; 1, 0, 0; 0, 0, 1]

theorem sampleTurned_angular (w : Spatial) : sampleTurned.angular w uprightState spinZ = ![w.2 0, w.2 2, -w.2 1] := by
  have hj : (jointsOf uprightState : Fin 2 → ℝ) = 0 := by funext k; simp [jointsOf, uprightState]
  have hd : (jointVelOf spinZ : Fin 2 → ℝ) = 0 := by funext k; simp [jointVelOf, spinZ, update]
  rw [AngularVelocity.angular, hj, hd]
  have h1 : (sampleTraversal.jointTransform 0 1).R = 1 := by
    simp [Traversal.jointTransform, sampleTraversal, sampleModel, sampleAxes, Axis.T, rotZ, transZ]
    ext i k; fin_cases i <;> fin_cases k <;> simp
  show (quarterX⁻¹.act (sampleTraversal.vel w 0 0 1)).2 = _
  have h2 : sampleTraversal.vel w 0 0 1 = (sampleTraversal.jointTransform 0 1)⁻¹.act w := by
    rw [Traversal.vel, dif_neg (show (1 : Fin 3) ≠ sampleTraversal.root by decide)]
    show _ + (0 : ℝ) • _ = _
    rw [zero_smul, add_zero]
    have : sampleTraversal.vel w 0 0 (sampleTraversal.parent 1) = w := sampleTraversal.vel_root w 0 0
    rw [this]
  rw [h2]
  simp only [SE3.act, SE3.inv_R, h1, transpose_one, one_mulVec]
  funext k; fin_cases k <;> simp [quarterX, mulVec, dotProduct, Fin.sum_univ_three]

/-- **C70, finding.** For a frame that is not the base, the angular velocity seen from the frame is added to an orientation error in the world: the
cost is not the one of the angular velocity in the world. -/
theorem C70_finding_frames (RE : RotExprs) (E : NormExprs) (u : CVec 2) :
    (sampleTurned.cost RE E spinZ quarterZ).value uprightState u ≠
      half (sampleTurned.worldAngular uprightState spinZ + sampleTurned.gain • rotationError (sampleTurned.frameRotation uprightState) quarterZ) := by
  have hR : sampleTurned.frameRotation uprightState = quarterX.R := sampleOrientation_rotation
  rw [C70_value sampleTurned RE E sample_regular spinZ quarterZ uprightState upright_quat u, AngularVelocity.worldAngular, hR, sampleTurned_angular,
    sampleTurned_angular, upright_twist, upright_body]
  simp [half, rotationError, quarterX, quarterZ, sampleTurned, spinZ, update, mul_apply, Fin.sum_univ_three, mulVec, dotProduct]
  norm_num

example (RE : RotExprs) (E : NormExprs) (left : Velocities 2) (Rd : Matrix (Fin 3) (Fin 3) ℝ) (u : CVec 2) :=
  C70_value sampleTurned RE E sample_regular left Rd uprightState upright_quat u
example (RE : RotExprs) (E : NormExprs) (Rd : Matrix (Fin 3) (Fin 3) ℝ) (u : CVec 2) :=
  C70_base_frame_partial sampleVelocity RE E sample_regular rfl (spin 3) Rd uprightState upright_quat (by rw [upright_n, spin_quat]; simp [Tangent]) u
/-- The derivatives at a turned base, for a link of the robot. -/
example (left : Velocities 2) (Rd : Matrix (Fin 3) (Fin 3) ℝ) (u : CVec 2) : ∃ RE : RotExprs, ∃ E : NormExprs,
    let c : AngularVelocity sampleModel (Option (Fin 3)) := ⟨sampleServer, some 2, 5⟩
    HessNear (fun y => (c.cost RE E left Rd).value y u) ((c.cost RE E left Rd).stateHess (turnedState 2) u fun _ _ => 0) (turnedState 2) ∧
    MixedNear (fun y v => (c.costWith RE E id Rd).value y v) ((c.cost RE E left Rd).mixedHess (turnedState 2) u fun _ _ => 0) (turnedState 2) left := by
  obtain ⟨RE, hR⟩ := C65_expressions_exist Levi.cfgVars_sound
  obtain ⟨E, hE⟩ := C64_expressions_exist Levi.cfgVars_sound
  exact ⟨RE, E, (C70_state_derivatives_partial ⟨sampleServer, some 2, 5⟩ Levi.cfgVars_sound hR hE sample_regular (sampleServer.keepsAxes_ofLink 2) left Rd _ (turned_quat 2) u).2,
    (C70_control_derivatives_partial ⟨sampleServer, some 2, 5⟩ Levi.cfgVars_sound hR hE sample_regular (sampleServer.keepsAxes_ofLink 2) left Rd _ (turned_quat 2) u).2⟩
example (u : CVec 2) : ∃ RE : RotExprs, ∃ E : NormExprs, ¬ GradAt (fun v => (sampleVelocity.cost RE E (spin 1) 1).value uprightState v)
      ((sampleVelocity.cost RE E (spin 1) 1).ctrlGrad uprightState u fun _ => 0) u := by
  obtain ⟨RE, hR⟩ := C65_expressions_exist Levi.cfgVars_sound
  obtain ⟨E, hE⟩ := C64_expressions_exist Levi.cfgVars_sound
  exact ⟨RE, E, C70_finding_control_gradient Levi.cfgVars_sound hR hE u⟩

end
end Verif.NLP.Kin
