import Verif.Spec.Plan
import Verif.Lemmas.Packing
/- The vectors of the optimiser read by label are the fields of the state and of the control. -/
set_option linter.unusedSectionVars false
set_option linter.unusedSimpArgs false
namespace Verif.Plan
open NLP NLP.Kin SolverM StateM Rigid Matrix
open SolverM.Spec (stateVector controlVector pointState pointControl StateSize ControlSize)
noncomputable section
variable {n nj : ℕ}

theorem getD_left (a b : List ℝ) (j : ℕ) (h : j < a.length) : (a ++ b).getD j 0 = a.getD j 0 := by
  simp only [List.getD_eq_getElem?_getD, List.getElem?_append_left h]
theorem getD_right (a b : List ℝ) (j : ℕ) (h : a.length ≤ j) : (a ++ b).getD j 0 = b.getD (j - a.length) 0 := by
  simp only [List.getD_eq_getElem?_getD, List.getElem?_append_right h]

/-- Blocks of a fixed size. -/
theorem getD_blocks {α : Type} (f : α → List ℝ) (k : ℕ) (hf : ∀ a, (f a).length = k) (l : List α) (rest : List ℝ) (i j : ℕ) (a : α)
    (ha : l[i]? = some a) (hj : j < k) : (l.flatMap f ++ rest).getD (k * i + j) 0 = (f a).getD j 0 := by
  induction l generalizing i with
  | nil => simp at ha
  | cons b l ih =>
    rw [List.flatMap_cons, List.append_assoc]
    cases i with
    | zero =>
      simp only [List.getElem?_cons_zero, Option.some.injEq] at ha
      subst ha
      rw [getD_left _ _ _ (by rw [hf]; omega)]
      congr 1; omega
    | succ i =>
      simp only [List.getElem?_cons_succ] at ha
      rw [getD_right _ _ _ (by rw [hf, Nat.mul_succ]; omega), hf]
      rw [show k * (i + 1) + j - k = k * i + j by rw [Nat.mul_succ]; omega]
      exact ih i ha

theorem flatMap_len {α : Type} (f : α → List ℝ) (k : ℕ) (hf : ∀ a, (f a).length = k) (l : List α) : (l.flatMap f).length = k * l.length := by
  induction l with
  | nil => simp
  | cons b l ih => rw [List.flatMap_cons, List.length_append, hf, ih, List.length_cons, Nat.mul_succ]; omega

/-- The part of a list after `k` elements. -/
theorem getD_after (a b : List ℝ) (k j : ℕ) (h : a.length = k) : (a ++ b).getD (k + j) 0 = b.getD j 0 := by
  rw [getD_right _ _ _ (by omega), h]; congr 1; omega

section State
variable {d : ℕ} {s : State ℝ} (q : V4 ℝ) (hs : StateSize d n s)
include hs

theorem left_len : (s.left.flatMap pointState).length = 6 * n := by rw [flatMap_len pointState 6 (fun _ => rfl), hs.left]
theorem right_len : (s.right.flatMap pointState).length = 6 * n := by rw [flatMap_len pointState 6 (fun _ => rfl), hs.right]

theorem state_point (foot : Foot) (i : Fin n) (p : PointState ℝ) (hp : (Spec.points s foot)[(i : ℕ)]? = some p) (k : ℕ) (hk : k < 3) :
    readState (rangesAt d n) (stateVector s q) (.force (side foot) i, k) = (pointState p).getD k 0 ∧
    readState (rangesAt d n) (stateVector s q) (.pos (side foot) i, k) = (pointState p).getD (3 + k) 0 := by
  have hl := left_len hs
  cases foot with
  | left =>
    have h := getD_blocks pointState 6 (fun _ => rfl) s.left
    constructor
    · simp only [readState, side, stateRange, rangesAt, footAt, stateVector, List.append_assoc, List.getElem?_map, List.getElem?_range i.2, Option.map_some,
        Nat.zero_add, if_pos hk]
      exact h _ i k p hp (by omega)
    · simp only [readState, side, stateRange, rangesAt, footAt, stateVector, List.append_assoc, List.getElem?_map, List.getElem?_range i.2, Option.map_some,
        Nat.zero_add, Nat.add_assoc, if_pos hk]
      exact h _ i (3 + k) p hp (by omega)
  | right =>
    have h := getD_blocks pointState 6 (fun _ => rfl) s.right
    constructor
    · simp only [readState, side, stateRange, rangesAt, footAt, stateVector, List.append_assoc, List.getElem?_map, List.getElem?_range i.2, Option.map_some, if_pos hk]
      rw [Nat.add_assoc, getD_after _ _ _ _ hl]
      exact h _ i k p hp (by omega)
    · simp only [readState, side, stateRange, rangesAt, footAt, stateVector, List.append_assoc, List.getElem?_map, List.getElem?_range i.2, Option.map_some, if_pos hk]
      rw [show 6 * n + 6 * (i : ℕ) + 3 + k = 6 * n + (6 * (i : ℕ) + (3 + k)) by omega, getD_after _ _ _ _ hl]
      exact h _ i (3 + k) p hp (by omega)

theorem state_tail (j : ℕ) : (stateVector s q).getD (12 * n + j) 0 =
    ([s.linearMomentum.x, s.linearMomentum.y, s.linearMomentum.z, s.angularMomentum.x, s.angularMomentum.y, s.angularMomentum.z,
      s.com.x, s.com.y, s.com.z, s.base.pos.x, s.base.pos.y, s.base.pos.z, q.w, q.x, q.y, q.z] ++ s.joints).getD j 0 := by
  have : stateVector s q = (s.left.flatMap pointState ++ s.right.flatMap pointState) ++
      ([s.linearMomentum.x, s.linearMomentum.y, s.linearMomentum.z, s.angularMomentum.x, s.angularMomentum.y, s.angularMomentum.z,
      s.com.x, s.com.y, s.com.z, s.base.pos.x, s.base.pos.y, s.base.pos.z, q.w, q.x, q.y, q.z] ++ s.joints) := by
    simp [stateVector]
  rw [this, getD_after _ _ _ _ (by rw [List.length_append, left_len hs, right_len hs]; omega)]

theorem state_momentum (k : ℕ) (hk : k < 6) : readState (n := n) (rangesAt d n) (stateVector s q) (.momentum, k) =
    ([s.linearMomentum.x, s.linearMomentum.y, s.linearMomentum.z, s.angularMomentum.x, s.angularMomentum.y, s.angularMomentum.z,
      s.com.x, s.com.y, s.com.z, s.base.pos.x, s.base.pos.y, s.base.pos.z, q.w, q.x, q.y, q.z] ++ s.joints).getD k 0 := (if_pos hk).trans (state_tail q hs k)
theorem state_com (k : ℕ) (hk : k < 3) : readState (n := n) (rangesAt d n) (stateVector s q) (.com, k) =
    ([s.com.x, s.com.y, s.com.z, s.base.pos.x, s.base.pos.y, s.base.pos.z, q.w, q.x, q.y, q.z] ++ s.joints).getD k 0 := by
  have : readState (n := n) (rangesAt d n) (stateVector s q) (.com, k) = (stateVector s q).getD (12 * n + 6 + k) 0 := if_pos hk
  rw [this, Nat.add_assoc, state_tail q hs, Nat.add_comm]; rfl
theorem state_base (k : ℕ) (hk : k < 3) : readState (n := n) (rangesAt d n) (stateVector s q) (.basePos, k) =
    ([s.base.pos.x, s.base.pos.y, s.base.pos.z, q.w, q.x, q.y, q.z] ++ s.joints).getD k 0 := by
  have : readState (n := n) (rangesAt d n) (stateVector s q) (.basePos, k) = (stateVector s q).getD (12 * n + 9 + k) 0 := if_pos hk
  rw [this, Nat.add_assoc, state_tail q hs, Nat.add_comm]; rfl
theorem state_quat (k : ℕ) (hk : k < 4) : readState (n := n) (rangesAt d n) (stateVector s q) (.baseQuat, k) = ([q.w, q.x, q.y, q.z] ++ s.joints).getD k 0 := by
  have : readState (n := n) (rangesAt d n) (stateVector s q) (.baseQuat, k) = (stateVector s q).getD (12 * n + 12 + k) 0 := if_pos hk
  rw [this, Nat.add_assoc, state_tail q hs, Nat.add_comm]; rfl
theorem state_joints (k : ℕ) : readState (n := n) (rangesAt d n) (stateVector s q) (.joints, k) = s.joints.getD k 0 := by
  by_cases hk : k < d
  · have : readState (n := n) (rangesAt d n) (stateVector s q) (.joints, k) = (stateVector s q).getD (12 * n + 16 + k) 0 := if_pos hk
    rw [this, Nat.add_assoc, state_tail q hs, Nat.add_comm]; rfl
  · have : readState (n := n) (rangesAt d n) (stateVector s q) (.joints, k) = 0 := if_neg hk
    rw [this, List.getD_eq_getElem?_getD, List.getElem?_eq_none (by rw [hs.joints]; omega)]; rfl

theorem read_quat : Dynamics.quatOf (readState (n := n) (rangesAt d n) (stateVector s q)) = Spec.quat q := by
  funext k
  unfold Dynamics.quatOf
  rw [state_quat q hs _ k.2]
  fin_cases k <;> rfl
theorem read_joints : jointsOf (nj := nj) (readState (n := n) (rangesAt d n) (stateVector s q)) = Spec.joints s := by
  funext k
  exact state_joints q hs _
theorem read_basePos : basePosOf (readState (n := n) (rangesAt d n) (stateVector s q)) = toVec s.base.pos := by
  funext k
  unfold basePosOf
  rw [state_base q hs _ k.2]
  fin_cases k <;> rfl
theorem read_pose : baseTransform (readState (n := n) (rangesAt d n) (stateVector s q)) = Spec.pose s q := by
  have e1 : Dynamics.baseRotation (readState (n := n) (rangesAt d n) (stateVector s q)) = (Spec.pose s q).R := by
    unfold Dynamics.baseRotation
    rw [read_quat q hs]; rfl
  unfold baseTransform Spec.pose
  congr 1
  exact read_basePos q hs

end State

section Control
variable {d : ℕ} {c : Control ℝ} (hc : ControlSize d n c)
include hc

theorem leftC_len : (c.left.flatMap pointControl).length = 6 * n := by rw [flatMap_len pointControl 6 (fun _ => rfl), hc.left]
theorem rightC_len : (c.right.flatMap pointControl).length = 6 * n := by rw [flatMap_len pointControl 6 (fun _ => rfl), hc.right]

theorem control_point (foot : Foot) (i : Fin n) (p : PointControl ℝ) (hp : (Spec.inputs c foot)[(i : ℕ)]? = some p) (k : ℕ) (hk : k < 3) :
    readControl (rangesAt d n) (controlVector c) (.velCtl (side foot) i, k) = (pointControl p).getD k 0 ∧
    readControl (rangesAt d n) (controlVector c) (.forceCtl (side foot) i, k) = (pointControl p).getD (3 + k) 0 := by
  have hl := leftC_len hc
  cases foot with
  | left =>
    have h := getD_blocks pointControl 6 (fun _ => rfl) c.left
    constructor
    · simp only [readControl, side, controlRange, rangesAt, footAt, controlVector, List.append_assoc, List.getElem?_map, List.getElem?_range i.2, Option.map_some,
        Nat.zero_add, if_pos hk]
      exact h _ i k p hp (by omega)
    · simp only [readControl, side, controlRange, rangesAt, footAt, controlVector, List.append_assoc, List.getElem?_map, List.getElem?_range i.2, Option.map_some,
        Nat.zero_add, Nat.add_assoc, if_pos hk]
      exact h _ i (3 + k) p hp (by omega)
  | right =>
    have h := getD_blocks pointControl 6 (fun _ => rfl) c.right
    constructor
    · simp only [readControl, side, controlRange, rangesAt, footAt, controlVector, List.append_assoc, List.getElem?_map, List.getElem?_range i.2, Option.map_some, if_pos hk]
      rw [Nat.add_assoc, getD_after _ _ _ _ hl]
      exact h _ i k p hp (by omega)
    · simp only [readControl, side, controlRange, rangesAt, footAt, controlVector, List.append_assoc, List.getElem?_map, List.getElem?_range i.2, Option.map_some, if_pos hk]
      rw [show 6 * n + 6 * (i : ℕ) + 3 + k = 6 * n + (6 * (i : ℕ) + (3 + k)) by omega, getD_after _ _ _ _ hl]
      exact h _ i (3 + k) p hp (by omega)

theorem control_tail (j : ℕ) : (controlVector c).getD (12 * n + j) 0 =
    ([c.baseLinearVelocity.x, c.baseLinearVelocity.y, c.baseLinearVelocity.z, c.baseQuaternionDerivative.w, c.baseQuaternionDerivative.x,
      c.baseQuaternionDerivative.y, c.baseQuaternionDerivative.z] ++ c.jointsVelocity).getD j 0 := by
  have : controlVector c = (c.left.flatMap pointControl ++ c.right.flatMap pointControl) ++
      ([c.baseLinearVelocity.x, c.baseLinearVelocity.y, c.baseLinearVelocity.z, c.baseQuaternionDerivative.w, c.baseQuaternionDerivative.x,
      c.baseQuaternionDerivative.y, c.baseQuaternionDerivative.z] ++ c.jointsVelocity) := by
    simp [controlVector]
  rw [this, getD_after _ _ _ _ (by rw [List.length_append, leftC_len hc, rightC_len hc]; omega)]

theorem read_vel : Dynamics.velOf (readControl (n := n) (rangesAt d n) (controlVector c)) = toVec c.baseLinearVelocity := by
  funext k
  have : readControl (n := n) (rangesAt d n) (controlVector c) (.baseVel, k) = (controlVector c).getD (12 * n + k) 0 := if_pos k.2
  unfold Dynamics.velOf
  rw [this, control_tail hc]
  fin_cases k <;> rfl
theorem read_quatVel : quatVelOf (readControl (n := n) (rangesAt d n) (controlVector c)) = Spec.quat c.baseQuaternionDerivative := by
  funext k
  have : readControl (n := n) (rangesAt d n) (controlVector c) (.quatDer, k) = (controlVector c).getD (12 * n + 3 + k) 0 := if_pos k.2
  unfold quatVelOf
  rw [this, Nat.add_assoc, control_tail hc]
  fin_cases k <;> rfl
theorem read_jointVel : jointVelOf (nj := nj) (readControl (n := n) (rangesAt d n) (controlVector c)) = Spec.jointVelocities c := by
  funext k
  unfold jointVelOf Spec.jointVelocities
  by_cases hk : (k : ℕ) < d
  · have : readControl (n := n) (rangesAt d n) (controlVector c) (.jointVel, k) = (controlVector c).getD (12 * n + 7 + k) 0 := if_pos hk
    rw [this, Nat.add_assoc, control_tail hc, Nat.add_comm 7]; rfl
  · have : readControl (n := n) (rangesAt d n) (controlVector c) (.jointVel, k) = 0 := if_neg hk
    rw [this, List.getD_eq_getElem?_getD, List.getElem?_eq_none (by rw [hc.joints]; omega)]; rfl

end Control

theorem read_twist {d : ℕ} {s : State ℝ} (q : V4 ℝ) (hs : StateSize d n s) {c : Control ℝ} (hc : ControlSize d n c) :
    baseTwist (readState (n := n) (rangesAt d n) (stateVector s q)) (readControl (rangesAt d n) (controlVector c)) = Spec.twist q c := by
  unfold baseTwist Spec.twist quatN
  rw [read_vel hc, read_quatVel hc, read_quat q hs]

end
end Verif.Plan
