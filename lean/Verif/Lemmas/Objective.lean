import Verif.Lemmas.Plan2
import Verif.Spec.Objective
import Verif.Props.Costs
import Verif.Props.FrameOrientationCost
import Verif.Props.FrameVelocityCost
import Verif.Props.StaticTorquesCost
/- The value of each cost of the problem, said with the fields of the state and of the control. -/
set_option linter.unusedSectionVars false
set_option linter.unusedSimpArgs false
namespace Verif.Plan
open NLP NLP.Kin SolverM StateM Rigid Matrix
open SolverM.Spec (stateVector controlVector pointState pointControl StateSize ControlSize)
noncomputable section
variable {n nj : ℕ} {L F T : Type} [DecidableEq L] [DecidableEq F] {m : Model L (Fin nj)} (R : CostObjects m F) (Q : Readings T) (t : ℝ)

/-! ### The norms -/

/-- What is missing without the constant part. -/
def normOffset (w r : List ℝ) : ℝ := 1 / 2 * (List.zipWith (fun a r => a * r * r) w r).sum

theorem norm_eq (cp : Bool) (w x r : List ℝ) (h : x.length = r.length) :
    normValue cp w x r = Spec.halfDistance w x r - (if cp then 0 else normOffset w r) := by
  have key : ∀ w x r : List ℝ, x.length = r.length → Spec.halfDistance w x r =
      1 / 2 * (List.zipWith (fun a (b : ℝ × ℝ) => a * b.1 * b.1) w (List.zip x r)).sum - (List.zipWith (fun a (b : ℝ × ℝ) => a * b.1 * b.2) w (List.zip x r)).sum +
      1 / 2 * (List.zipWith (fun a (b : ℝ × ℝ) => a * b.2 * b.2) w (List.zip x r)).sum := by
    intro w x r
    induction w generalizing x r with
    | nil => simp [Spec.halfDistance]
    | cons a w ih =>
      intro h
      match x, r, h with
      | [], [], _ => simp [Spec.halfDistance]
      | b :: x, d :: r, h =>
        have := ih x r (by simpa using h)
        simp only [Spec.halfDistance] at this
        simp only [Spec.halfDistance, List.zip_cons_cons, List.zipWith_cons_cons, List.sum_cons, this]
        ring
  have off : ∀ w x r : List ℝ, x.length = r.length → (List.zipWith (fun a (b : ℝ × ℝ) => a * b.2 * b.2) w (List.zip x r)).sum =
      (List.zipWith (fun a r => a * r * r) w r).sum := by
    intro w x r
    induction w generalizing x r with
    | nil => simp
    | cons a w ih =>
      intro h
      match x, r, h with
      | [], [], _ => simp
      | b :: x, d :: r, h => simp only [List.zip_cons_cons, List.zipWith_cons_cons, List.sum_cons, ih x r (by simpa using h)]
  rw [key w x r h, normValue, normOffset, ← off w x r h]
  cases cp <;> simp

theorem setOr_eq {α : Type} (f : T → TimeVarying α) (a : α) (r : Option T) : setOr f a r = (r.map f).getD fun _ => some a := by cases r <;> rfl

/-! ### The points -/

variable {s : State ℝ} {c : Control ℝ} (q : V4 ℝ) (hs : StateSize nj n s) (hc : ControlSize nj n c)
include hs hc

local notation "X" => readState (n := n) (rangesAt nj n) (stateVector s q)
local notation "U" => readControl (n := n) (rangesAt nj n) (controlVector c)

theorem point_exists (f : Foot) (i : Fin n) : ∃ p v, (Spec.points s f)[(i : ℕ)]? = some p ∧ (Spec.inputs c f)[(i : ℕ)]? = some v := by
  have hl : (Spec.points s f).length = n := by cases f; exacts [hs.left, hs.right]
  have hi : (Spec.inputs c f).length = n := by cases f; exacts [hc.left, hc.right]
  exact ⟨_, _, List.getElem?_eq_getElem (by omega), List.getElem?_eq_getElem (by omega)⟩

theorem sum_over (f : Foot) (h : Fin n → ℝ) (g : PointState ℝ → ℝ) (e : ∀ (i : Fin n) p, (Spec.points s f)[(i : ℕ)]? = some p → h i = g p) :
    ∑ i, h i = ((Spec.points s f).map g).sum := by
  have hl : (Spec.points s f).length = n := by cases f; exacts [hs.left, hs.right]
  rw [Finset.sum_congr rfl fun i _ => e i ((Spec.points s f)[(i : ℕ)]'(by omega)) (List.getElem?_eq_getElem (by omega)), ← List.sum_ofFn]
  congr 1
  exact List.ext_getElem (by simp [hl]) fun i h1 h2 => by simp

theorem mean_apply (l : List (PointState ℝ)) (g : PointState ℝ → Vec) (k : Fin 3) :
    Spec.mean (l.map g) k = (l.map fun p => g p k).sum / l.length := by
  rw [Spec.mean, Pi.smul_apply, smul_eq_mul, ← sum_apply g l k, List.length_map, div_eq_inv_mul]

theorem points_len (f : Foot) : (Spec.points s f).length = n := by cases f; exacts [hs.left, hs.right]

theorem sum_force (f : Foot) (k : Fin 3) : ∑ j, X (.force (side f) j, (k : ℕ)) = ((Spec.points s f).map fun p => toVec p.force k).sum :=
  sum_over hs hc f _ _ fun j p hp => by
    have := read_force q hs hc f j p hp
    fin_cases k
    exacts [this.1, this.2.1, this.2.2]

theorem sum_position (f : Foot) (k : Fin 3) : ∑ j, X (.pos (side f) j, (k : ℕ)) = ((Spec.points s f).map fun p => toVec p.position k).sum :=
  sum_over hs hc f _ _ fun j p hp => read_position q hs hc f j p hp k

theorem value_forceMean (f : Foot) (i : ℕ) (hi : i < n) : evalBody R Q X U (stateVector s q) (controlVector c) t (.forceMean f i) .forceMean =
    Spec.dedicated R Q t s q c (.forceMean f i) .forceMean := by
  obtain ⟨p, v, hp, hv⟩ := point_exists hs hc f ⟨i, hi⟩
  simp only [evalBody, hi, dif_pos, Spec.dedicated]
  rw [show (Spec.points s f)[i]? = some p from hp]
  simp only [Option.bind_eq_bind, Option.bind_some, Option.some.injEq]
  have h0 := sum_force q hs hc f 0
  have h1 := sum_force q hs hc f 1
  have hr := read_force q hs hc f ⟨i, hi⟩ p hp
  simp only [Fin.val_zero, Fin.val_one] at h0 h1
  rw [forceMean_value, Fin.sum_univ_two]
  simp only [Fin.val_zero, Fin.val_one, hr, h0, h1, Spec.halfSquare, Pi.sub_apply, mean_apply hs hc, points_len hs hc, cons_val]
  simp only [toVec, cons_val]
  ring

theorem value_forceRatio (f : Foot) (i : ℕ) (hi : i < n) (a : ℝ) : evalBody R Q X U (stateVector s q) (controlVector c) t (.forceRatio f i) (.forceRatio a) =
    Spec.dedicated R Q t s q c (.forceRatio f i) (.forceRatio a) := by
  obtain ⟨p, v, hp, hv⟩ := point_exists hs hc f ⟨i, hi⟩
  simp only [evalBody, hi, dif_pos, Spec.dedicated]
  rw [show (Spec.points s f)[i]? = some p from hp]
  simp only [Option.bind_eq_bind, Option.bind_some, Option.some.injEq]
  have h2 := sum_force q hs hc f 2
  have hr := read_force q hs hc f ⟨i, hi⟩ p hp
  simp only [Fin.val_two] at h2
  rw [forceRatio_value, Fin.sum_univ_one, hr.2.2, h2]
  simp only [toVec, cons_val]
  ring

theorem value_swing (f : Foot) (i : ℕ) (hi : i < n) (a : ℝ) (w : V3 ℝ) : evalBody R Q X U (stateVector s q) (controlVector c) t (.swing f i) (.swing a w) =
    Spec.dedicated R Q t s q c (.swing f i) (.swing a w) := by
  obtain ⟨p, v, hp, hv⟩ := point_exists hs hc f ⟨i, hi⟩
  simp only [evalBody, hi, dif_pos, Spec.dedicated]
  rw [show (Spec.points s f)[i]? = some p from hp, show (Spec.inputs c f)[i]? = some v from hv]
  simp only [Option.bind_eq_bind, Option.bind_some, Option.some.injEq]
  have hu := read_inputs hs hc f ⟨i, hi⟩ v hv
  have hr := read_position q hs hc f ⟨i, hi⟩ p hp 2
  simp only [Fin.val_two, toVec, cons_val] at hr
  simp only [swing, vec3, hr, hu, Spec.halfSquare, Pi.smul_apply, toVec, cons_val, smul_eq_mul]
  ring

theorem value_phantom (f : Foot) (i : ℕ) (hi : i < n) (a : ℝ) : evalBody R Q X U (stateVector s q) (controlVector c) t (.phantomForces f i) (.phantomForces a) =
    Spec.dedicated R Q t s q c (.phantomForces f i) (.phantomForces a) := by
  obtain ⟨p, v, hp, hv⟩ := point_exists hs hc f ⟨i, hi⟩
  simp only [evalBody, hi, dif_pos, Spec.dedicated]
  rw [show (Spec.points s f)[i]? = some p from hp]
  simp only [Option.bind_eq_bind, Option.bind_some, Option.some.injEq]
  have hf := read_force q hs hc f ⟨i, hi⟩ p hp
  have hr := read_position q hs hc f ⟨i, hi⟩ p hp 2
  simp only [Fin.val_two, toVec, cons_val] at hr
  simp only [phantomForces, vec3, hr, hf, Smooth.Fn.eval, activation, Smooth.Params.setScaling]
  simp
  ring

theorem value_complementarity (f : Foot) (i : ℕ) (hi : i < n) : evalBody R Q X U (stateVector s q) (controlVector c) t (.complementarity f i) .complementarity =
    Spec.dedicated R Q t s q c (.complementarity f i) .complementarity := by
  obtain ⟨p, v, hp, hv⟩ := point_exists hs hc f ⟨i, hi⟩
  simp only [evalBody, hi, dif_pos, Spec.dedicated]
  rw [show (Spec.points s f)[i]? = some p from hp, show (Spec.inputs c f)[i]? = some v from hv]
  simp only [Option.bind_eq_bind, Option.bind_some, Option.some.injEq]
  have hu := read_inputs hs hc f ⟨i, hi⟩ v hv
  have hf := read_force q hs hc f ⟨i, hi⟩ p hp
  simp only [complementarityCost, vec3, hf, hu]
  ring

theorem value_mean (ref w : Option T) : evalBody R Q X U (stateVector s q) (controlVector c) t .meanPointPosition (.meanPointPosition ref w) =
    Spec.dedicated R Q t s q c .meanPointPosition (.meanPointPosition ref w) := by
  have hp : ∀ f (k : Fin 3), _ := fun f k => sum_position q hs hc f k
  have h00 := hp .left 0
  have h01 := hp .left 1
  have h02 := hp .left 2
  have h10 := hp .right 0
  have h11 := hp .right 1
  have h12 := hp .right 2
  simp only [Fin.val_zero, Fin.val_one, Fin.val_two, side, Spec.points] at h00 h01 h02 h10 h11 h12
  have key : ∀ d (a b e : ℝ), (meanPointPosition d ⟨a, b, e⟩).value X U =
      Spec.halfSquare ![a, b, e] (Spec.mean ((s.left ++ s.right).map fun p => toVec p.position) - toVec d) := by
    intro d a b e
    rw [meanPoint_value, Fin.sum_univ_three]
    simp only [posLin, Fin.val_zero, Fin.val_one, Fin.val_two, h00, h01, h02, h10, h11, h12, Spec.halfSquare, Pi.sub_apply, mean_apply hs hc, cons_val, at3_cases]
    simp only [List.map_append, List.sum_append, List.length_append, hs.left, hs.right]
    simp only [toVec, cons_val, show at3 (V3.mk a b e) 0 = a from rfl, show at3 (V3.mk a b e) 1 = b from rfl, show at3 (V3.mk a b e) 2 = e from rfl,
      show at3 d 0 = d.x from rfl, show at3 d 1 = d.y from rfl, show at3 d 2 = d.z from rfl]
    push_cast
    rw [show (n : ℝ) + n = 2 * n by ring]
    ring
  simp only [evalBody, Spec.dedicated, setOr_eq]
  cases ((ref.map Q.position).getD fun _ => some ⟨0, 0, 0⟩) t with
  | none => rfl
  | some d =>
    cases ((w.map Q.vector).getD fun _ => some [1, 1, 1]) t with
    | none => rfl
    | some w =>
      simp only [Option.bind_eq_bind, Option.bind_some]
      match w with
      | [] | [_] | [_, _] | _ :: _ :: _ :: _ :: _ => rfl
      | [a, b, e] => exact congrArg some (key d a b e)

theorem value_feetDistance : evalBody R Q X U (stateVector s q) (controlVector c) t .feetDistance .feetDistance =
    Spec.dedicated R Q t s q c .feetDistance .feetDistance := by
  have h00 := sum_position q hs hc .left 0
  have h01 := sum_position q hs hc .left 1
  have h02 := sum_position q hs hc .left 2
  have h10 := sum_position q hs hc .right 0
  have h11 := sum_position q hs hc .right 1
  have h12 := sum_position q hs hc .right 2
  simp only [Fin.val_zero, Fin.val_one, Fin.val_two, side, Spec.points] at h00 h01 h02 h10 h11 h12
  simp only [evalBody, Spec.dedicated, Option.some.injEq]
  rw [feetDistance_value, Fin.sum_univ_three]
  simp only [posLin, feetC, Fin.val_zero, Fin.val_one, Fin.val_two, h00, h01, h02, h10, h11, h12, Spec.halfSquare, Pi.sub_apply, mean_apply hs hc, cons_val,
    hs.left, hs.right]
  ring

theorem value_footYaw (f : Foot) (pts : List (V3 ℝ)) (ref : Option T) : evalBody R Q X U (stateVector s q) (controlVector c) t (.footYaw f) (.footYaw pts ref) =
    Spec.dedicated R Q t s q c (.footYaw f) (.footYaw pts ref) := by
  simp only [evalBody, Spec.dedicated, setOr_eq]
  cases (corners pts).bottomRight with
  | none => rfl
  | some br =>
    cases (corners pts).topRight with
    | none => rfl
    | some tr =>
      cases (corners pts).topLeft with
      | none => rfl
      | some tl =>
        simp only [Option.bind_eq_bind, Option.bind_some]
        by_cases h : br < n ∧ tr < n ∧ tl < n
        · obtain ⟨p1, v1, hp1, -⟩ := point_exists hs hc f ⟨br, h.1⟩
          obtain ⟨p2, v2, hp2, -⟩ := point_exists hs hc f ⟨tr, h.2.1⟩
          obtain ⟨p3, v3, hp3, -⟩ := point_exists hs hc f ⟨tl, h.2.2⟩
          rw [dif_pos h, show (Spec.points s f)[br]? = some p1 from hp1, show (Spec.points s f)[tr]? = some p2 from hp2,
            show (Spec.points s f)[tl]? = some p3 from hp3]
          simp only [Option.bind_some]
          congr 1
          funext yaw
          have r1 := fun k => read_position q hs hc f _ p1 hp1 k
          have r2 := fun k => read_position q hs hc f _ p2 hp2 k
          have r3 := fun k => read_position q hs hc f _ p3 hp3 k
          have a1 := r1 0
          have a2 := r1 1
          have b1 := r2 0
          have b2 := r2 1
          have c1 := r3 0
          have c2 := r3 1
          simp only [Fin.val_zero, Fin.val_one, toVec, cons_val] at a1 a2 b1 b2 c1 c2
          simp only [footYaw, vec3, V3.sub_x, V3.sub_y, a1, a2, b1, b2, c1, c2, Option.some.injEq]
          ring
        · rw [dif_neg h]
          by_cases h1 : br < n
          · by_cases h2 : tr < n
            · have h3 : ¬ tl < n := fun h3 => h ⟨h1, h2, h3⟩
              have : (Spec.points s f)[tl]? = none := by rw [List.getElem?_eq_none]; rw [points_len hs hc]; omega
              rw [this]
              cases (Spec.points s f)[br]? <;> cases (Spec.points s f)[tr]? <;> rfl
            · have : (Spec.points s f)[tr]? = none := by rw [List.getElem?_eq_none]; rw [points_len hs hc]; omega
              rw [this]
              cases (Spec.points s f)[br]? <;> rfl
          · have : (Spec.points s f)[br]? = none := by rw [List.getElem?_eq_none]; rw [points_len hs hc]; omega
            rw [this]; rfl

theorem value_postural (w g : List ℝ) (ref : Option T) :
    evalBody R Q X U (stateVector s q) (controlVector c) t .jointsVelocityForPostural (.jointsVelocityForPostural w g ref) =
    Spec.dedicated R Q t s q c .jointsVelocityForPostural (.jointsVelocityForPostural w g ref) := by
  simp only [evalBody, Spec.dedicated]
  cases ref with
  | none => rfl
  | some r =>
    simp only [Option.bind_eq_bind, Option.bind_some]
    congr 1
    funext d
    split_ifs
    · congr 1
      rw [jointsPostural_value]
      rw [Finset.sum_range]
      refine Finset.sum_congr rfl fun j _ => ?_
      have e1 := congrFun (read_joints (nj := nj) q hs) j
      have e2 := congrFun (read_jointVel (nj := nj) hc) j
      simp only [jointsOf, jointVelOf] at e1 e2
      rw [e1, e2]
      ring
    · rfl

theorem value_orientation (frame : String) (ref w : Option T) (h1 : GivesQuaternion R.asQuaternion 1)
    (h : ∀ Rd, ((ref.map Q.rotation).getD fun _ => some 1) t = some Rd → GivesQuaternion R.asQuaternion (Rdᵀ * (Spec.framePose R.toObjects s q frame).R)) :
    evalBody R Q X U (stateVector s q) (controlVector c) t .frameOrientation (.frameOrientation frame ref w) =
    Spec.dedicated R Q t s q c .frameOrientation (.frameOrientation frame ref w) := by
  simp only [evalBody, Spec.dedicated, setOr_eq]
  cases hRd : ((ref.map Q.rotation).getD fun _ => some 1) t with
  | none => rfl
  | some Rd =>
    simp only [Option.bind_eq_bind, Option.bind_some]
    congr 1
    funext w
    congr 1
    have hf : (⟨R.server, R.frame frame, R.asQuaternion⟩ : Orientation m F).frameRotation X = (Spec.framePose R.toObjects s q frame).R := by
      unfold Orientation.frameRotation Spec.framePose
      rw [read_pose q hs, read_joints q hs]
    have := C69_value (⟨R.server, R.frame frame, R.asQuaternion⟩ : Orientation m F) R.norm R.leftover w Rd X U h1 (by rw [hf]; exact h Rd hRd)
    rw [hf] at this
    exact this

theorem value_torques (a b : String) (l r : List (V3 ℝ)) (hl : l.length = n) (hr : r.length = n) (w : List ℝ) (hm : m.Regular)
    (h : R.server.frames.link (R.frame a) ≠ R.server.frames.link (R.frame b)) :
    evalBody R Q X U (stateVector s q) (controlVector c) t .staticTorques (.staticTorques a b l r w) =
    Spec.dedicated R Q t s q c .staticTorques (.staticTorques a b l r w) := by
  simp only [evalBody, Spec.dedicated]
  rw [C68_value]
  congr 2
  refine Finset.sum_congr rfl fun j _ => ?_
  congr 2
  unfold Spec.restTorque
  rw [← read_joints (nj := nj) q hs]
  refine (HasDerivAt.deriv ?_).symm
  have key := C68_torques_hold_the_robot (n := n) (⟨R.server, ![0, 0, -R.gravity], fun s => R.frame (match s with | .left => a | .right => b),
    fun s p => toVec ((match s with | .left => l | .right => r).getD p ⟨0, 0, 0⟩), R.asQuaternion⟩ : StaticTorques m F n) hm h X j
  refine key.congr_of_eventuallyEq (Filter.Eventually.of_forall fun x => ?_)
  simp only [Spec.restEnergy, restEnergy, read_joints (nj := nj) q hs, read_pose q hs, weightEnergy, contactPoint]
  have e1 : ∀ (f : Foot) (l : List (V3 ℝ)) (hl : l.length = n) (T : SE3), ∑ p : Fin n, StaticTorques.pointForce X (side f) p ⬝ᵥ T.point (toVec (l.getD p ⟨0, 0, 0⟩)) =
      (List.zipWith (fun b p => toVec p.force ⬝ᵥ T.point (toVec b)) l (Spec.points s f)).sum := by
    intro f l hl T
    have hp := points_len hs hc f
    have : ∀ p : Fin n, StaticTorques.pointForce X (side f) p = toVec ((Spec.points s f)[(p : ℕ)]'(by omega)).force := by
      intro p
      have := read_force q hs hc f p _ (List.getElem?_eq_getElem (by omega))
      funext k
      fin_cases k
      exacts [this.1, this.2.1, this.2.2]
    rw [Finset.sum_congr rfl fun p _ => by rw [this p], ← List.sum_ofFn]
    congr 1
    refine List.ext_getElem (by simp [hl, hp]) fun i h1 h2 => ?_
    simp only [List.getElem_ofFn, List.getElem_zipWith]
    rw [List.getD_eq_getElem?_getD, List.getElem?_eq_getElem (by simp at h1; omega), Option.getD_some]
  have hL := e1 .left l hl
  have hR := e1 .right r hr
  simp only [side, Spec.points] at hL hR
  rw [hL, hR]
  have : ∀ k, R.gravity * (m.inertia k).mass * (R.server.kin.world (Spec.pose s q) (Function.update (Spec.joints s) j x) k).point (m.inertia k).com 2 =
      -((m.inertia k).mass * (![0, 0, -R.gravity] ⬝ᵥ (R.server.kin.world (Spec.pose s q) (Function.update (Spec.joints s) j x) k).point (m.inertia k).com)) := by
    intro k
    simp [dotProduct, Fin.sum_univ_three]
    ring
  simp only [this]
  ring

theorem value_angularVelocity (frame : String) (g : ℝ) (ref : Option T) (hm : m.Regular) (hq : Spec.quat q ≠ 0) :
    evalBody R Q X U (stateVector s q) (controlVector c) t .frameAngularVelocity (.frameAngularVelocity frame g ref) =
    Spec.dedicated R Q t s q c .frameAngularVelocity (.frameAngularVelocity frame g ref) := by
  simp only [evalBody, Spec.dedicated, setOr_eq]
  congr 1
  funext Rd
  congr 1
  rw [C70_value _ _ _ hm _ _ _ (by rw [read_quat q hs]; exact hq)]
  have hf : (⟨R.server, R.frame frame, g⟩ : AngularVelocity m F).frameRotation X = (Spec.framePose R.toObjects s q frame).R := by
    unfold AngularVelocity.frameRotation Spec.framePose
    rw [read_pose q hs, read_joints q hs]
  have h1 : (Dynamics.velOf (R.held.velocities : Velocities n)) = R.held.linear := by funext k; simp [Dynamics.velOf, Held.velocities]
  have h2 : (quatVelOf (R.held.velocities : Velocities n)) = R.held.quaternion := by funext k; simp [quatVelOf, Held.velocities]
  have h3 : (jointVelOf (R.held.velocities : Velocities n)) = R.held.joints := by funext k; simp [jointVelOf, Held.velocities]
  have hv : (⟨R.server, R.frame frame, g⟩ : AngularVelocity m F).angular (serverTwist X R.held.velocities) X R.held.velocities = Spec.usedVelocity R s q frame := by
    unfold AngularVelocity.angular serverTwist Spec.usedVelocity quatN
    rw [h1, h2, h3, read_quat q hs, read_joints q hs]
    simp only
    congr 3
    generalize Verif.Quaternion.normalized Real.sqrt (Spec.quat q) = e
    generalize R.held.quaternion = d
    simp only [Verif.Quaternion.im, Verif.Quaternion.skew]
    rw [add_mulVec, smul_mulVec, one_mulVec]
    have hx : !![0, -e 3, e 2; e 3, 0, -e 1; -e 2, e 1, 0] *ᵥ ![d 1, d 2, d 3] = ![e 1, e 2, e 3] ⨯₃ ![d 1, d 2, d 3] := by
      funext k
      fin_cases k <;> simp [mulVec, dotProduct, Fin.sum_univ_three, cross_apply] <;> ring
    simp only [cons_val] at hx ⊢
    rw [hx, neg_smul]
    abel
  rw [hf, hv]
  simp only [half, Spec.halfSquare, Spec.orientationError, rotationError, cons_val]
  ring
